import Verif.Proof.ByteMap
import Verif.Model.Adaptive

/-!
# Properties C25, C27-C30: adaptive, memory and temp-file storage

The specifications are in `Verif/Spec/ByteMap.lean`.
-/

set_option linter.unusedSimpArgs false

namespace SD

/-! ### C27 -/

/-- C27: memory storage answers every sequence of writes, writer seeks, reads and
reader seeks exactly like the abstract file (last write wins, positions are
independent) with the two memory-specific limits of `BMap.memStep`. -/
theorem C27_memory_is_byte_map (cl : Option Nat) (s : Mem) (hs : memProvider.create cl = .ok s)
    (ops : List FOp) :
    memStorage.outputsF s ops = (BMap.empty (cl.getD 0)).outputs BMap.memStep ops :=
  ((Mem.Sim.init hs).outputs ops).1

/-- C27, the reading of the specification: a byte returned for a position that has
been written is the last byte written there. -/
theorem C27_memory_returns_last_write (cl : Option Nat) (s : Mem)
    (hs : memProvider.create cl = .ok s) (ops : List FOp) (n : Nat) (bs : List Byte) (i : Nat)
    (b : Byte)
    (hr : (memStorage.doF (memStorage.afterF s ops) (.read n)).1 = .got bs) (hi : i < bs.length)
    (hb : ((BMap.empty (cl.getD 0)).after BMap.memStep ops).val
      (((BMap.empty (cl.getD 0)).after BMap.memStep ops).rp + i) = some b) :
    bs[i]? = some b := by
  obtain ⟨h1, h2⟩ := (Mem.Sim.init hs).outputs ops
  rw [(h2.step (.read n)).1] at hr
  generalize (BMap.empty (cl.getD 0)).after BMap.memStep ops = f at *
  simp only [BMap.memStep] at hr
  split at hr
  · simp at hr
  · simp only [SOut.got.injEq] at hr
    subst hr
    simp only [BMap.bytes, List.length_map, List.length_range] at hi
    simp only [BMap.bytes, List.getElem?_map, List.getElem?_range hi, Option.map_some, hb,
      Option.getD_some]

/-- Overlapping writes: the later one wins. -/
example : memStorage.outputsF { buf := [0, 0, 0, 0], written := 0, rp := 0, wp := 0 }
    [.write [1, 2, 3], .wseek 1, .write [8, 9, 7, 6], .read 9] =
      [.wrote 3, .sought, .wrote 4, .got [1, 8, 9, 7, 6]] := by decide

example : memProvider.create (some 4) = .ok { buf := [0, 0, 0, 0], written := 0, rp := 0, wp := 0 } :=
  rfl

/-! ### C28 -/

/-- C28 fails: with a declared length of 3 and one byte written, a read at position
1 returns a byte that was never written; so does a second sequential read. -/
theorem C28_only_written_violated :
    (∃ s, memProvider.create (some 3) = .ok s ∧
      memStorage.outputsF s [.write [7], .rseek 1, .read 1] = [.wrote 1, .sought, .got [0]]) ∧
    (∃ s, memProvider.create (some 3) = .ok s ∧
      memStorage.outputsF s [.write [7], .read 1, .read 1] = [.wrote 1, .got [7], .got [0]]) :=
  ⟨⟨_, rfl, by decide⟩, ⟨_, rfl, by decide⟩⟩

/-- C28, what holds: if every position of the buffer `[p, p + n)` has been written,
a read returns exactly those bytes, all of them.  Missing: positions not written
yet (the stream has to wait for them). -/
theorem C28_only_written_partial (cl : Option Nat) (s : Mem) (hs : memProvider.create cl = .ok s)
    (ops : List FOp) (n : Nat) (bs : List Byte)
    (hw : ∀ i, i < bs.length → ((BMap.empty (cl.getD 0)).after BMap.memStep ops).val
      (((BMap.empty (cl.getD 0)).after BMap.memStep ops).rp + i) = bs[i]?) (hn : bs.length = n)
    (hpos : 0 < n) :
    (memStorage.doF (memStorage.afterF s ops) (.read n)).1 = .got bs := by
  obtain ⟨h1, h2⟩ := (Mem.Sim.init hs).outputs ops
  rw [(h2.step (.read n)).1]
  -- the number of bytes written bounds the number of distinct written positions
  have key : ∀ (ops : List FOp) (f : BMap) (W : Finset Nat),
      W.card ≤ f.total → (∀ q, f.val q ≠ none → q ∈ W) →
      ∃ W' : Finset Nat, W'.card ≤ (f.after BMap.memStep ops).total ∧
        ∀ q, (f.after BMap.memStep ops).val q ≠ none → q ∈ W' := by
    intro ops
    induction ops with
    | nil => intro f W hc hq; exact ⟨W, hc, hq⟩
    | cons op ops ih =>
      intro f W hc hq
      cases op with
      | write xs =>
        refine ih _ (W ∪ Finset.Ico f.wp (f.wp + xs.length)) ?_ ?_
        · refine Nat.le_trans (Finset.card_union_le _ _) ?_
          rw [Nat.card_Ico]
          simp only [BMap.memStep, BMap.write]
          omega
        · intro q h
          simp only [BMap.memStep, BMap.write, BMap.put] at h
          rw [Finset.mem_union, Finset.mem_Ico]
          split at h
          · exact Or.inr ‹_›
          · exact Or.inl (hq q h)
      | wseek p => exact ih _ W hc hq
      | rseek p => exact ih _ W hc hq
      | read m =>
        refine ih _ W ?_ ?_
        · simp only [BMap.memStep]; split <;> exact hc
        · simp only [BMap.memStep]; split <;> exact hq
  obtain ⟨W, hc, hq⟩ := key ops (BMap.empty (cl.getD 0)) ∅ (by simp) (by simp [BMap.empty])
  have hlt := h2.none
  generalize (BMap.empty (cl.getD 0)).after BMap.memStep ops = f at *
  have hsome : ∀ i, i < n → f.val (f.rp + i) ≠ none := by
    intro i hi
    rw [hw i (by omega)]
    simp; omega
  have hlen : f.rp + n ≤ f.len := by
    by_contra hcon
    exact hsome (n - 1) (by omega) (hlt _ (by omega))
  have htot : n ≤ f.total := by
    have hsub : Finset.Ico f.rp (f.rp + n) ⊆ W := by
      intro q h
      rw [Finset.mem_Ico] at h
      have := hq _ (hsome (q - f.rp) (by omega))
      rwa [Nat.add_sub_cancel' h.1] at this
    have := Finset.card_le_card hsub
    rw [Nat.card_Ico] at this
    omega
  simp only [BMap.memStep, if_neg (show ¬f.len < f.rp by omega), SOut.got.injEq]
  rw [show min (min (f.len - f.rp) f.total) n = n by omega]
  apply List.ext_getElem?
  intro i
  by_cases hi : i < n
  · have h3 := hw i (by omega)
    have h4 : bs[i]? = some (bs[i]'(by omega)) := by simp
    rw [h4] at h3 ⊢
    simp [BMap.bytes, List.getElem?_map, List.getElem?_range hi, h3]
  · rw [List.getElem?_eq_none (by simp [BMap.bytes]; omega), List.getElem?_eq_none (by omega)]

/-- Four bytes written at 2, the reader moved to 3. -/
example :
    let f := (BMap.empty 0).after BMap.memStep [.wseek 2, .write [1, 2, 3, 4], .rseek 3]
    ∀ i, i < [2, 3].length → f.val (f.rp + i) = [2, 3][i]? := by decide

/-! ### C29 -/

/-- C29 fails: with unknown length, moving the reader beyond what has been written
and reading panics. -/
theorem C29_no_panic_violated : ∃ s, memProvider.create none = .ok s ∧
    memStorage.outputsF s [.write [1, 2], .rseek 3, .read 1] = [.wrote 2, .sought, .crashed] :=
  ⟨_, rfl, by decide⟩

/-- C29, what holds: a read crashes exactly if the reader is beyond the end of the
storage (the declared length, or the end of the furthest write).  Missing: readers
beyond the end. -/
theorem C29_no_panic_partial (cl : Option Nat) (s : Mem) (hs : memProvider.create cl = .ok s)
    (ops : List FOp) (n : Nat) :
    (memStorage.doF (memStorage.afterF s ops) (.read n)).1 = .crashed ↔
      ((BMap.empty (cl.getD 0)).after BMap.memStep ops).len <
        ((BMap.empty (cl.getD 0)).after BMap.memStep ops).rp := by
  obtain ⟨h1, h2⟩ := (Mem.Sim.init hs).outputs ops
  rw [(h2.step (.read n)).1]
  generalize (BMap.empty (cl.getD 0)).after BMap.memStep ops = f at *
  simp only [BMap.memStep]
  split <;> simp_all

example : ((BMap.empty 3).after BMap.memStep [.write [1, 2], .rseek 3]).rp ≤
    ((BMap.empty 3).after BMap.memStep [.write [1, 2], .rseek 3]).len := by decide

/-! ### C30 -/

/-- C30: temp-file storage, read the way the stream reads it, answers every
sequence of writes, writer seeks, reads and reader seeks exactly like the abstract
file: the read buffer is never observable. -/
theorem C30_temp_never_stale (cl : Option Nat) (s : Tmp) (hs : tmpProvider.create cl = .ok s)
    (ops : List FOp) :
    tmpStorage.outputsF s ops = (BMap.empty 0).outputs BMap.fileStep ops :=
  ((Tmp.Sim.init (cl := cl) hs).outputs ops).1

/-- A read of one byte buffers two; the second is then overwritten before it is
read. -/
example : ∃ s, tmpProvider.create none = .ok s ∧
    tmpStorage.outputsF s [.write [1, 2], .read 1, .wseek 1, .write [9, 8], .read 2] =
      [.wrote 2, .got [1], .sought, .wrote 2, .got [9, 8]] := ⟨_, rfl, by decide⟩

/-- Without asking for the position first, the same reads would return the stale
byte: the theorem is about what the stream does, not about `BufReader` alone. -/
example : (Tmp.read { file := [1, 9, 8], wp := 3, fp := 2, rbuf := [2] } 2) =
    .ok ([2], { file := [1, 9, 8], wp := 3, fp := 2, rbuf := [] }) := by decide

/-! ### C25 -/

/-- Create a storage for a content length and observe a list of operations. -/
def Provider.observe (P : Provider) (cl : Option Nat) (ops : List SOp) : Res (List SOut) :=
  (P.create cl).map (fun s => P.S.outputs s ops)

theorem outputs_congr {A B : Storage} (f : A.σ → B.σ)
    (h : ∀ s op, (B.doOp (f s) op).1 = (A.doOp s op).1 ∧ (B.doOp (f s) op).2 = f (A.doOp s op).2)
    (ops : List SOp) : ∀ s, B.outputs (f s) ops = A.outputs s ops := by
  induction ops with
  | nil => intro s; rfl
  | cons op ops ih =>
    intro s
    simp only [Storage.outputs]
    rw [(h s op).1, (h s op).2, ih]

theorem adp_bounded (checks : Bool) (F V : Storage) (s : Bnd F) (op : SOp) :
    ((adpStorage checks F V).doOp (.bounded s) op).1 = ((bndStorage checks F).doOp s op).1 ∧
    ((adpStorage checks F V).doOp (.bounded s) op).2 = .bounded ((bndStorage checks F).doOp s op).2 := by
  cases op with
  | write bs =>
    simp only [Storage.doOp, Res.map]
    rcases Bnd.writeOp checks s bs with a | k | _
    · exact ⟨rfl, rfl⟩
    · cases k <;> exact ⟨rfl, rfl⟩
    · exact ⟨rfl, rfl⟩
  | read n =>
    simp only [Storage.doOp, Res.map]
    rcases Bnd.readOp checks s n with a | k | _
    · exact ⟨rfl, rfl⟩
    · cases k <;> exact ⟨rfl, rfl⟩
    · exact ⟨rfl, rfl⟩
  | seek p =>
    simp only [Storage.doOp, Res.map]
    rcases Bnd.rseek checks s p with a | k | _
    · exact ⟨rfl, rfl⟩
    · cases k <;> exact ⟨rfl, rfl⟩
    · exact ⟨rfl, rfl⟩

theorem adp_fixed (checks : Bool) (F V : Storage) (s : F.σ) (op : SOp) :
    ((adpStorage checks F V).doOp (.fixed s) op).1 = (F.doOp s op).1 ∧
    ((adpStorage checks F V).doOp (.fixed s) op).2 = .fixed (F.doOp s op).2 := by
  cases op with
  | write bs =>
    simp only [Storage.doOp, Res.map]
    rcases F.write s bs with a | k | _
    · exact ⟨rfl, rfl⟩
    · cases k <;> exact ⟨rfl, rfl⟩
    · exact ⟨rfl, rfl⟩
  | read n =>
    simp only [Storage.doOp, Res.map]
    rcases F.read s n with a | k | _
    · exact ⟨rfl, rfl⟩
    · cases k <;> exact ⟨rfl, rfl⟩
    · exact ⟨rfl, rfl⟩
  | seek p =>
    simp only [Storage.doOp, Res.map]
    rcases F.rseek s p with a | k | _
    · exact ⟨rfl, rfl⟩
    · cases k <;> exact ⟨rfl, rfl⟩
    · exact ⟨rfl, rfl⟩

theorem adp_variable (checks : Bool) (F V : Storage) (s : V.σ) (op : SOp) :
    ((adpStorage checks F V).doOp (.variable s) op).1 = (V.doOp s op).1 ∧
    ((adpStorage checks F V).doOp (.variable s) op).2 = .variable (V.doOp s op).2 := by
  cases op with
  | write bs =>
    simp only [Storage.doOp, Res.map]
    rcases V.write s bs with a | k | _
    · exact ⟨rfl, rfl⟩
    · cases k <;> exact ⟨rfl, rfl⟩
    · exact ⟨rfl, rfl⟩
  | read n =>
    simp only [Storage.doOp, Res.map]
    rcases V.read s n with a | k | _
    · exact ⟨rfl, rfl⟩
    · cases k <;> exact ⟨rfl, rfl⟩
    · exact ⟨rfl, rfl⟩
  | seek p =>
    simp only [Storage.doOp, Res.map]
    rcases V.rseek s p with a | k | _
    · exact ⟨rfl, rfl⟩
    · cases k <;> exact ⟨rfl, rfl⟩
    · exact ⟨rfl, rfl⟩

/-- C25: whatever is done with it, adaptive storage cannot be told apart from the
bounded storage if the length is unknown, from the fixed storage if the length is
at most the buffer size, and from the variable storage otherwise. -/
theorem C25_adaptive_choice (checks : Bool) (F V : Provider) (bufferSize : Nat) (cl : Option Nat)
    (ops : List SOp) :
    (adpProvider checks F V bufferSize).observe cl ops =
      match cl with
      | none => (bndProvider checks F bufferSize).observe none ops
      | some n => if n ≤ bufferSize then F.observe (some n) ops else V.observe (some n) ops := by
  cases cl with
  | none =>
    simp only [Provider.observe, Adp.mk?]
    rcases Bnd.mk? F bufferSize none with a | k | _
    · simp only [Res.map]
      rw [outputs_congr (A := bndStorage checks F.S) (B := adpStorage checks F.S V.S) Adp.bounded
        (adp_bounded checks F.S V.S)]
    · rfl
    · rfl
  | some n =>
    simp only [Provider.observe, Adp.mk?]
    split
    · rcases F.create (some n) with a | k | _
      · simp only [Res.map]
        rw [outputs_congr (B := adpStorage checks F.S V.S) Adp.fixed (adp_fixed checks F.S V.S)]
      · rfl
      · rfl
    · rcases V.create (some n) with a | k | _
      · simp only [Res.map]
        rw [outputs_congr (B := adpStorage checks F.S V.S) Adp.variable (adp_variable checks F.S V.S)]
      · rfl
      · rfl

/-- The writer side of C25: writer seeks and positions are delegated as well. -/
theorem C25_adaptive_writer (checks : Bool) (F V : Storage) (p : Nat) :
    (∀ s : Bnd F, (adpStorage checks F V).wseek (.bounded s) p =
        ((bndStorage checks F).wseek s p).map .bounded ∧
      (adpStorage checks F V).wtell (.bounded s) = (bndStorage checks F).wtell s) ∧
    (∀ s : F.σ, (adpStorage checks F V).wseek (.fixed s) p = (F.wseek s p).map .fixed ∧
      (adpStorage checks F V).wtell (.fixed s) = F.wtell s) ∧
    (∀ s : V.σ, (adpStorage checks F V).wseek (.variable s) p = (V.wseek s p).map .variable ∧
      (adpStorage checks F V).wtell (.variable s) = V.wtell s) :=
  ⟨fun _ => ⟨rfl, rfl⟩, fun _ => ⟨rfl, rfl⟩, fun _ => ⟨rfl, rfl⟩⟩

-- the three choices behave differently for the same operations
example : (adpProvider true memProvider tmpProvider 2).observe none [.write [1, 2, 3], .read 3] =
    .ok [.wrote 2, .rejected] := by decide
example : (adpProvider true memProvider tmpProvider 2).observe (some 2) [.write [1], .read 1, .read 1] =
    .ok [.wrote 1, .got [1], .got [0]] := by decide
example : (adpProvider true memProvider tmpProvider 2).observe (some 3) [.write [1], .read 1, .read 1] =
    .ok [.wrote 1, .got [1], .got []] := by decide

end SD
