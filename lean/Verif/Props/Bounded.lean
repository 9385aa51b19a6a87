import Verif.Proof.BoundedTotal
import Verif.Proof.Memory
import Verif.Proof.Temp

/-!
# Properties C20-C24: bounded storage

The specifications are in `Verif/Spec/Queue.lean`.  Theorems are stated for every
inner storage that satisfies the laws of `Verif/Spec/Storage.lean` and never
fails; memory and temp-file storage are instances.
-/

set_option linter.unusedSimpArgs false

namespace SD

/-! ### C20 -/

/-- C20: without seeks, a bounded storage answers every sequence of writes and
reads exactly like a FIFO queue of at most `boundedCap bufferSize cl` bytes. -/
theorem C20_bounded_is_fifo (checks : Bool) (P : Provider) (bufferSize : Nat) (cl : Option Nat)
    (L : LawfulProvider P true (some (Bnd.sizeFor bufferSize cl))) (T : Total L.law)
    (s : Bnd P.S) (hs : (bndProvider checks P bufferSize).create cl = .ok s)
    (ops : List SOp) (hns : ∀ p, SOp.seek p ∉ ops) :
    (bndStorage checks P.S).outputs s ops =
      Fifo.outputs (boundedCap bufferSize cl) [] ops := by
  obtain ⟨h1, h2⟩ := Tape.outputs_fifo (Bnd.sizeFor bufferSize cl) ops Tape.empty hns (by simp [Tape.empty])
    (by simp [Tape.empty])
  have h3 := ((Bnd.Sim.init L hs).outputs (checks := checks) T ops h2).1
  rw [h3, h1]
  cases cl <;> rfl

/-- C20 for `BoundedStorageProvider` over `MemoryStorageProvider`. -/
theorem C20_bounded_memory_is_fifo (checks : Bool) (bufferSize : Nat) (ops : List SOp)
    (hns : ∀ p, SOp.seek p ∉ ops) :
    ∃ s, (bndProvider checks memProvider bufferSize).create none = .ok s ∧
      (bndStorage checks memStorage).outputs s ops = Fifo.outputs bufferSize [] ops :=
  ⟨_, rfl, C20_bounded_is_fifo checks memProvider bufferSize none (memLawfulProvider _) memTotal _
    rfl ops hns⟩

/-- C20 for `BoundedStorageProvider` over `TempStorageProvider`. -/
theorem C20_bounded_temp_is_fifo (checks : Bool) (bufferSize : Nat) (ops : List SOp)
    (hns : ∀ p, SOp.seek p ∉ ops) :
    ∃ s, (bndProvider checks tmpProvider bufferSize).create none = .ok s ∧
      (bndStorage checks tmpStorage).outputs s ops = Fifo.outputs bufferSize [] ops :=
  ⟨_, rfl, C20_bounded_is_fifo checks tmpProvider bufferSize none (tmpLawfulProvider _) tmpTotal _
    rfl ops hns⟩

/-- A run that wraps around twice in a buffer of 4 bytes. -/
def wrapOps : List SOp :=
  [.write [1, 2, 3], .read 2, .write [4, 5, 6, 7], .read 4, .write [8, 9, 10], .read 1, .read 4]

example : (∀ p, SOp.seek p ∉ wrapOps) ∧
    Fifo.outputs 4 [] wrapOps =
      [.wrote 3, .got [1, 2], .wrote 3, .got [3, 4, 5, 6], .wrote 3, .got [8], .got [9, 10]] :=
  ⟨by simp [wrapOps], by decide⟩

/-! ### Reachable states -/

/-- What every operation, successful or not, preserves. -/
theorem Bnd.after_rep {I : Storage} (L : Lawful I true) (checks : Bool) (ops : List SOp) :
    ∀ {s : Bnd I}, Bnd.Rep L s → (∀ x, s.size ≤ x → L.cell s.inner x = none) →
    Bnd.Rep L ((bndStorage checks I).after s ops) ∧
    ((bndStorage checks I).after s ops).size = s.size ∧
    (∀ x, s.size ≤ x → L.cell ((bndStorage checks I).after s ops).inner x = none) ∧
    ((bndStorage checks I).after s ops).wp =
      s.wp + (((bndStorage checks I).outputs s ops).map
        (fun o => match o with | .wrote k => k | _ => 0)).sum := by
  induction ops with
  | nil => intro s h h0; exact ⟨h, rfl, h0, by simp [Storage.after, Storage.outputs]⟩
  | cons op ops ih =>
    intro s h h0
    have key : Bnd.Rep L ((bndStorage checks I).doOp s op).2 ∧
        (((bndStorage checks I).doOp s op).2).size = s.size ∧
        (∀ x, s.size ≤ x → L.cell (((bndStorage checks I).doOp s op).2).inner x = none) ∧
        (((bndStorage checks I).doOp s op).2).wp = s.wp +
          (match ((bndStorage checks I).doOp s op).1 with | .wrote k => k | _ => 0) := by
      cases op with
      | write bs =>
        unfold Storage.doOp
        dsimp only
        split
        · next k s' hw =>
          obtain ⟨-, a2, -, a4, a5, -, -, -, -, -, -, -, a13⟩ := Bnd.writeOp_ok L h hw
          refine ⟨a2, a5, ?_, a4⟩
          intro x hx
          by_contra hc
          exact a13 x hx hc (h0 x hx)
        all_goals exact ⟨h, rfl, h0, rfl⟩
      | read n =>
        unfold Storage.doOp
        dsimp only
        split
        · next bs s' hr =>
          obtain ⟨-, -, a3, -, a5, a6, -⟩ := Bnd.readOp_ok L h hr
          refine ⟨a3, a6, ?_, a5⟩
          intro x hx
          -- reading does not change the inner cells
          unfold Bnd.readOp at hr
          split at hr
          · simp at hr
          · split at hr
            · simp at hr
            · split at hr
              · simp only [Res.ok.injEq, Prod.mk.injEq] at hr
                rw [← hr.2]; exact h0 x hx
              · next h1 h2 h3 =>
                dsimp only at hr
                split at hr
                · simp only [Res.ok.injEq, Prod.mk.injEq] at hr
                  rw [← hr.2]; exact h0 x hx
                · next hk =>
                  split at hr
                  · next start last hst hla =>
                    split at hr
                    · simp at hr
                    · simp at hr
                    · next bs1 i1 hri =>
                      simp only [Res.ok.injEq, Prod.mk.injEq] at hr
                      obtain ⟨W', hinv, hwin⟩ := h
                      have hml : s.rp % s.size ≤ s.rp := Nat.mod_le _ _
                      obtain ⟨-, -, -, -, b5⟩ :=
                        Bnd.readInner_ok L hinv (by omega) (by omega) hst hla (by omega) hri
                      rw [← hr.2]
                      dsimp only
                      rw [b5]
                      exact h0 x hx
                  · simp at hr
        all_goals exact ⟨h, rfl, h0, rfl⟩
      | seek p =>
        unfold Storage.doOp
        dsimp only
        split
        · next s' hr =>
          unfold Bnd.rseek at hr
          split at hr
          · simp at hr
          · simp at hr
          · simp only [Res.ok.injEq] at hr
            subst hr
            exact ⟨h, rfl, h0, rfl⟩
        all_goals exact ⟨h, rfl, h0, rfl⟩
    obtain ⟨k1, k2, k3, k4⟩ := key
    obtain ⟨b1, b2, b3, b4⟩ := ih k1 (by rw [k2]; exact k3)
    refine ⟨b1, by rw [← k2]; exact b2, by rw [← k2]; exact b3, ?_⟩
    simp only [Storage.after, Storage.outputs, List.map_cons, List.sum_cons]
    rw [b4, k4]
    omega

theorem Bnd.init_rep {P : Provider} {bufferSize : Nat} {cl : Option Nat}
    (L : LawfulProvider P true (some (Bnd.sizeFor bufferSize cl))) {s : Bnd P.S}
    (h : Bnd.mk? P bufferSize cl = .ok s) :
    Bnd.Rep L.law s ∧ s.size = Bnd.sizeFor bufferSize cl ∧ s.wp = 0 ∧
    ∀ x, s.size ≤ x → L.law.cell s.inner x = none := by
  unfold Bnd.mk? at h
  split at h
  · simp at h
  · simp at h
  · next i hi =>
    simp only [Res.ok.injEq] at h
    subst h
    obtain ⟨a1, -, -, -, -, a6⟩ := L.create_ok hi
    refine ⟨⟨∅, a1, by simp⟩, rfl, rfl, ?_⟩
    intro x hx
    by_contra hc
    obtain ⟨-, n, hn, hlt⟩ := a6 x hc
    simp only [Option.some.injEq] at hn
    subst hn
    simp only at hx
    omega

/-! ### C21 -/

/-- Without seeks of the writer its counter never falls below zero. -/
theorem Bnd.after_written {I : Storage} (L : Lawful I true) (checks : Bool) (ops : List SOp) :
    ∀ {s : Bnd I}, Bnd.Rep L s → (∀ x, s.size ≤ x → L.cell s.inner x = none) → 0 ≤ s.written →
    0 ≤ ((bndStorage checks I).after s ops).written := by
  induction ops with
  | nil => intro s _ _ h; exact h
  | cons op ops ih =>
    intro s h h0 hw
    obtain ⟨b1, b2, b3, -⟩ := Bnd.after_rep L checks [op] h h0
    simp only [Storage.after] at b1 b2 b3
    refine ih b1 (by rw [b2]; exact b3) ?_
    cases op with
    | write bs =>
      unfold Storage.doOp
      dsimp only
      split
      · next k s' hk =>
        obtain ⟨-, -, -, -, -, -, a6, -⟩ := Bnd.writeOp_ok L h hk
        dsimp only
        omega
      all_goals exact hw
    | read n =>
      unfold Storage.doOp
      dsimp only
      split
      · next bs s' hr =>
        obtain ⟨-, -, -, -, -, -, a7, -⟩ := Bnd.readOp_ok L h hr
        dsimp only
        omega
      all_goals exact hw
    | seek p =>
      unfold Storage.doOp
      dsimp only
      split
      · next s' hr =>
        unfold Bnd.rseek at hr
        split at hr <;> try (simp at hr; done)
        simp only [Res.ok.injEq] at hr
        subst hr
        exact hw
      all_goals exact hw

/-- C21: in every state reached by any writes, reads and seeks of the reader, a
write does not change what the reader has not consumed: whatever a read would have
returned before the write, it returns after the write as well (possibly followed
by more). -/
theorem C21_write_keeps_unread (checks : Bool) (P : Provider) (bufferSize : Nat) (cl : Option Nat)
    (L : LawfulProvider P true (some (Bnd.sizeFor bufferSize cl))) (T : Total L.law)
    (s0 : Bnd P.S) (hs : (bndProvider checks P bufferSize).create cl = .ok s0) (ops : List SOp)
    (xs : List Byte) (n : Nat) (bs : List Byte)
    (hr : ((bndStorage checks P.S).doOp ((bndStorage checks P.S).after s0 ops) (.read n)).1 = .got bs) :
    ∃ more, ((bndStorage checks P.S).doOp
      ((bndStorage checks P.S).after s0 (ops ++ [.write xs])) (.read n)).1 = .got (bs ++ more) := by
  obtain ⟨i1, i2, i3, i4⟩ := Bnd.init_rep L hs
  obtain ⟨r1, r2, r3, r4⟩ := Bnd.after_rep L.law checks ops i1 i4
  have hap : ∀ (ops : List SOp) (s : Bnd P.S),
      (bndStorage checks P.S).after s (ops ++ [.write xs]) =
      ((bndStorage checks P.S).doOp ((bndStorage checks P.S).after s ops) (.write xs)).2 := by
    intro ops
    induction ops with
    | nil => intro s; rfl
    | cons op ops ih => intro s; simp only [List.cons_append, Storage.after]; exact ih _
  rw [hap]
  have i5 : s0.written = 0 := by
    have hs : Bnd.mk? P bufferSize cl = .ok s0 := hs
    simp only [Bnd.mk?] at hs
    split at hs <;> try (simp at hs; done)
    simp only [Res.ok.injEq] at hs; subst hs
    rfl
  have hwr := Bnd.after_written L.law checks ops i1 i4 (by rw [i5])
  generalize (bndStorage checks P.S).after s0 ops = s at *
  obtain ⟨⟨k, s'⟩, hw⟩ := Bnd.writeOp_total (checks := checks) (bs := xs) T r1
  obtain ⟨a1, a2, a3, a4, a5, a6, a7, a8, a9, a10, a11, -⟩ := Bnd.writeOp_ok L.law r1 hw
  simp only [Storage.doOp, hw]
  unfold Storage.doOp at hr
  dsimp only at hr
  split at hr
  · next bs1 s1 hr1 =>
    simp only [SOut.got.injEq] at hr
    subst hr
    obtain ⟨c1, c2, c3, c4, c5, c6, c7, c8, c9, c10, c11, c12⟩ := Bnd.readOp_ok L.law r1 hr1
    obtain ⟨⟨bs2, s2⟩, hr2⟩ := Bnd.readOp_total (checks := checks) (n := n) T a2 (by omega)
      (by omega)
    obtain ⟨d1, d2, d3, d4, d5, d6, d7, d8, d9, d10, d11, d12⟩ := Bnd.readOp_ok L.law a2 hr2
    have hle : bs1.length ≤ bs2.length := by
      rw [c12, d12]
      split
      · omega
      · next hx =>
        have hc : Bnd.cnt s'.written = Bnd.cnt s.written + k := by unfold Bnd.cnt; grind
        have hd : Bnd.cnt s'.read = Bnd.cnt s.read := by rw [a6]
        rw [if_neg (by omega)]; omega
    refine ⟨bs2.drop bs1.length, ?_⟩
    rw [hr2]
    simp only [SOut.got.injEq]
    apply List.ext_getElem?
    intro j
    by_cases hj : j < bs1.length
    · rw [List.getElem?_append_left hj, ← d2 j (by omega), ← c2 j hj, a3]
      have hcj := c2 j hj
      have hd : bs1[j]? = some (bs1[j]'hj) := by simp
      rw [hd] at hcj
      rw [hcj]
      exact a11 _ _ (by omega) hcj
    · rw [List.getElem?_append_right (by omega), List.getElem?_drop]
      congr 1; omega
  · simp at hr
  · simp at hr
  · simp at hr

/-- C21: the inner storage is never used at or beyond the configured size, here for
memory: the buffer never grows beyond it, whatever is written, read and sought. -/
theorem C21_memory_never_grows (checks : Bool) (bufferSize : Nat) (cl : Option Nat) (s0 : Bnd memStorage)
    (hs : (bndProvider checks memProvider bufferSize).create cl = .ok s0) (ops : List SOp) :
    ((bndStorage checks memStorage).after s0 ops).inner.buf.length ≤ bufferSize := by
  obtain ⟨i1, i2, i3, i4⟩ := Bnd.init_rep (memLawfulProvider _) hs
  obtain ⟨r1, r2, r3, r4⟩ := Bnd.after_rep memLawful checks ops i1 i4
  have h := r3 s0.size (Nat.le_refl _)
  have h : (((bndStorage checks memStorage).after s0 ops).inner.buf)[s0.size]? = none := h
  rw [List.getElem?_eq_none_iff] at h
  have : Bnd.sizeFor bufferSize cl ≤ bufferSize := by
    cases cl <;> simp [Bnd.sizeFor]
  omega

/-- C21: the same for the temp file. -/
theorem C21_temp_never_grows (checks : Bool) (bufferSize : Nat) (cl : Option Nat) (s0 : Bnd tmpStorage)
    (hs : (bndProvider checks tmpProvider bufferSize).create cl = .ok s0) (ops : List SOp) :
    ((bndStorage checks tmpStorage).after s0 ops).inner.file.length ≤ bufferSize := by
  obtain ⟨i1, i2, i3, i4⟩ := Bnd.init_rep (tmpLawfulProvider _) hs
  obtain ⟨r1, r2, r3, r4⟩ := Bnd.after_rep tmpLawful checks ops i1 i4
  have h := r3 s0.size (Nat.le_refl _)
  have h : (((bndStorage checks tmpStorage).after s0 ops).inner.file)[s0.size]? = none := h
  rw [List.getElem?_eq_none_iff] at h
  have : Bnd.sizeFor bufferSize cl ≤ bufferSize := by
    cases cl <;> simp [Bnd.sizeFor]
  omega

/-- A bounded memory storage of 4 bytes, unknown content length. -/
def bnd4 : Bnd memStorage :=
  { inner := { buf := [0, 0, 0, 0], written := 0, rp := 0, wp := 0 }
    read := 0, written := 0, rp := 0, wp := 0, size := 4 }

example : (bndProvider true memProvider 4).create none = .ok bnd4 := rfl

-- the hypothesis of `C21_write_keeps_unread` after a wraparound
example : ((bndStorage true memStorage).doOp ((bndStorage true memStorage).after bnd4
    [.write [1, 2, 3, 4], .read 3, .write [5]]) (.read 3)).1 = .got [4, 5] := by decide

example : ((bndStorage true memStorage).doOp ((bndStorage true memStorage).after bnd4
    ([.write [1, 2, 3, 4], .read 3, .write [5]] ++ [.write [6, 7]])) (.read 3)).1 =
    .got ([4, 5] ++ [6]) := by decide

/-! ### C22 -/

/-- C22: in every state, if the reader is moved to a position whose byte has been
overwritten (more than the size of the buffer has been written after it), a read
is rejected with `InvalidInput`. -/
theorem C22_overwritten_rejected (checks : Bool) (P : Provider) (bufferSize : Nat) (cl : Option Nat)
    (L : LawfulProvider P true (some (Bnd.sizeFor bufferSize cl)))
    (s0 : Bnd P.S) (hs : (bndProvider checks P bufferSize).create cl = .ok s0) (ops : List SOp)
    (p n : Nat)
    (hp : p + bufferSize < (((bndStorage checks P.S).outputs s0 ops).map
        (fun o => match o with | .wrote k => k | _ => 0)).sum)
    (hsk : ((bndStorage checks P.S).doOp ((bndStorage checks P.S).after s0 ops) (.seek p)).1 = .sought) :
    ((bndStorage checks P.S).doOp ((bndStorage checks P.S).doOp
      ((bndStorage checks P.S).after s0 ops) (.seek p)).2 (.read n)).1 = .rejected := by
  obtain ⟨i1, i2, i3, i4⟩ := Bnd.init_rep L hs
  obtain ⟨r1, r2, r3, r4⟩ := Bnd.after_rep L.law checks ops i1 i4
  generalize (bndStorage checks P.S).after s0 ops = s at *
  unfold Storage.doOp at hsk
  dsimp only at hsk
  have hle : Bnd.sizeFor bufferSize cl ≤ bufferSize := by
    cases cl <;> simp [Bnd.sizeFor]
  split at hsk
  · next s1 hr1 =>
    simp only [Storage.doOp, hr1]
    unfold Bnd.rseek at hr1
    split at hr1
    · simp at hr1
    · simp at hr1
    · simp only [Res.ok.injEq] at hr1
      subst hr1
      have : Bnd.readOp checks { s with read := ‹Int›, rp := p } n = .err .invalidInput := by
        unfold Bnd.readOp
        dsimp only
        split
        · rfl
        · rw [if_pos (by omega)]
      rw [this]
  · simp at hsk
  · simp at hsk
  · simp at hsk

/-- Six bytes through a buffer of four, then back to position 1. -/
example :
    let ops : List SOp := [.write [1, 2, 3, 4], .read 4, .write [5, 6]]
    1 + 4 < (((bndStorage true memStorage).outputs bnd4 ops).map
      (fun o => match o with | .wrote k => k | _ => 0)).sum ∧
    ((bndStorage true memStorage).doOp ((bndStorage true memStorage).after bnd4 ops) (.seek 1)).1 =
      .sought := by decide

/-! ### C23 -/

/-- C23 fails: in a buffer of 4 bytes holding 4 unread bytes, seeking the reader
forward to 3 and back to 0 (both inside the window) makes the next read return
nothing in a build without overflow checks ... -/
theorem C23_lossless_violated :
    (bndStorage false memStorage).outputs bnd4 [.write [1, 2, 3, 4], .seek 3, .seek 0, .read 4] =
      [.wrote 4, .sought, .sought, .got []] := by decide

/-- ... and crashes the seek in a build with overflow checks. -/
theorem C23_lossless_violated_checked :
    (bndStorage true memStorage).outputs bnd4 [.write [1, 2, 3, 4], .seek 3, .seek 0] =
      [.wrote 4, .sought, .crashed] := by decide

/-- C23, what holds: as long as no backward seek is longer than the credit (bytes
read minus distances already moved back), a bounded storage answers every sequence
of writes, reads and seeks like a tape of which the last bytes are readable; in
particular a read inside the window returns exactly the bytes written there.
Missing compared to C23: backward seeks after a forward seek that exceed the
credit. -/
theorem C23_bounded_is_tape_partial (checks : Bool) (P : Provider) (bufferSize : Nat)
    (cl : Option Nat) (L : LawfulProvider P true (some (Bnd.sizeFor bufferSize cl)))
    (T : Total L.law) (s : Bnd P.S) (hs : (bndProvider checks P bufferSize).create cl = .ok s)
    (ops : List SOp)
    (hl : Tape.Legal (boundedCap bufferSize cl) Tape.empty ops) :
    (bndStorage checks P.S).outputs s ops =
      Tape.empty.outputs (boundedCap bufferSize cl) ops := by
  have e : (boundedCap bufferSize cl) =
      Bnd.sizeFor bufferSize cl := by cases cl <;> rfl
  rw [e] at hl ⊢
  exact ((Bnd.Sim.init L hs).outputs (checks := checks) T ops hl).1

/-- A run with seeks back and forth inside the window. -/
def seekOps : List SOp :=
  [.write [1, 2, 3, 4], .read 3, .seek 1, .read 2, .seek 4, .seek 2, .read 2, .write [5, 6], .read 4]

example : Tape.Legal 4 Tape.empty seekOps ∧
    Tape.empty.outputs 4 seekOps = [.wrote 4, .got [1, 2, 3], .sought, .got [2, 3], .sought, .sought,
      .got [3, 4], .wrote 2, .got [5, 6]] := by
  constructor
  · simp [Tape.Legal, Tape.step, Tape.empty, seekOps]
  · decide

/-! ### C24 -/

/-- C24 fails: if the content is shorter than the read buffer, every read with that
buffer is rejected, in every state, although the buffer is not larger than the
configured size. -/
theorem C24_within_capacity_violated (checks : Bool) (P : Provider) (bufferSize contentLength n : Nat)
    (h1 : contentLength < n) (_h2 : n ≤ bufferSize)
    (L : LawfulProvider P true (some (Bnd.sizeFor bufferSize (some contentLength)))) (s0 : Bnd P.S)
    (hs : (bndProvider checks P bufferSize).create (some contentLength) = .ok s0) (ops : List SOp) :
    ((bndStorage checks P.S).doOp ((bndStorage checks P.S).after s0 ops) (.read n)).1 =
      .rejected := by
  obtain ⟨i1, i2, i3, i4⟩ := Bnd.init_rep L hs
  obtain ⟨r1, r2, r3, r4⟩ := Bnd.after_rep L.law checks ops i1 i4
  generalize (bndStorage checks P.S).after s0 ops = s at *
  simp only [Bnd.sizeFor] at i2
  have : Bnd.readOp checks s n = .err .invalidInput := by
    unfold Bnd.readOp
    rw [if_pos (by omega)]
  simp only [Storage.doOp, this]

/-- A 5-byte resource, a 10-byte bounded storage, an 8-byte buffer: the resource
is completely written and cannot be read. -/
example : ∃ s, (bndProvider true memProvider 10).create (some 5) = .ok s ∧
    (bndStorage true memStorage).outputs s [.write [1, 2, 3, 4, 5], .read 8] =
      [.wrote 5, .rejected] := ⟨_, rfl, by decide⟩

/-- C24, what holds: if the content length is unknown or at least the configured
size, no read of at most the configured size is ever rejected (without seeks).
Missing: contents shorter than the configured size. -/
theorem C24_within_capacity_partial (checks : Bool) (P : Provider) (bufferSize : Nat)
    (cl : Option Nat) (hcl : ∀ n, cl = some n → bufferSize ≤ n)
    (L : LawfulProvider P true (some (Bnd.sizeFor bufferSize cl))) (T : Total L.law)
    (s : Bnd P.S) (hs : (bndProvider checks P bufferSize).create cl = .ok s)
    (ops : List SOp) (hns : ∀ p, SOp.seek p ∉ ops) (hn : ∀ n, SOp.read n ∈ ops → n ≤ bufferSize) :
    SOut.rejected ∉ (bndStorage checks P.S).outputs s ops := by
  rw [C20_bounded_is_fifo checks P bufferSize cl L T s hs ops hns]
  have e : (boundedCap bufferSize cl) = bufferSize := by
    cases cl with
    | none => rfl
    | some n => have := hcl n rfl; simp only [boundedCap]; omega
  rw [e]
  generalize ([] : List Byte) = q
  clear hs
  induction ops generalizing q with
  | nil => simp [Fifo.outputs]
  | cons op ops ih =>
    simp only [Fifo.outputs, List.mem_cons, not_or]
    refine ⟨?_, ih (fun p hp => hns p (List.mem_cons_of_mem _ hp))
      (fun n h => hn n (List.mem_cons_of_mem _ h)) _⟩
    cases op with
    | write bs => simp [Fifo.step]
    | read n =>
      have := hn n (by simp)
      simp only [Fifo.step, if_neg (show ¬bufferSize < n by omega)]
      simp
    | seek p => exact absurd (by simp) (hns p)

example : ∃ s, (bndProvider true tmpProvider 4).create (some 9) = .ok s ∧
    (bndStorage true tmpStorage).outputs s wrapOps =
      [.wrote 3, .got [1, 2], .wrote 3, .got [3, 4, 5, 6], .wrote 3, .got [8], .got [9, 10]] :=
  ⟨_, rfl, by decide⟩

end SD
