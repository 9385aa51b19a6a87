import Verif.Proof.Bounded
import Verif.Spec.Queue

/-! # Bounded storage over a storage that never fails: totality and refinement -/

set_option linter.unusedSimpArgs false

namespace SD

theorem readExactF_total {S : Storage} {L : Lawful S true} (T : Total L) (fuel : Nat) :
    ∀ {s : S.σ} {W : Finset Nat} {n : Nat}, n ≤ fuel → L.Inv s W → L.Fresh s →
    (∀ i, i < n → L.rpos s + i ∈ W) → ∃ r, readExactF S fuel s n = .ok r := by
  induction fuel with
  | zero =>
    intro s W n hn hinv hf hW
    obtain rfl : n = 0 := by omega
    exact ⟨_, rfl⟩
  | succ fuel ih =>
    intro s W n hn hinv hf hW
    cases n with
    | zero => exact ⟨_, rfl⟩
    | succ n =>
      have h0 := hW 0 (by omega)
      obtain ⟨⟨bs, s1⟩, hr⟩ := T.read_total (n := n + 1) hinv h0
      have h1 := L.read_some rfl hinv hf hr (by omega) h0
      obtain ⟨r1, r2, r3, r4, r5, r6, r7⟩ := L.read_ok hinv hf hr
      have h2 := List.length_pos_iff.mpr h1
      obtain ⟨⟨rest, s2⟩, h3⟩ := ih (s := s1) (n := n + 1 - bs.length) (by omega) r3 r4
        (fun i hi => by
          have := hW (bs.length + i) (by omega)
          rw [r5]
          rwa [show L.rpos s + bs.length + i = L.rpos s + (bs.length + i) by omega])
      refine ⟨(bs ++ rest, s2), ?_⟩
      simp only [readExactF, hr, h1, if_false, h3]

theorem readExact_total {S : Storage} {L : Lawful S true} (T : Total L) {s : S.σ}
    {W : Finset Nat} {n : Nat} (hinv : L.Inv s W) (hc : L.Clean s)
    (hW : ∀ i, i < n → L.rpos s + i ∈ W) : ∃ r, readExact S s n = .ok r :=
  readExactF_total T n (Nat.le_refl _) hinv (L.clean_fresh hinv hc) hW

theorem writeAllF_total {S : Storage} {L : Lawful S true} (T : Total L) (fuel : Nat) :
    ∀ {s : S.σ} {W : Finset Nat} {bs : List Byte}, bs.length ≤ fuel → L.Inv s W →
    ∃ s', writeAllF S fuel s bs = .ok s' := by
  induction fuel with
  | zero =>
    intro s W bs hn hinv
    cases bs with
    | nil => exact ⟨s, rfl⟩
    | cons b bs => simp at hn
  | succ fuel ih =>
    intro s W bs hn hinv
    cases bs with
    | nil => exact ⟨s, rfl⟩
    | cons b bs =>
      obtain ⟨⟨k, s1⟩, hw⟩ := T.write_total (bs := b :: bs) hinv
      have h8 := (L.write_full rfl hinv hw).1 (by simp)
      obtain ⟨k, rfl⟩ : ∃ j, k = j + 1 := ⟨k - 1, by omega⟩
      obtain ⟨s2, h2⟩ := ih (bs := (b :: bs).drop (k + 1))
        (by simp only [List.length_drop]; omega) (L.write_ok hinv hw).2.1
      exact ⟨s2, by simp only [writeAllF, hw]; exact h2⟩

theorem writeAll_total {S : Storage} {L : Lawful S true} (T : Total L) {s : S.σ} {W : Finset Nat}
    {bs : List Byte} (hinv : L.Inv s W) : ∃ s', writeAll S s bs = .ok s' :=
  writeAllF_total T _ (Nat.le_refl _) hinv

namespace Bnd

variable {I : Storage}

theorem readInner_total {L : Lawful I true} (T : Total L) {checks : Bool} {i : I.σ} {W : Finset Nat}
    {pos size size' k : Nat} {start last : Nat}
    (hinv : L.Inv i W) (hk : 0 < k) (hks : k ≤ size)
    (hst : mapped size pos 0 = .ok start) (hla : mapped size pos (k - 1) = .ok last)
    (hsz : size < pos % size + k → size' = size) (hW : ∀ j, j < k → (pos + j) % size ∈ W) :
    ∃ r, readInner checks I i start (last + 1) size' k = .ok r := by
  obtain ⟨hS, rfl⟩ := mapped_zero hst
  obtain ⟨_, hlast⟩ := mapped_ok hla
  have hmod : pos % size < size := Nat.mod_lt _ hS
  unfold readInner
  obtain ⟨i1, hseek⟩ := T.rseek_total (p := pos % size) hinv
  obtain ⟨a1, a2, a3, a4, a5⟩ := L.rseek_ok hinv hseek
  rw [hseek]
  dsimp only
  by_cases hwrap : size < pos % size + k
  · have hl : last = pos % size + (k - 1) - size := by
      rw [hlast, Nat.add_comm, Nat.mod_eq_sub_mod (by omega), Nat.mod_eq_of_lt (by omega)]
    rw [if_neg (by omega), hsz hwrap, subU64_le (by omega)]
    dsimp only
    rw [if_neg (by omega)]
    obtain ⟨⟨bs1, i2⟩, hr1⟩ := readExact_total T (n := size - pos % size) a1 a2
      (by
        intro j hj
        have := hW j (by omega)
        rw [ring_lt (by omega)] at this
        rwa [a3])
    obtain ⟨b1, b2, b3, b4, b5, b6, b7⟩ := readExact_ok L a1 (L.clean_fresh a1 a2) hr1
    rw [hr1]
    dsimp only
    obtain ⟨i3, hs3⟩ := T.rseek_total (p := 0) b3
    obtain ⟨c1, c2, c3, c4, c5⟩ := L.rseek_ok b3 hs3
    rw [hs3]
    dsimp only
    obtain ⟨⟨bs2, i4⟩, hr2⟩ := readExact_total T (n := k - (size - pos % size)) c1
      c2
      (by
        intro j hj
        have := hW (j + (size - pos % size)) (by omega)
        rw [ring_ge (by omega) (by omega)] at this
        rw [c3]
        convert this using 1
        omega)
    rw [hr2]
    exact ⟨_, rfl⟩
  · have hl : last = pos % size + (k - 1) := by
      rw [hlast, Nat.add_comm, Nat.mod_eq_of_lt (by omega)]
    rw [if_pos (by omega)]
    refine readExact_total T a1 a2 ?_
    intro j hj
    have := hW j hj
    rw [ring_lt (by omega)] at this
    rwa [a3]

theorem writeInner_total {L : Lawful I true} (T : Total L) {checks : Bool} {i : I.σ} {W : Finset Nat}
    {pos size : Nat} {start last : Nat} {bs : List Byte}
    (hinv : L.Inv i W) (hk : 0 < bs.length) (hks : bs.length ≤ size)
    (hst : mapped size pos 0 = .ok start) (hla : mapped size pos (bs.length - 1) = .ok last) :
    ∃ r, writeInner checks I i start (last + 1) size bs = .ok r := by
  obtain ⟨hS, rfl⟩ := mapped_zero hst
  obtain ⟨_, hlast⟩ := mapped_ok hla
  have hmod : pos % size < size := Nat.mod_lt _ hS
  unfold writeInner
  obtain ⟨i1, hseek⟩ := T.wseek_total (p := pos % size) hinv
  obtain ⟨a1, -⟩ := L.wseek_ok hinv (Or.inl rfl) hseek
  rw [hseek]
  dsimp only
  by_cases hwrap : size < pos % size + bs.length
  · have hl : last = pos % size + (bs.length - 1) - size := by
      rw [hlast, Nat.add_comm, Nat.mod_eq_sub_mod (by omega), Nat.mod_eq_of_lt (by omega)]
    rw [if_neg (by omega), subU64_le (by omega)]
    dsimp only
    rw [if_neg (by omega)]
    obtain ⟨i2, hw1⟩ := writeAll_total T (bs := bs.take (size - pos % size)) a1
    obtain ⟨b1, -⟩ := writeAll_ok L a1 hw1
    rw [hw1]
    dsimp only
    obtain ⟨i3, hs3⟩ := T.wseek_total (p := 0) b1
    obtain ⟨c1, -⟩ := L.wseek_ok b1 (Or.inl rfl) hs3
    rw [hs3]
    exact writeAll_total T c1
  · have hl : last = pos % size + (bs.length - 1) := by
      rw [hlast, Nat.add_comm, Nat.mod_eq_of_lt (by omega)]
    rw [if_pos (by omega)]
    exact writeAll_total T a1

theorem mapped_eq {size : Nat} (h : 0 < size) (pos val : Nat) :
    mapped size pos val = .ok ((val + pos % size) % size) := by
  simp [mapped, Nat.pos_iff_ne_zero.mp h]

/-- A read that fits, of data still in the window, succeeds. -/
theorem readOp_total {L : Lawful I true} (T : Total L) {checks : Bool} {s : Bnd I} {n : Nat}
    (hrep : Rep L s) (hn : n ≤ s.size) (hw : s.wp ≤ s.rp + s.size) :
    ∃ r, readOp checks s n = .ok r := by
  unfold readOp
  rw [if_neg (by omega), if_neg (by omega)]
  split
  · exact ⟨_, rfl⟩
  · dsimp only
    split
    · exact ⟨_, rfl⟩
    · next hk =>
      have hS : 0 < s.size := by omega
      obtain ⟨W', hinv, hwin⟩ := hrep
      have hml : s.rp % s.size ≤ s.rp := Nat.mod_le _ _
      have h1 := mapped_eq hS s.rp 0
      have h2 := mapped_eq hS s.rp (min (s.wp - s.rp) n - 1)
      rw [h1, h2]
      dsimp only
      obtain ⟨r, hr⟩ := readInner_total (checks := checks) (size' := min s.size s.wp)
        (k := min (s.wp - s.rp) n) T hinv (by omega) (by omega) h1 h2
        (by omega) (fun j hj => hwin _ (by omega) (by omega))
      rw [hr]
      exact ⟨_, rfl⟩

/-- Every write succeeds. -/
theorem writeOp_total' {L : Lawful I true} (T : Total L) {checks : Bool} {s : Bnd I} {bs : List Byte}
    {W : Finset Nat} (hinv : L.Inv s.inner W) : ∃ r, writeOp checks s bs = .ok r := by
  unfold writeOp
  dsimp only
  split
  · exact ⟨_, rfl⟩
  · next hk =>
    have hS : 0 < s.size := by omega
    generalize hkk : min (s.size - (s.wp - s.rp)) bs.length = k at *
    have hlen : (bs.take k).length = k := by simp; omega
    have h1 := mapped_eq hS s.wp 0
    have h2 := mapped_eq hS s.wp (k - 1)
    rw [h1, h2]
    dsimp only
    obtain ⟨r, hr⟩ := writeInner_total (checks := checks) (bs := bs.take k) T hinv (by omega)
      (by omega) h1 (by rw [hlen]; exact h2)
    rw [hr]
    exact ⟨_, rfl⟩

theorem writeOp_total {L : Lawful I true} (T : Total L) {checks : Bool} {s : Bnd I} {bs : List Byte}
    (hrep : Rep L s) : ∃ r, writeOp checks s bs = .ok r := by
  obtain ⟨W', hinv, -⟩ := hrep
  exact writeOp_total' T hinv

/-- The bounded storage `s` represents the tape `t`. -/
structure Sim (L : Lawful I true) (cap : Nat) (s : Bnd I) (t : Tape) : Prop where
  rep : Rep L s
  size : s.size = cap
  wp : s.wp = t.hist.length
  rp : s.rp = t.pos
  written : s.written = s.wp
  read : s.read = t.credit
  le : s.read ≤ s.rp
  cells : ∀ q, q < s.wp → s.wp ≤ q + s.size → cell L s q = t.hist[q]?

theorem Sim.step {L : Lawful I true} (T : Total L) {checks : Bool} {cap : Nat} {s : Bnd I} {t : Tape}
    (h : Sim L cap s t) (op : SOp) (hl : ∀ p, op = .seek p → t.pos ≤ p + t.credit) :
    ((bndStorage checks I).doOp s op).1 = (t.step cap op).1 ∧
    Sim L cap ((bndStorage checks I).doOp s op).2 (t.step cap op).2 := by
  obtain ⟨h1, h2, h3, h4, h5, h6, h7, h8⟩ := h
  cases op with
  | write bs =>
    obtain ⟨⟨k, s'⟩, hw⟩ := writeOp_total (checks := checks) (bs := bs) T h1
    obtain ⟨a1, a2, a3, a4, a5, a6, a7, a8, a9, a10, a11, -⟩ := writeOp_ok L h1 hw
    simp only [Storage.doOp, hw, Tape.step]
    refine ⟨by rw [a1, h2, h3, h4], ⟨a2, by omega, ?_, by rw [a3, h4], by omega, by simp; omega,
      by omega, ?_⟩⟩
    · simp only [List.length_append, List.length_take]; omega
    · intro q hq1 hq2
      by_cases hq : q < s.wp
      · rw [List.getElem?_append_left (by omega), ← h8 q hq (by omega)]
        have hc := h8 q hq (by omega)
        have hd : t.hist[q]? = some (t.hist[q]'(by omega)) := by simp
        rw [hd] at hc
        rw [hc]
        by_cases hrq : s.rp ≤ q
        · exact a11 q _ hrq hc
        · have hne : cell L s' q ≠ none := by
            rw [cell, if_pos ⟨hq1, hq2⟩]
            obtain ⟨W', b1, b2⟩ := a2
            exact L.written_some rfl b1 (b2 q hq1 hq2)
          obtain ⟨b, hb⟩ := Option.ne_none_iff_exists'.mp hne
          rw [hb, ← a10 q b hb hq, hc]
      · have := a8 (q - s.wp) (by omega)
        rw [show s.wp + (q - s.wp) = q by omega] at this
        rw [this, List.getElem?_append_right (by omega), List.getElem?_take, if_pos (by omega),
          show q - t.hist.length = q - s.wp by omega]
  | read n =>
    by_cases hn : cap < n ∨ t.pos + cap < t.hist.length
    · have : readOp checks s n = .err .invalidInput := by
        unfold readOp
        rcases hn with hn | hn
        · rw [if_pos (by omega)]
        · by_cases hc : s.size < n
          · rw [if_pos hc]
          · rw [if_neg hc, if_pos (by omega)]
      simp only [Storage.doOp, this, Tape.step, if_pos hn, true_and]
      exact ⟨h1, h2, h3, h4, h5, h6, h7, h8⟩
    · obtain ⟨⟨bs, s'⟩, hr⟩ := readOp_total (checks := checks) (n := n) T h1 (by omega) (by omega)
      obtain ⟨a1, a2, a3, a4, a5, a6, a7, a8, a9, a10, a11, a12⟩ := readOp_ok L h1 hr
      have hbl : bs.length = min (s.wp - s.rp) n := by
        have hc := cnt_le (x := s.written) (y := s.read) (by omega) (by omega)
        rw [a12]; split
        · next hx => rw [hc] at hx; omega
        · rfl
      have hbs : bs = (t.hist.drop t.pos).take n := by
        apply List.ext_getElem?
        intro i
        by_cases hi : i < bs.length
        · rw [← a2 i hi, h8 _ (by omega) (by omega), List.getElem?_take, if_pos (by omega),
            List.getElem?_drop, h4]
        · rw [List.getElem?_eq_none (by omega), List.getElem?_eq_none]
          simp only [List.length_take, List.length_drop]; omega
      simp only [Storage.doOp, hr, Tape.step, if_neg hn]
      rw [← hbs]
      refine ⟨rfl, ⟨a3, by omega, by simp only; omega, by simp only; omega, by omega,
        by simp only; omega, by omega, ?_⟩⟩
      intro q hq1 hq2
      rw [a9]
      exact h8 q (by omega) (by omega)
  | seek p =>
    have hp := hl p rfl
    have : rseek checks s p = .ok { s with read := s.read - (s.rp - p : Nat), rp := p } := by
      simp only [rseek, subCnt_le (show ((s.rp - p : Nat) : Int) ≤ s.read by omega)]
    simp only [Storage.doOp, this, Tape.step, true_and]
    exact ⟨h1, h2, h3, rfl, h5, by simp only; omega, by simp only; omega, h8⟩

theorem Sim.outputs {L : Lawful I true} (T : Total L) {checks : Bool} {cap : Nat} (ops : List SOp) :
    ∀ {s : Bnd I} {t : Tape}, Sim L cap s t → Tape.Legal cap t ops →
    (bndStorage checks I).outputs s ops = t.outputs cap ops ∧
    Sim L cap ((bndStorage checks I).after s ops) (t.after cap ops) := by
  induction ops with
  | nil => intro s t h _; exact ⟨rfl, h⟩
  | cons op ops ih =>
    intro s t h hl
    obtain ⟨a1, a2⟩ := h.step (checks := checks) T op hl.1
    obtain ⟨b1, b2⟩ := ih a2 hl.2
    exact ⟨by simp only [Storage.outputs, Tape.outputs, a1, b1], b2⟩

theorem Sim.init {P : Provider} {bufferSize : Nat} {cl : Option Nat}
    (L : LawfulProvider P true (some (sizeFor bufferSize cl))) {s : Bnd P.S}
    (h : mk? P bufferSize cl = .ok s) : Sim L.law (sizeFor bufferSize cl) s Tape.empty := by
  unfold mk? at h
  split at h
  · simp at h
  · simp at h
  · next i hi =>
    simp only [Res.ok.injEq] at h
    subst h
    obtain ⟨a1, -⟩ := L.create_ok hi
    exact ⟨⟨∅, a1, by simp⟩, rfl, rfl, rfl, rfl, rfl, Int.le_refl _, by simp⟩

end Bnd

/-- Without seeks, a tape answers like a FIFO queue. -/
theorem Tape.outputs_fifo (cap : Nat) (ops : List SOp) : ∀ (t : Tape), (∀ p, SOp.seek p ∉ ops) →
    t.hist.length ≤ t.pos + cap → t.pos ≤ t.hist.length →
    t.outputs cap ops = Fifo.outputs cap (t.hist.drop t.pos) ops ∧ Tape.Legal cap t ops := by
  induction ops with
  | nil => intro t _ _ _; exact ⟨rfl, trivial⟩
  | cons op ops ih =>
    intro t hns h1 h2
    have hns' : ∀ p, SOp.seek p ∉ ops := fun p hp => hns p (List.mem_cons_of_mem _ hp)
    have hop : ∀ p, op ≠ .seek p := fun p hp => hns p (by simp [hp])
    cases op with
    | seek p => exact absurd rfl (hop p)
    | write bs =>
      obtain ⟨a1, a2⟩ := ih (t.step cap (.write bs)).2 hns'
        (by simp only [Tape.step, List.length_append, List.length_take]; omega)
        (by simp only [Tape.step, List.length_append, List.length_take]; omega)
      refine ⟨?_, ⟨by simp, a2⟩⟩
      simp only [Tape.outputs, Fifo.outputs]
      rw [a1]
      simp only [Tape.step, Fifo.step, List.length_drop]
      rw [List.drop_append_of_le_length h2]
    | read n =>
      by_cases hn : cap < n
      · obtain ⟨a1, a2⟩ := ih (t.step cap (.read n)).2 hns' (by simp [Tape.step, hn]; omega)
          (by simp [Tape.step, hn]; omega)
        refine ⟨?_, ⟨by simp, a2⟩⟩
        simp only [Tape.outputs, Fifo.outputs]
        rw [a1]
        simp [Tape.step, Fifo.step, hn]
      · have hnn : ¬(cap < n ∨ t.pos + cap < t.hist.length) := by omega
        obtain ⟨a1, a2⟩ := ih (t.step cap (.read n)).2 hns'
          (by simp only [Tape.step, if_neg hnn, List.length_take, List.length_drop]; omega)
          (by simp only [Tape.step, if_neg hnn, List.length_take, List.length_drop]; omega)
        refine ⟨?_, ⟨by simp, a2⟩⟩
        simp only [Tape.outputs, Fifo.outputs]
        rw [a1]
        simp only [Tape.step, Fifo.step, if_neg hnn, if_neg hn, List.drop_drop, List.length_take,
          List.length_drop, List.cons.injEq, true_and]
        by_cases hm : n ≤ t.hist.length - t.pos
        · rw [Nat.min_eq_left hm]
        · rw [Nat.min_eq_right (by omega), List.drop_eq_nil_of_le (by omega),
            List.drop_eq_nil_of_le (by omega)]

end SD
