import Verif.Spec.Storage
import Verif.Model.Bounded

/-! # Bounded storage is lawful (as a windowed storage) over any lawful storage -/

set_option linter.unusedSimpArgs false

namespace SD

section exact

variable {S : Storage} {full : Bool} (L : Lawful S full)

theorem readExactF_ok (fuel : Nat) : ∀ {s : S.σ} {W : Finset Nat} {n : Nat} {bs : List Byte} {s' : S.σ},
    L.Inv s W → L.Fresh s → readExactF S fuel s n = .ok (bs, s') →
    bs.length = n ∧ (∀ i, i < n → L.cell s (L.rpos s + i) = bs[i]?) ∧ L.Inv s' W ∧ L.Fresh s' ∧
    L.rpos s' = L.rpos s + n ∧ S.wtell s' = S.wtell s ∧ ∀ q, L.cell s' q = L.cell s q := by
  induction fuel with
  | zero =>
    intro s W n bs s' hinv hf h
    cases n with
    | zero =>
      simp only [readExactF, Res.ok.injEq, Prod.mk.injEq] at h
      obtain ⟨rfl, rfl⟩ := h
      exact ⟨rfl, by simp, hinv, hf, by simp, rfl, fun _ => rfl⟩
    | succ n => simp [readExactF] at h
  | succ fuel ih =>
    intro s W n bs s' hinv hf h
    cases n with
    | zero =>
      simp only [readExactF, Res.ok.injEq, Prod.mk.injEq] at h
      obtain ⟨rfl, rfl⟩ := h
      exact ⟨rfl, by simp, hinv, hf, by simp, rfl, fun _ => rfl⟩
    | succ n =>
      unfold readExactF at h
      split at h
      · simp at h
      · simp at h
      · next b1 s1 hr =>
        obtain ⟨h1, h2, h3, h4, h5, h6, h7⟩ := L.read_ok hinv hf hr
        split at h
        · simp at h
        · next hne =>
          split at h
          · simp at h
          · simp at h
          · next rest s2 hr2 =>
            simp only [Res.ok.injEq, Prod.mk.injEq] at h
            obtain ⟨rfl, rfl⟩ := h
            obtain ⟨g1, g2, g3, g4, g5, g6, g7⟩ := ih h3 h4 hr2
            refine ⟨by simp; omega, ?_, g3, g4, by rw [g5, h5]; omega, by rw [g6, h6], ?_⟩
            · intro i hi
              by_cases hlt : i < b1.length
              · rw [h2 i hlt, List.getElem?_append_left hlt]
              · rw [List.getElem?_append_right (by omega), ← g2 _ (by omega), h7, h5]
                congr 1; omega
            · intro q; rw [g7, h7]

theorem readExact_ok {s : S.σ} {W : Finset Nat} {n : Nat} {bs : List Byte} {s' : S.σ}
    (hinv : L.Inv s W) (hf : L.Fresh s) (h : readExact S s n = .ok (bs, s')) :
    bs.length = n ∧ (∀ i, i < n → L.cell s (L.rpos s + i) = bs[i]?) ∧ L.Inv s' W ∧ L.Fresh s' ∧
    L.rpos s' = L.rpos s + n ∧ S.wtell s' = S.wtell s ∧ ∀ q, L.cell s' q = L.cell s q :=
  readExactF_ok L n hinv hf h

end exact

section writeall

variable {S : Storage} (L : Lawful S true)

theorem writeAllF_ok (fuel : Nat) : ∀ {s : S.σ} {W : Finset Nat} {bs : List Byte} {s' : S.σ},
    L.Inv s W → writeAllF S fuel s bs = .ok s' →
    L.Inv s' (W ∪ Finset.Ico (S.wtell s) (S.wtell s + bs.length)) ∧ L.rpos s' = L.rpos s ∧
    S.wtell s' = S.wtell s + bs.length ∧
    (∀ i, i < bs.length → L.cell s' (S.wtell s + i) = bs[i]?) ∧
    (∀ q b, (q < S.wtell s ∨ S.wtell s + bs.length ≤ q) → L.cell s q = some b →
      L.cell s' q = some b) ∧
    (∀ q, L.cell s' q ≠ none → L.cell s q ≠ none ∨ q < S.wtell s + bs.length) := by
  induction fuel with
  | zero =>
    intro s W bs s' hinv h
    cases bs with
    | nil =>
      simp only [writeAllF, Res.ok.injEq] at h
      subst h
      exact ⟨by simpa using hinv, rfl, rfl, by simp, fun q b _ hb => hb, fun q hq => Or.inl hq⟩
    | cons b bs => simp [writeAllF] at h
  | succ fuel ih =>
    intro s W bs s' hinv h
    cases bs with
    | nil =>
      simp only [writeAllF, Res.ok.injEq] at h
      subst h
      exact ⟨by simpa using hinv, rfl, rfl, by simp, fun q b _ hb => hb, fun q hq => Or.inl hq⟩
    | cons b bs =>
      unfold writeAllF at h
      split at h
      · simp at h
      · simp at h
      · simp at h
      · next k s1 hw =>
        obtain ⟨h1, h2, h3, h4, h5, h6, h7⟩ := L.write_ok hinv hw
        obtain ⟨-, h9⟩ := L.write_full rfl hinv hw
        obtain ⟨g1, g2, g3, g4, g5, g6⟩ := ih h2 h
        have hl : ((b :: bs).drop (k + 1)).length = (b :: bs).length - (k + 1) := List.length_drop ..
        rw [hl, h5] at g1 g5 g6
        rw [h5] at g4
        rw [hl, h5] at g3
        generalize hn : (b :: bs).length = n at *
        refine ⟨?_, by rw [g2, h4], by omega, ?_, ?_, ?_⟩
        · rw [Finset.union_assoc, Finset.Ico_union_Ico_eq_Ico (by omega) (by omega)] at g1
          rwa [show S.wtell s + (k + 1) + (n - (k + 1)) = S.wtell s + n by omega] at g1
        · intro i hi
          by_cases hk : i < k + 1
          · have h10 := h6 i hk
            rw [← h10]
            cases hc : L.cell s1 (S.wtell s + i) with
            | none =>
              exfalso
              rw [hc] at h10
              have := h10.symm
              rw [List.getElem?_eq_none_iff, hn] at this
              omega
            | some x => exact g5 _ _ (Or.inl (by omega)) hc
          · have h10 := g4 (i - (k + 1)) (by rw [hl]; omega)
            rw [List.getElem?_drop] at h10
            rw [show k + 1 + (i - (k + 1)) = i by omega,
              show S.wtell s + (k + 1) + (i - (k + 1)) = S.wtell s + i by omega] at h10
            exact h10
        · intro q x hq hx
          exact g5 q x (by omega) (h9 q x (by omega) hx)
        · intro q hq
          rcases g6 q hq with h10 | h10
          · rcases h7 q h10 with h11 | h11
            · exact Or.inl h11
            · exact Or.inr (by omega)
          · exact Or.inr (by omega)

theorem writeAll_ok {s : S.σ} {W : Finset Nat} {bs : List Byte} {s' : S.σ}
    (hinv : L.Inv s W) (h : writeAll S s bs = .ok s') :
    L.Inv s' (W ∪ Finset.Ico (S.wtell s) (S.wtell s + bs.length)) ∧ L.rpos s' = L.rpos s ∧
    S.wtell s' = S.wtell s + bs.length ∧
    (∀ i, i < bs.length → L.cell s' (S.wtell s + i) = bs[i]?) ∧
    (∀ q b, (q < S.wtell s ∨ S.wtell s + bs.length ≤ q) → L.cell s q = some b →
      L.cell s' q = some b) ∧
    (∀ q, L.cell s' q ≠ none → L.cell s q ≠ none ∨ q < S.wtell s + bs.length) :=
  writeAllF_ok L _ hinv h

end writeall

/-! ### Circular index arithmetic -/

theorem ring_lt {a i S : Nat} (h : a % S + i < S) : (a + i) % S = a % S + i := by
  rw [Nat.add_mod, Nat.mod_eq_of_lt (show i < S by omega), Nat.mod_eq_of_lt h]

theorem ring_ge {a i S : Nat} (h : S ≤ a % S + i) (hi : i < S) :
    (a + i) % S = a % S + i - S := by
  have hlt : a % S < S := Nat.mod_lt _ (by omega)
  rw [Nat.add_mod, Nat.mod_eq_of_lt hi, Nat.mod_eq_sub_mod h, Nat.mod_eq_of_lt (by omega)]

theorem ring_ne {a b S : Nat} (h1 : a < b) (h2 : b < a + S) : a % S ≠ b % S := by
  intro h
  have hb : b = a + (b - a) := by omega
  by_cases hc : a % S + (b - a) < S
  · rw [hb, ring_lt hc] at h; omega
  · have hlt : a % S < S := Nat.mod_lt _ (by omega)
    rw [hb, ring_ge (by omega) (by omega)] at h; omega

namespace Bnd

variable {I : Storage}

theorem mapped_ok {size pos val r : Nat} (h : mapped size pos val = .ok r) :
    0 < size ∧ r = (val + pos % size) % size := by
  unfold mapped at h
  split at h
  · simp at h
  · simp only [Res.ok.injEq] at h
    exact ⟨by omega, h.symm⟩

theorem mapped_zero {size pos r : Nat} (h : mapped size pos 0 = .ok r) :
    0 < size ∧ r = pos % size := by
  obtain ⟨h1, h2⟩ := mapped_ok h
  refine ⟨h1, ?_⟩
  rw [h2, Nat.zero_add, Nat.mod_mod]

theorem subU64_le {checks : Bool} {a b : Nat} (h : b ≤ a) : subU64 checks a b = .ok (a - b) := by
  simp [subU64, h]

/-- Reading `k ≤ size` bytes from circular position `pos`. -/
theorem readInner_ok (L : Lawful I true) {checks : Bool} {i : I.σ} {W : Finset Nat}
    {pos size size' k : Nat} {start last : Nat} {bs : List Byte} {i' : I.σ}
    (hinv : L.Inv i W) (hk : 0 < k) (hks : k ≤ size)
    (hst : mapped size pos 0 = .ok start) (hla : mapped size pos (k - 1) = .ok last)
    (hsz : size < pos % size + k → size' = size)
    (h : readInner checks I i start (last + 1) size' k = .ok (bs, i')) :
    bs.length = k ∧ (∀ j, j < k → L.cell i ((pos + j) % size) = bs[j]?) ∧ L.Inv i' W ∧
    I.wtell i' = I.wtell i ∧ ∀ q, L.cell i' q = L.cell i q := by
  obtain ⟨hS, rfl⟩ := mapped_zero hst
  obtain ⟨_, hlast⟩ := mapped_ok hla
  have hmod : pos % size < size := Nat.mod_lt _ hS
  unfold readInner at h
  split at h
  · simp at h
  · simp at h
  · next i1 hseek =>
    obtain ⟨a1, a2, a3, a4, a5⟩ := L.rseek_ok hinv hseek
    have hfresh := L.clean_fresh a1 a2
    by_cases hwrap : size < pos % size + k
    · have hl : last = pos % size + (k - 1) - size := by
        rw [hlast, Nat.add_comm, Nat.mod_eq_sub_mod (by omega), Nat.mod_eq_of_lt (by omega)]
      rw [if_neg (by omega)] at h
      rw [hsz hwrap, subU64_le (by omega)] at h
      dsimp only at h
      rw [if_neg (by omega)] at h
      split at h
      · simp at h
      · simp at h
      · next bs1 i2 hr1 =>
        obtain ⟨b1, b2, b3, b4, b5, b6, b7⟩ := readExact_ok L a1 hfresh hr1
        split at h
        · simp at h
        · simp at h
        · next i3 hs3 =>
          obtain ⟨c1, c2, c3, c4, c5⟩ := L.rseek_ok b3 hs3
          split at h
          · simp at h
          · simp at h
          · next bs2 i4 hr2 =>
            obtain ⟨d1, d2, d3, d4, d5, d6, d7⟩ := readExact_ok L c1 (L.clean_fresh c1 c2) hr2
            simp only [Res.ok.injEq, Prod.mk.injEq] at h
            obtain ⟨rfl, rfl⟩ := h
            refine ⟨by simp; omega, ?_, d3, by rw [d6, c4, b6, a4], ?_⟩
            · intro j hj
              by_cases hj1 : j < size - pos % size
              · rw [ring_lt (by omega), List.getElem?_append_left (by omega), ← b2 j hj1, a3, a5]
              · rw [ring_ge (by omega) (by omega), List.getElem?_append_right (by omega),
                  ← d2 _ (by omega), c3, c5, b7, a5]
                congr 1; omega
            · intro q; rw [d7, c5, b7, a5]
    · have hl : last = pos % size + (k - 1) := by
        rw [hlast, Nat.add_comm, Nat.mod_eq_of_lt (by omega)]
      rw [if_pos (by omega)] at h
      obtain ⟨b1, b2, b3, b4, b5, b6, b7⟩ := readExact_ok L a1 hfresh h
      refine ⟨b1, ?_, b3, by rw [b6, a4], fun q => by rw [b7, a5]⟩
      intro j hj
      rw [ring_lt (by omega), ← b2 j hj, a3, a5]

/-- Writing `k ≤ size` bytes from circular position `pos`. -/
theorem writeInner_ok (L : Lawful I true) {checks : Bool} {i : I.σ} {W : Finset Nat}
    {pos size : Nat} {start last : Nat} {bs : List Byte} {i' : I.σ}
    (hinv : L.Inv i W) (hk : 0 < bs.length) (hks : bs.length ≤ size)
    (hst : mapped size pos 0 = .ok start) (hla : mapped size pos (bs.length - 1) = .ok last)
    (h : writeInner checks I i start (last + 1) size bs = .ok i') :
    (∃ W', L.Inv i' W' ∧ (∀ q, q ∈ W → q ∈ W') ∧ (∀ j, j < bs.length → (pos + j) % size ∈ W') ∧
      ∀ q ∈ W', q ∈ W ∨ q < size) ∧
    L.rpos i' = L.rpos i ∧
    (∀ j, j < bs.length → L.cell i' ((pos + j) % size) = bs[j]?) ∧
    (∀ x b, x < size → (∀ j, j < bs.length → (pos + j) % size ≠ x) → L.cell i x = some b →
      L.cell i' x = some b) ∧
    (∀ x b, size ≤ x → L.cell i x = some b → L.cell i' x = some b) ∧
    (∀ x, size ≤ x → L.cell i' x ≠ none → L.cell i x ≠ none) := by
  obtain ⟨hS, rfl⟩ := mapped_zero hst
  obtain ⟨_, hlast⟩ := mapped_ok hla
  have hmod : pos % size < size := Nat.mod_lt _ hS
  unfold writeInner at h
  split at h
  · simp at h
  · simp at h
  · next i1 hseek =>
    obtain ⟨a1, a2, a3, a4, a5⟩ := L.wseek_ok hinv (Or.inl rfl) hseek
    by_cases hwrap : size < pos % size + bs.length
    · have hl : last = pos % size + (bs.length - 1) - size := by
        rw [hlast, Nat.add_comm, Nat.mod_eq_sub_mod (by omega), Nat.mod_eq_of_lt (by omega)]
      rw [if_neg (by omega)] at h
      rw [subU64_le (by omega)] at h
      dsimp only at h
      rw [if_neg (by omega)] at h
      split at h
      · simp at h
      · simp at h
      · next i2 hr1 =>
        obtain ⟨b1, b2, b3, b4, b5, b6⟩ := writeAll_ok L a1 hr1
        split at h
        · simp at h
        · simp at h
        · next i3 hs3 =>
          obtain ⟨c1, c2, c3, c4, c5⟩ := L.wseek_ok b1 (Or.inl rfl) hs3
          obtain ⟨d1, d2, d3, d4, d5, d6⟩ := writeAll_ok L c1 h
          have hlen1 : (bs.take (size - pos % size)).length = size - pos % size := by simp; omega
          have hlen2 : (bs.drop (size - pos % size)).length = bs.length - (size - pos % size) := by
            simp
          rw [hlen1] at b1 b3 b4 b5 b6
          rw [hlen2] at d1 d3 d4 d5 d6
          rw [a4] at *
          rw [c4] at *
          refine ⟨⟨_, d1, ?_, ?_, ?_⟩, ?_, ?_, ?_, ?_, ?_⟩
          · intro q hq; simp [hq]
          · intro j hj
            simp only [Finset.mem_union, Finset.mem_Ico]
            by_cases hj1 : j < size - pos % size
            · rw [ring_lt (by omega)]; left; right; omega
            · rw [ring_ge (by omega) (by omega)]; right; omega
          · intro q hq
            simp only [Finset.mem_union, Finset.mem_Ico] at hq
            rcases hq with (hq | hq) | hq
            · exact Or.inl hq
            · right; omega
            · right; omega
          · rw [d2, c3, b2, a3]
          · intro j hj
            by_cases hj1 : j < size - pos % size
            · rw [ring_lt (by omega)]
              have h1 := b4 j hj1
              rw [List.getElem?_take, if_pos hj1] at h1
              have : ∃ b, bs[j]? = some b := ⟨bs[j], by simp⟩
              obtain ⟨b, hb⟩ := this
              rw [hb] at h1 ⊢
              refine d5 _ b (Or.inr (by omega)) ?_
              rw [c5]; exact h1
            · rw [ring_ge (by omega) (by omega)]
              have h1 := d4 (j - (size - pos % size)) (by omega)
              rw [List.getElem?_drop] at h1
              have e1 : 0 + (j - (size - pos % size)) = pos % size + j - size := by omega
              have e2 : size - pos % size + (j - (size - pos % size)) = j := by omega
              rw [e1, e2] at h1
              exact h1
          · intro x b hx hne hb
            refine d5 x b ?_ ?_
            · by_contra hcon
              refine hne (x + (size - pos % size)) (by omega) ?_
              rw [ring_ge (by omega) (by omega)]; omega
            · rw [c5]
              refine b5 x b ?_ (by rw [a5]; exact hb)
              by_contra hcon
              refine hne (x - pos % size) (by omega) ?_
              rw [ring_lt (by omega)]; omega
          · intro x b hx hb
            refine d5 x b (Or.inr (by omega)) ?_
            rw [c5]
            exact b5 x b (Or.inr (by omega)) (by rw [a5]; exact hb)
          · intro x hx hb
            rcases d6 x hb with h | h
            · rw [c5] at h
              rcases b6 x h with h | h
              · rwa [a5] at h
              · omega
            · omega
    · have hl : last = pos % size + (bs.length - 1) := by
        rw [hlast, Nat.add_comm, Nat.mod_eq_of_lt (by omega)]
      rw [if_pos (by omega)] at h
      obtain ⟨b1, b2, b3, b4, b5, b6⟩ := writeAll_ok L a1 h
      rw [a4] at *
      refine ⟨⟨_, b1, ?_, ?_, ?_⟩, by rw [b2, a3], ?_, ?_, ?_, ?_⟩
      · intro q hq; simp [hq]
      · intro j hj
        rw [ring_lt (by omega)]
        simp only [Finset.mem_union, Finset.mem_Ico]; right; omega
      · intro q hq
        simp only [Finset.mem_union, Finset.mem_Ico] at hq
        rcases hq with hq | hq
        · exact Or.inl hq
        · right; omega
      · intro j hj
        rw [ring_lt (by omega)]; exact b4 j hj
      · intro x b hx hne hb
        refine b5 x b ?_ (by rw [a5]; exact hb)
        by_contra hcon
        refine hne (x - pos % size) (by omega) ?_
        rw [ring_lt (by omega)]; omega
      · intro x b hx hb
        exact b5 x b (Or.inr (by omega)) (by rw [a5]; exact hb)
      · intro x hx hb
        rcases b6 x hb with h | h
        · rwa [a5] at h
        · omega

/-- The representation invariant: everything in the window has been written to
the inner storage. -/
def Rep (L : Lawful I true) (s : Bnd I) : Prop :=
  ∃ W', L.Inv s.inner W' ∧ ∀ q, q < s.wp → s.wp ≤ q + s.size → q % s.size ∈ W'

/-- The byte held for stream position `q`, if `q` is in the window. -/
def cell (L : Lawful I true) (s : Bnd I) (q : Nat) : Option Byte :=
  if q < s.wp ∧ s.wp ≤ q + s.size then L.cell s.inner (q % s.size) else none

theorem subCnt_zero {checks : Bool} {x : Int} : subCnt checks x 0 = .ok x := by
  unfold subCnt
  rw [if_neg (by omega)]
  simp

theorem subCnt_le {checks : Bool} {x : Int} {d : Nat} (h : (d : Int) ≤ x) :
    subCnt checks x d = .ok (x - d) := by
  unfold subCnt
  rw [if_neg (by omega)]

theorem cnt_le {x y : Int} (hx : 0 ≤ x) (hy : 0 ≤ y) : (cnt x ≤ cnt y) = (x ≤ y) := by
  unfold cnt
  rw [if_neg (by omega), if_neg (by omega)]

theorem readOp_ok (L : Lawful I true) {checks : Bool} {s s' : Bnd I} {n : Nat} {bs : List Byte}
    (hrep : Rep L s) (h : readOp checks s n = .ok (bs, s')) :
    bs.length ≤ n ∧ (∀ i, i < bs.length → cell L s (s.rp + i) = bs[i]?) ∧ Rep L s' ∧
    s'.rp = s.rp + bs.length ∧ s'.wp = s.wp ∧ s'.size = s.size ∧ s'.written = s.written ∧
    s'.read = s.read + bs.length ∧ (∀ q, cell L s' q = cell L s q) ∧
    n ≤ s.size ∧ s.wp ≤ s.rp + s.size ∧
    bs.length = if cnt s.written ≤ cnt s.read then 0 else min (s.wp - s.rp) n := by
  unfold readOp at h
  split at h
  · simp at h
  · next hn =>
    split at h
    · simp at h
    · next hw =>
      split at h
      · next hr =>
        simp only [Res.ok.injEq, Prod.mk.injEq] at h
        obtain ⟨rfl, rfl⟩ := h
        exact ⟨by simp, by simp, hrep, by simp, rfl, rfl, rfl, by simp, fun _ => rfl, by omega,
          by omega, by simp [hr]⟩
      · next hr =>
        dsimp only at h
        split at h
        · next hk =>
          simp only [Res.ok.injEq, Prod.mk.injEq] at h
          obtain ⟨rfl, rfl⟩ := h
          exact ⟨by simp, by simp, hrep, by simp, rfl, rfl, rfl, by simp, fun _ => rfl, by omega,
            by omega, by simp [hr, hk]⟩
        · next hk =>
          split at h
          · next start last hst hla =>
            split at h
            · simp at h
            · simp at h
            · next bs1 i1 hri =>
              simp only [Res.ok.injEq, Prod.mk.injEq] at h
              obtain ⟨rfl, rfl⟩ := h
              obtain ⟨W', hinv, hwin⟩ := hrep
              have hml : s.rp % s.size ≤ s.rp := Nat.mod_le _ _
              obtain ⟨a1, a2, a3, a4, a5⟩ :=
                readInner_ok L hinv (by omega) (by omega) hst hla (by omega) hri
              refine ⟨by omega, ?_, ⟨W', a3, hwin⟩, by simp [a1], rfl, rfl, rfl, by simp [a1], ?_,
                by omega, by omega, by simp [hr, a1]⟩
              · intro i hi
                rw [cell, if_pos (by omega), a2 i (by omega)]
              · intro q
                simp only [cell, a5]
          · simp at h

theorem writeOp_ok (L : Lawful I true) {checks : Bool} {s s' : Bnd I} {bs : List Byte} {k : Nat}
    (hrep : Rep L s) (h : writeOp checks s bs = .ok (k, s')) :
    k = min (s.size - (s.wp - s.rp)) bs.length ∧ Rep L s' ∧ s'.rp = s.rp ∧ s'.wp = s.wp + k ∧
    s'.size = s.size ∧ s'.read = s.read ∧ s'.written = s.written + k ∧
    (∀ i, i < k → cell L s' (s.wp + i) = bs[i]?) ∧
    (∀ q, cell L s' q ≠ none → q < s.wp + k) ∧
    (∀ q b, cell L s' q = some b → q < s.wp → cell L s q = some b) ∧
    (∀ q b, s.rp ≤ q → cell L s q = some b → cell L s' q = some b) ∧
    (∀ x b, s.size ≤ x → L.cell s.inner x = some b → L.cell s'.inner x = some b) ∧
    (∀ x, s.size ≤ x → L.cell s'.inner x ≠ none → L.cell s.inner x ≠ none) := by
  unfold writeOp at h
  dsimp only at h
  split at h
  · next hk =>
    simp only [Res.ok.injEq, Prod.mk.injEq] at h
    obtain ⟨rfl, rfl⟩ := h
    refine ⟨hk.symm, hrep, rfl, rfl, rfl, rfl, by simp, by simp, ?_, fun q b hb _ => hb,
      fun q b _ hb => hb, fun x b _ hb => hb, fun x _ hb => hb⟩
    intro q hq
    unfold cell at hq
    split at hq
    · omega
    · simp at hq
  · next hk =>
    split at h
    · next start last hst hla =>
      split at h
      · simp at h
      · simp at h
      · next i1 hwi =>
        simp only [Res.ok.injEq, Prod.mk.injEq] at h
        obtain ⟨rfl, rfl⟩ := h
        obtain ⟨W', hinv, hwin⟩ := hrep
        generalize hkk : min (s.size - (s.wp - s.rp)) bs.length = k at *
        have hlen : (bs.take k).length = k := by simp; omega
        obtain ⟨⟨W2, b1, b2, b3, -⟩, b4, b5, b6, b7, b8⟩ :=
          writeInner_ok L (bs := bs.take k) hinv (by omega) (by omega) hst (by rw [hlen]; exact hla)
            hwi
        rw [hlen] at b3 b5 b6
        have hS := (mapped_zero hst).1
        have hkS : k ≤ s.size := by omega
        have hold : ∀ q, q < s.wp → s.wp + k ≤ q + s.size →
            ∀ j, j < k → (s.wp + j) % s.size ≠ q % s.size :=
          fun q hq1 hq2 j hj => (ring_ne (by omega) (by omega)).symm
        have hcell : ∀ q, q < s.wp → s.wp + k ≤ q + s.size →
            L.cell i1 (q % s.size) = L.cell s.inner (q % s.size) := by
          intro q hq1 hq2
          have hne := L.written_some rfl hinv (hwin q hq1 (by omega))
          obtain ⟨b, hb⟩ := Option.ne_none_iff_exists'.mp hne
          rw [hb]
          exact b6 _ b (Nat.mod_lt _ hS) (hold q hq1 hq2) hb
        refine ⟨rfl, ⟨W2, b1, ?_⟩, rfl, rfl, rfl, rfl, rfl, ?_, ?_, ?_, ?_, b7, b8⟩
        · intro q hq1 hq2
          simp only at hq1 hq2 ⊢
          by_cases hq : q < s.wp
          · exact b2 _ (hwin q hq (by omega))
          · have := b3 (q - s.wp) (by omega)
            rwa [show s.wp + (q - s.wp) = q by omega] at this
        · intro i hi
          rw [cell, if_pos (by constructor <;> simp only <;> omega)]
          have := b5 i hi
          rw [List.getElem?_take, if_pos hi] at this
          exact this
        · intro q hq
          unfold cell at hq
          split at hq
          · next hc => exact hc.1
          · simp at hq
        · intro q b hb hq
          unfold cell at hb ⊢
          split at hb
          · next hc =>
            simp only at hc hb
            rw [if_pos (by omega), ← hcell q hq hc.2]
            exact hb
          · simp at hb
        · intro q b hq hb
          unfold cell at hb ⊢
          split at hb
          · next hc =>
            rw [if_pos (by constructor <;> simp only <;> omega)]
            simp only
            rw [hcell q hc.1 (by omega)]
            exact hb
          · simp at hb
    · simp at h

end Bnd

/-- Bounded storage over a lawful storage is a lawful windowed storage. -/
def bndLawful (checks : Bool) {I : Storage} (L : Lawful I true) :
    Lawful (bndStorage checks I) false where
  Inv s W := Bnd.Rep L s ∧ ∀ q ∈ W, q < s.wp
  cell := Bnd.cell L
  rpos s := s.rp
  Clean _ := True
  Fresh _ := True
  clean_fresh := by intros; trivial
  Exact s := 0 ≤ s.read ∧ s.read ≤ s.rp ∧ s.written = s.wp
  Cut _ _ := False
  cut_pos h := h.elim
  cut_full h := h.elim
  exact_full := by simp
  exact_tell _ h := h
  exact_read := by
    intro s W n bs s' hinv he h
    obtain ⟨-, -, -, h4, h5, -, h7, h8, -⟩ := Bnd.readOp_ok L hinv.1 h
    omega
  exact_write := by
    intro s W bs k s' hinv he h
    obtain ⟨-, -, h3, h4, -, h5, h6, -⟩ := Bnd.writeOp_ok L hinv.1 h
    omega
  exact_rseek := by
    intro s W p s' hinv he hp h
    simp only [Bnd.rseek, Nat.sub_eq_zero_of_le hp, Bnd.subCnt_zero,
      Res.ok.injEq] at h
    subst h
    dsimp only
    exact ⟨he.1, by have := he.2.1; omega, he.2.2⟩
  exact_wseek := by
    intro s W s' hinv he h
    simp only [Bnd.wseek, Nat.sub_self, Bnd.subCnt_zero, Res.ok.injEq] at h
    subst h
    exact he
  written_some := by simp
  tell_ok := by
    intro s W h
    exact ⟨rfl, h, trivial, rfl, rfl, fun _ => rfl⟩
  read_ok := by
    intro s W n bs s' hinv _ h
    obtain ⟨h1, h2, h3, h4, h5, -, -, -, h6, -⟩ := Bnd.readOp_ok L hinv.1 h
    exact ⟨h1, h2, ⟨h3, by rw [h5]; exact hinv.2⟩, trivial, h4, h5, h6⟩
  read_len := by
    intro s W n bs s' m hinv he _ h hmn hW
    left
    obtain ⟨-, -, -, -, -, -, -, -, -, -, -, h8⟩ := Bnd.readOp_ok L hinv.1 h
    by_cases hm : m = 0
    · omega
    have hlast := hinv.2 _ (hW (m - 1) (by omega))
    have hc := Bnd.cnt_le (x := s.written) (y := s.read) (by omega) (by omega)
    rw [if_neg (by rw [hc]; omega)] at h8
    omega
  read_some := by simp
  rseek_ok := by
    intro s W p s' hinv h
    simp only [Bnd.rseek] at h
    split at h
    · simp at h
    · simp at h
    · simp only [Res.ok.injEq] at h
      subst h
      exact ⟨hinv, trivial, rfl, rfl, fun _ => rfl⟩
  write_ok := by
    intro s W bs k s' hinv h
    obtain ⟨h1, h2, h3, h4, -, -, -, h5, h6, -⟩ := Bnd.writeOp_ok L hinv.1 h
    refine ⟨by omega, ⟨h2, ?_⟩, fun _ => trivial, h3, h4, h5, fun q hq => Or.inr (h6 q hq)⟩
    intro q hq
    rw [Finset.mem_union, Finset.mem_Ico] at hq
    rw [h4]
    rcases hq with hq | hq
    · have := hinv.2 q hq; omega
    · exact hq.2
  write_full := by simp
  write_window := by
    intro _ s W bs k s' hinv h
    obtain ⟨h1, h2, h3, h4, -, -, -, h5, h6, h7, h8, -⟩ := Bnd.writeOp_ok L hinv.1 h
    refine ⟨?_, h8⟩
    intro q b hb
    by_cases hq : q < s.wp
    · exact Or.inr (h7 q b hb hq)
    · have := h6 q (by rw [hb]; simp)
      refine Or.inl ⟨q - s.wp, by omega, by simp only; omega, ?_⟩
      have h9 := h5 (q - s.wp) (by omega)
      rw [show s.wp + (q - s.wp) = q by omega] at h9
      rw [← h9, hb]
  wseek_ok := by
    intro s W p s' hinv hp h
    have hp : p = s.wp := by simpa using hp
    subst hp
    simp only [Bnd.wseek, Nat.sub_self, Bnd.subCnt_zero, Res.ok.injEq] at h
    subst h
    exact ⟨hinv, fun _ => trivial, rfl, rfl, fun _ => rfl⟩

/-- ... and so is its provider. -/
def bndLawfulProvider (checks : Bool) {P : Provider} (bufferSize : Nat) (cl : Option Nat)
    (L : LawfulProvider P true (some (Bnd.sizeFor bufferSize cl))) :
    LawfulProvider (bndProvider checks P bufferSize) false cl where
  law := bndLawful checks L.law
  create_ok := by
    intro s h
    simp only [Bnd.mk?] at h
    split at h
    · simp at h
    · simp at h
    · next i hi =>
      simp only [Res.ok.injEq] at h
      subst h
      obtain ⟨a1, -⟩ := L.create_ok hi
      refine ⟨⟨⟨∅, a1, ?_⟩, by simp⟩, ⟨Int.le_refl _, Int.le_refl _, rfl⟩, trivial, rfl, rfl, ?_⟩
      · intro q hq; simp at hq
      · intro q hq
        simp [bndLawful, Bnd.cell] at hq

end SD
