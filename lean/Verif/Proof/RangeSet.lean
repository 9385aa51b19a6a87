import Verif.Spec.RangeSet

/-! # Lemmas about the range set -/

namespace SD.RSet

/-- Representation invariant: non-empty, ordered, non-touching ranges. -/
def WF : RSet → Prop
  | [] => True
  | (a, b) :: t => a < b ∧ (∀ r ∈ t, b < r.1) ∧ WF t

theorem mem_nil (p : Nat) : ¬ Mem [] p := by simp [Mem]

theorem mem_cons (r : Nat × Nat) (t : RSet) (p : Nat) :
    Mem (r :: t) p ↔ (r.1 ≤ p ∧ p < r.2) ∨ Mem t p := by
  simp [Mem]

theorem wf_nil : WF [] := trivial

theorem wf_cons_lt {a b : Nat} {t : RSet} (h : WF ((a, b) :: t)) {r : Nat × Nat} (hr : r ∈ t) :
    b < r.1 := h.2.1 r hr

theorem wf_mem_lt {s : RSet} (h : WF s) {r : Nat × Nat} (hr : r ∈ s) : r.1 < r.2 := by
  induction s with
  | nil => simp at hr
  | cons x t ih =>
    obtain ⟨a, b⟩ := x
    simp only [List.mem_cons] at hr
    rcases hr with rfl | hr
    · exact h.1
    · exact ih h.2.2 hr

theorem mem_insert {s : RSet} (hs : WF s) {lo hi : Nat} (h : lo < hi) (p : Nat) :
    Mem (insert s lo hi) p ↔ Mem s p ∨ (lo ≤ p ∧ p < hi) := by
  induction s generalizing lo hi with
  | nil => simp [insert, Mem]
  | cons x t ih =>
    obtain ⟨a, b⟩ := x
    have hab := hs.1
    have ht := hs.2.2
    unfold insert
    split
    · rw [mem_cons, mem_cons, ih ht h]; grind
    · split
      · rw [mem_cons, mem_cons]; grind
      · rw [ih ht (by omega), mem_cons]
        simp only []
        constructor
        · rintro (h1 | h1)
          · exact Or.inl (Or.inr h1)
          · by_cases hp : a ≤ p ∧ p < b
            · exact Or.inl (Or.inl hp)
            · right; omega
        · rintro ((h1 | h1) | h1)
          · right; omega
          · exact Or.inl h1
          · right; omega

theorem insert_lb {s : RSet} {lo hi c : Nat} (hs : ∀ r ∈ s, c < r.1) (hlo : c < lo) :
    ∀ r ∈ insert s lo hi, c < r.1 := by
  induction s generalizing lo hi with
  | nil => simpa [insert] using hlo
  | cons x t ih =>
    obtain ⟨a, b⟩ := x
    have ha : c < a := hs (a, b) (by simp)
    have ht : ∀ r ∈ t, c < r.1 := fun r hr => hs r (by simp [hr])
    unfold insert
    split
    · intro r hr
      simp only [List.mem_cons] at hr
      rcases hr with rfl | hr
      · exact ha
      · exact ih ht hlo r hr
    · split
      · intro r hr
        simp only [List.mem_cons] at hr
        rcases hr with rfl | rfl | hr
        · exact hlo
        · exact ha
        · exact ht r hr
      · exact ih ht (by omega)

theorem wf_insert {s : RSet} (hs : WF s) {lo hi : Nat} (h : lo < hi) : WF (insert s lo hi) := by
  induction s generalizing lo hi with
  | nil => simp [insert, WF, h]
  | cons x t ih =>
    obtain ⟨a, b⟩ := x
    unfold insert
    split
    · exact ⟨hs.1, insert_lb hs.2.1 (by omega), ih hs.2.2 h⟩
    · split
      · refine ⟨h, ?_, hs⟩
        intro r hr
        simp only [List.mem_cons] at hr
        rcases hr with rfl | hr
        · assumption
        · have := hs.2.1 r hr; have := hs.1; omega
      · exact ih hs.2.2 (by have := hs.1; omega)

theorem wf_add {s : RSet} (hs : WF s) (lo hi : Nat) : WF (add s lo hi) := by
  unfold add; split
  · exact wf_insert hs (by assumption)
  · exact hs

theorem mem_add {s : RSet} (hs : WF s) (lo hi p : Nat) :
    Mem (add s lo hi) p ↔ Mem s p ∨ (lo ≤ p ∧ p < hi) := by
  unfold add; split
  · exact mem_insert hs (by assumption) p
  · constructor
    · exact Or.inl
    · rintro (h | h)
      · exact h
      · omega

theorem get_some_mem {s : RSet} {p : Nat} {r : Nat × Nat} (h : get s p = some r) :
    r ∈ s ∧ r.1 ≤ p ∧ p < r.2 := by
  induction s with
  | nil => simp [get] at h
  | cons x t ih =>
    obtain ⟨a, b⟩ := x
    unfold get at h
    split at h
    · simp only [Option.some.injEq] at h
      subst h
      simp_all
    · have := ih h
      simp [this]

theorem get_some_covers {s : RSet} {p a b : Nat} (h : get s p = some (a, b)) : Covers s a b := by
  intro q h1 h2
  exact ⟨(a, b), (get_some_mem h).1, h1, h2⟩

theorem get_none_iff {s : RSet} {p : Nat} : get s p = none ↔ ¬ Mem s p := by
  induction s with
  | nil => simp [get, mem_nil]
  | cons x t ih =>
    obtain ⟨a, b⟩ := x
    rw [mem_cons]
    unfold get
    split
    · simp_all
    · rw [ih]; grind

theorem get_some_end_not_mem {s : RSet} (hs : WF s) {p a b : Nat} (h : get s p = some (a, b)) :
    ¬ Mem s b := by
  induction s with
  | nil => simp [get] at h
  | cons x t ih =>
    obtain ⟨c, d⟩ := x
    rw [mem_cons]
    unfold get at h
    split at h
    · simp only [Option.some.injEq, Prod.mk.injEq] at h
      obtain ⟨rfl, rfl⟩ := h
      rintro (h1 | ⟨r, hr, h1, h2⟩)
      · omega
      · have := hs.2.1 r hr; omega
    · have h1 := ih hs.2.2 h
      have h2 := (get_some_mem h)
      have h3 := hs.2.1 _ h2.1
      simp only [] at h3
      rintro (h4 | h4)
      · omega
      · exact h1 h4

theorem get_some_start_not_mem {s : RSet} (hs : WF s) {p a b : Nat} (h : get s p = some (a, b)) :
    ∀ q, q < a → (∀ q', q ≤ q' → q' < a → Mem s q') → False := by
  induction s with
  | nil => simp [get] at h
  | cons x t ih =>
    obtain ⟨c, d⟩ := x
    intro q hq hall
    unfold get at h
    split at h
    · simp only [Option.some.injEq, Prod.mk.injEq] at h
      obtain ⟨rfl, rfl⟩ := h
      have := hall q (Nat.le_refl _) hq
      rw [mem_cons] at this
      rcases this with h1 | ⟨r, hr, h1, h2⟩
      · omega
      · have := hs.2.1 r hr; have := hs.1; omega
    · have h2 := (get_some_mem h)
      have h3 := hs.2.1 _ h2.1
      simp only [] at h3
      -- position `a - 1` is above `d`, hence it is in `t`
      refine ih hs.2.2 h (max q d) (by omega) ?_
      intro q' h4 h5
      have := hall q' (by omega) h5
      rw [mem_cons] at this
      rcases this with h6 | h6
      · omega
      · exact h6

theorem nextGap_some {s : RSet} (hs : WF s) {lo hi x y : Nat} (h : nextGap s lo hi = some (x, y)) :
    lo ≤ x ∧ x < y ∧ y ≤ hi ∧ Covers s lo x ∧ (∀ p, x ≤ p → p < y → ¬ Mem s p) ∧
      (y = hi ∨ Mem s y) := by
  induction s generalizing lo with
  | nil =>
    unfold nextGap at h
    split at h
    · simp only [Option.some.injEq, Prod.mk.injEq] at h
      obtain ⟨rfl, rfl⟩ := h
      refine ⟨Nat.le_refl _, by assumption, Nat.le_refl _, ?_, ?_, Or.inl rfl⟩
      · intro p h1 h2; omega
      · intro p _ _; exact mem_nil p
    · simp at h
  | cons z t ih =>
    obtain ⟨a, b⟩ := z
    unfold nextGap at h
    split at h
    · obtain ⟨h1, h2, h3, h4, h5, h6⟩ := ih hs.2.2 h
      refine ⟨h1, h2, h3, ?_, ?_, ?_⟩
      · intro p hp1 hp2; rw [mem_cons]; exact Or.inr (h4 p hp1 hp2)
      · intro p hp1 hp2; rw [mem_cons]; simp only []
        rintro (h7 | h7)
        · omega
        · exact h5 p hp1 hp2 h7
      · rw [mem_cons]; grind
    · split at h
      · obtain ⟨h1, h2, h3, h4, h5, h6⟩ := ih hs.2.2 h
        refine ⟨by omega, h2, h3, ?_, ?_, ?_⟩
        · intro p hp1 hp2; rw [mem_cons]; simp only []
          by_cases hb : p < b
          · left; omega
          · exact Or.inr (h4 p (by omega) hp2)
        · intro p hp1 hp2; rw [mem_cons]; simp only []
          rintro (h7 | h7)
          · omega
          · exact h5 p hp1 hp2 h7
        · rw [mem_cons]; grind
      · split at h
        · simp only [Option.some.injEq, Prod.mk.injEq] at h
          obtain ⟨rfl, rfl⟩ := h
          have hab := hs.1
          refine ⟨Nat.le_refl _, by omega, by omega, ?_, ?_, ?_⟩
          · intro p hp1 hp2; omega
          · intro p hp1 hp2; rw [mem_cons]; simp only []
            rintro (h7 | ⟨r, hr, h7, h8⟩)
            · omega
            · have := hs.2.1 r hr; omega
          · by_cases hh : hi ≤ a
            · left; omega
            · right; rw [mem_cons]; left; simp only []; omega
        · simp at h

theorem nextGap_none {s : RSet} {lo hi : Nat} (h : nextGap s lo hi = none) :
    Covers s lo hi := by
  induction s generalizing lo with
  | nil =>
    unfold nextGap at h
    split at h
    · simp at h
    · intro p h1 h2; omega
  | cons z t ih =>
    obtain ⟨a, b⟩ := z
    unfold nextGap at h
    split at h
    · intro p h1 h2; rw [mem_cons]; exact Or.inr (ih h p h1 h2)
    · split at h
      · intro p h1 h2
        rw [mem_cons]
        simp only []
        by_cases hb : p < b
        · left; omega
        · exact Or.inr (ih h p (by omega) h2)
      · split at h
        · simp at h
        · intro p h1 h2; omega

theorem wf_addAll (ops : List (Nat × Nat)) : WF (addAll ops) := by
  unfold addAll
  have : ∀ s, WF s → WF (ops.foldl (fun s r => add s r.1 r.2) s) := by
    induction ops with
    | nil => intro s hs; exact hs
    | cons o os ih => intro s hs; exact ih _ (wf_add hs _ _)
  exact this [] wf_nil

theorem mem_foldl_add (ops : List (Nat × Nat)) (s : RSet) (hs : WF s) (p : Nat) :
    Mem (ops.foldl (fun s r => add s r.1 r.2) s) p ↔ Mem s p ∨ ∃ r ∈ ops, r.1 ≤ p ∧ p < r.2 := by
  induction ops generalizing s with
  | nil => simp
  | cons o os ih =>
    simp only [List.foldl_cons]
    rw [ih _ (wf_add hs _ _), mem_add hs]
    simp only [List.mem_cons, exists_eq_or_imp]
    grind

end SD.RSet
