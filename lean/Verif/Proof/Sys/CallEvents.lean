import Verif.Spec.System

/-! # From the state of the waiting protocol to the events -/


namespace SD

theorem callSt_other {e : Ev} {l : List Ev} (h : e.isCall = false) : callSt (e :: l) = callSt l := by
  cases e <;> simp_all [Ev.isCall, Ev.isReturn, callSt]

theorem callSt_skip {l : List Ev} {x : CallSt} (h : callSt l = x) (hx : x ≠ .fresh) :
    ∃ m e l', l = m ++ e :: l' ∧ (∀ e ∈ m, e.isCall = false) ∧ e.isCall = true ∧
      callSt (e :: l') = x := by
  induction l with
  | nil => exact absurd h.symm hx
  | cons e l ih =>
    cases hc : e.isCall
    · rw [callSt_other hc] at h
      obtain ⟨m, e', l', rfl, hm, h1, h2⟩ := ih h
      refine ⟨e :: m, e', l', rfl, ?_, h1, h2⟩
      intro e' he'
      rcases List.mem_cons.mp he' with rfl | he'
      · exact hc
      · exact hm _ he'
    · exact ⟨[], e, l, rfl, by simp, hc, h⟩

theorem callSt_asked {l : List Ev} {r : Nat} (h : callSt l = .asked r) :
    ∃ m l', l = m ++ .request r :: l' ∧ ∀ e ∈ m, e.isCall = false := by
  obtain ⟨m, e, l', rfl, hm, h1, h2⟩ := callSt_skip h (by simp)
  refine ⟨m, l', ?_, hm⟩
  cases e
  case request q =>
    simp only [callSt] at h2
    split at h2 <;> simp at h2
    rw [h2]
  case released b => cases b <;> simp [callSt] at h2 <;> split at h2 <;> simp at h2
  all_goals (simp [callSt, Ev.isReturn, Ev.isCall] at h2 h1 <;> split at h2 <;> (try split at h2) <;> simp at h2)

theorem callSt_told {l : List Ev} {r w : Nat} (h : callSt l = .told r w) :
    r ≤ w ∧ ∃ m l', l = m ++ .notified w :: l' ∧ (∀ e ∈ m, e.isCall = false) ∧ callSt l' = .asked r := by
  obtain ⟨m, e, l', rfl, hm, h1, h2⟩ := callSt_skip h (by simp)
  cases e
  case notified v =>
    simp only [callSt] at h2
    split at h2
    · next r' hr =>
      split at h2
      · simp at h2
        obtain ⟨rfl, rfl⟩ := h2
        exact ⟨by assumption, m, l', rfl, hm, hr⟩
      · simp at h2
    · simp at h2
  case released b => cases b <;> simp [callSt] at h2 <;> split at h2 <;> simp at h2
  all_goals (simp [callSt, Ev.isReturn, Ev.isCall] at h2 h1 <;> split at h2 <;> (try split at h2) <;> simp at h2)

theorem callSt_byTold {l : List Ev} {r w : Nat} (h : callSt l = .byTold r w) :
    ∃ m l', l = m ++ .released false :: l' ∧ (∀ e ∈ m, e.isCall = false) ∧ callSt l' = .told r w := by
  obtain ⟨m, e, l', rfl, hm, h1, h2⟩ := callSt_skip h (by simp)
  cases e
  case released b =>
    cases b <;> simp only [callSt] at h2 <;> split at h2 <;> simp at h2
    obtain ⟨rfl, rfl⟩ := h2
    exact ⟨m, l', rfl, hm, by assumption⟩
  all_goals (simp [callSt, Ev.isReturn, Ev.isCall] at h2 h1 <;> split at h2 <;> (try split at h2) <;> simp at h2)

theorem callSt_byDone {l : List Ev} {r : Nat} (h : callSt l = .byDone r) :
    ∃ m l', l = m ++ .released true :: l' ∧ (∀ e ∈ m, e.isCall = false) ∧
      (callSt l' = .asked r ∨ ∃ w, callSt l' = .told r w) := by
  obtain ⟨m, e, l', rfl, hm, h1, h2⟩ := callSt_skip h (by simp)
  cases e
  case released b =>
    cases b <;> simp only [callSt] at h2 <;> split at h2 <;> simp at h2
    · subst h2; exact ⟨m, l', rfl, hm, Or.inr ⟨_, by assumption⟩⟩
    · subst h2; exact ⟨m, l', rfl, hm, Or.inl (by assumption)⟩
  all_goals (simp [callSt, Ev.isReturn, Ev.isCall] at h2 h1 <;> split at h2 <;> (try split at h2) <;> simp at h2)

/-- The same without the rest of the state: what a call that was released by a
notification has seen. -/
theorem callSt_byTold_events {l : List Ev} {r w : Nat} (h : callSt l = .byTold r w) :
    r ≤ w ∧ ∃ m1 m2 m3 l', l = m1 ++ .released false :: (m2 ++ .notified w :: (m3 ++ .request r :: l')) ∧
      ∀ e ∈ m1 ++ m2 ++ m3, e.isCall = false := by
  obtain ⟨m1, l1, rfl, h1, h2⟩ := callSt_byTold h
  obtain ⟨hle, m2, l2, rfl, h3, h4⟩ := callSt_told h2
  obtain ⟨m3, l3, rfl, h5⟩ := callSt_asked h4
  refine ⟨hle, m1, m2, m3, l3, rfl, ?_⟩
  intro e he
  simp only [List.mem_append] at he
  rcases he with (he | he) | he
  · exact h1 e he
  · exact h3 e he
  · exact h5 e he

end SD
