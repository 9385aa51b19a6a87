import Verif.Spec.Registry

/-! # The order of the entries, and which one is found -/

set_option linter.unusedVariables false

namespace SD
namespace Reg

/-- The order of `sort_by_key`. -/
abbrev prioLe (a b : Entry) : Bool := decide (a.priority ≤ b.priority)

theorem prioLe_trans (a b c : Entry) (h1 : prioLe a b = true) (h2 : prioLe b c = true) : prioLe a c = true := by
  simp [prioLe] at *; omega

theorem prioLe_total (a b : Entry) : (prioLe a b || prioLe b a) = true := by
  simp [prioLe]; omega

theorem filter_sort (l : List Entry) (k : Nat) :
    (l.mergeSort prioLe).filter (fun e => decide (e.priority = k)) = l.filter (fun e => decide (e.priority = k)) := by
  have hp := (List.mergeSort_perm l prioLe).filter (fun e => decide (e.priority = k))
  have h1 : (l.filter (fun e => decide (e.priority = k))).Pairwise (fun a b => prioLe a b = true) := by
    rw [List.pairwise_iff_forall_sublist]
    intro a b hab
    have ha := hab.subset (List.mem_cons_self)
    have hb := hab.subset (List.mem_cons_of_mem _ (List.mem_singleton_self _))
    rw [List.mem_filter] at ha hb
    have e1 : a.priority = k := by simpa using ha.2
    have e2 : b.priority = k := by simpa using hb.2
    simp [prioLe, e1, e2]
  have h2 := List.sublist_mergeSort prioLe_trans prioLe_total h1 (List.filter_sublist (l := l))
  have h3 := h2.filter (fun e => decide (e.priority = k))
  rw [List.filter_filter] at h3
  simp only [Bool.and_self] at h3
  exact (h3.eq_of_length hp.length_eq.symm).symm

/-- The entries of a registry are sorted and keep the order of registration. -/
structure Sorted (es L : List Entry) : Prop where
  perm : L.Perm es
  sorted : L.Pairwise (fun a b => a.priority ≤ b.priority)
  stable : ∀ k, L.filter (fun e => decide (e.priority = k)) = es.filter (fun e => decide (e.priority = k))

theorem sorted_add {es L : List Entry} (h : Sorted es L) (e : Entry) : Sorted (es ++ [e]) (addEntry L e) := by
  unfold addEntry
  refine ⟨?_, ?_, ?_⟩
  · exact (List.mergeSort_perm _ _).trans (h.perm.append_right [e])
  · have := List.pairwise_mergeSort (le := prioLe) prioLe_trans prioLe_total (L ++ [e])
    exact this.imp (fun h => by simpa [prioLe] using h)
  · intro k
    have := filter_sort (L ++ [e]) k
    rw [show (fun a b : Entry => decide (a.priority ≤ b.priority)) = prioLe from rfl, this, List.filter_append,
      List.filter_append, h.stable]

theorem sorted_registry (es : List Entry) : Sorted es (registry es) := by
  have : ∀ (es es0 L : List Entry), Sorted es0 L → Sorted (es0 ++ es) (es.foldl addEntry L) := by
    intro es
    induction es with
    | nil => intro es0 L h; simpa using h
    | cons e es ih =>
      intro es0 L h
      have := ih (es0 ++ [e]) _ (sorted_add h e)
      simpa using this
  exact this es [] [] ⟨.refl _, .nil, fun _ => rfl⟩

/-- The first entry of the sorted list that satisfies a predicate is the chosen one. -/
theorem chosen_of_first {es L A B : List Entry} {e : Entry} {c : Entry → Prop} (h : Sorted es L)
    (hL : L = A ++ e :: B) (hA : ∀ x ∈ A, ¬ c x) (he : c e) : Chosen c es e := by
  have hmin : ∀ x ∈ es, c x → e.priority ≤ x.priority := by
    intro x hx hc
    have hx := h.perm.mem_iff.mpr hx
    have hs := h.sorted
    rw [hL] at hx hs
    rcases List.mem_append.mp hx with hx | hx
    · exact absurd hc (hA x hx)
    · rcases List.mem_cons.mp hx with hx | hx
      · rw [hx]; exact Nat.le_refl _
      · exact (List.pairwise_cons.mp (List.pairwise_append.mp hs).2.1).1 x hx
  have hf := h.stable e.priority
  rw [hL, List.filter_append, List.filter_cons, if_pos (by simp)] at hf
  obtain ⟨l1, l2, h1, h2, h3⟩ := List.filter_eq_append_iff.mp hf.symm
  obtain ⟨l3, l4, h4, h5, h6, h7⟩ := List.filter_eq_cons_iff.mp h3
  refine ⟨l1 ++ l3, l4, by rw [h1, h4]; simp, he, ?_, ?_⟩
  · intro x hx hc
    have hle := hmin x (by rw [h1, h4]; grind) hc
    rcases List.mem_append.mp hx with hx | hx
    · by_cases hp : x.priority = e.priority
      · have : x ∈ List.filter (fun y => decide (y.priority = e.priority)) A := by
          rw [← h2]; exact List.mem_filter.mpr ⟨hx, by simpa using hp⟩
        exact absurd hc (hA x (List.mem_filter.mp this).1)
      · omega
    · have := h5 x hx
      simp at this; omega
  · intro x hx hc
    exact hmin x (by rw [h1, h4]; simp [hx]) hc

/-- The first element that a partial function takes. -/
theorem findSome_split {α β : Type} {f : α → Option β} {l : List α} {b : β} (h : l.findSome? f = some b) :
    ∃ A a B, l = A ++ a :: B ∧ (∀ x ∈ A, f x = none) ∧ f a = some b := by
  obtain ⟨A, a, B, h1, h2, h3⟩ := List.findSome?_eq_some_iff.mp h
  exact ⟨A, a, B, h1, h3, h2⟩

theorem isPrefixOf_iff {p s : Text} : p.isPrefixOf s = true ↔ ∃ rest, s = p ++ rest := by
  rw [List.isPrefixOf_iff_prefix]
  constructor
  · rintro ⟨r, h⟩; exact ⟨r, h.symm⟩
  · rintro ⟨r, h⟩; exact ⟨r, h.symm⟩

theorem removeFirst_prefix (p rest : Text) : removeFirst p (p ++ rest) = rest := by
  cases h : p ++ rest with
  | nil =>
    have := List.append_eq_nil_iff.mp h
    simp [removeFirst, this.2]
  | cons c cs =>
    rw [removeFirst, ← h, if_pos (isPrefixOf_iff.mpr ⟨rest, rfl⟩)]
    simp

theorem matchPrefix_eq {p s rest : Text} : matchPrefix p s = some rest ↔ s = p ++ rest := by
  unfold matchPrefix
  constructor
  · intro h
    split at h
    · rename_i h1
      obtain ⟨r, rfl⟩ := isPrefixOf_iff.mp h1
      rw [removeFirst_prefix] at h
      simp at h; rw [h]
    · simp at h
  · rintro rfl
    rw [if_pos (isPrefixOf_iff.mpr ⟨rest, rfl⟩), removeFirst_prefix]

theorem mem_prefixes {rules : List Rule} {p : Text} : p ∈ prefixes rules ↔ Rule.prefix_ p ∈ rules := by
  unfold prefixes
  rw [List.mem_filterMap]
  constructor
  · rintro ⟨r, h1, h2⟩
    cases r <;> simp at h2
    subst h2; exact h1
  · intro h; exact ⟨_, h, rfl⟩

theorem matchesInput_iff {m : MatchType} {t : Text} :
    m.matchesInput (some t) = true ↔ ∀ x, m = .value x → x.isMatch t = true := by
  cases m <;> simp [MatchType.matchesInput]

theorem matchesInput_opt_iff {m : MatchType} {t : Option Text} :
    m.matchesInput t = true ↔ ∀ x, m = .value x → ∃ d, t = some d ∧ x.isMatch d = true := by
  cases m <;> cases t <;> simp [MatchType.matchesInput]

/-- Rules other than prefix rules match a source as they say. -/
theorem matchesSource_iff {U : UrlLib} {r : Rule} {s : Text} :
    r.matchesSource (Source.ofText U s) = true ↔ r.Covers U s ∧ ∀ p, r ≠ .prefix_ p := by
  unfold Source.ofText
  cases hp : U.parse s with
  | none =>
    cases r <;> simp [Rule.matchesSource, Rule.Covers, hp, matchesInput_iff]
  | some u =>
    cases r <;> simp [Rule.matchesSource, Rule.Covers, hp, matchesInput_iff, matchesInput_opt_iff]

/-- What a round of `find_match` does with a raw input. -/
theorem tryEntry_raw {U : UrlLib} {s : Text} {e : Entry} :
    (tryEntry (U := U) (.raw s) (InputType.raw s).parsedInput e = none ↔ ¬ e.Covers U s) ∧
    ∀ i, tryEntry (.raw s) (InputType.raw s).parsedInput e = some i →
      (∃ p rest, Rule.prefix_ p ∈ e.rules ∧ s = p ++ rest ∧ i = { pre := some p, source := Source.ofText U rest }) ∨
      ((∀ p, Rule.prefix_ p ∈ e.rules → ¬ ∃ rest, s = p ++ rest) ∧ i = { pre := none, source := Source.ofText U s }) := by
  simp only [tryEntry]
  cases hf : (prefixes e.rules).findSome? fun p => (matchPrefix p s).map fun rest => (p, rest) with
  | some pr =>
    obtain ⟨p, rest⟩ := pr
    obtain ⟨A, a, B, h1, h2, h3⟩ := findSome_split hf
    simp only [Option.map_eq_some_iff] at h3
    obtain ⟨r, h4, h5⟩ := h3
    simp at h5
    obtain ⟨rfl, rfl⟩ := h5
    have h6 : Rule.prefix_ a ∈ e.rules := mem_prefixes.mp (by rw [h1]; simp)
    have h7 := matchPrefix_eq.mp h4
    constructor
    · exact ⟨fun h => by simp at h, fun h => absurd ⟨_, h6, r, h7⟩ h⟩
    · intro i hi
      simp at hi
      exact .inl ⟨a, r, h6, h7, hi.symm⟩
  | none =>
    have hno : ∀ p, Rule.prefix_ p ∈ e.rules → ¬ ∃ rest, s = p ++ rest := by
      rintro p hp ⟨rest, hr⟩
      have := List.findSome?_eq_none_iff.mp hf p (mem_prefixes.mpr hp)
      rw [matchPrefix_eq.mpr hr] at this
      simp at this
    simp only [handle]
    have hany : (e.rules.any fun r => r.matchesSource (InputType.raw s : InputType U).parsedInput.source) = true ↔
        e.Covers U s := by
      rw [List.any_eq_true]
      constructor
      · rintro ⟨r, h1, h2⟩
        exact ⟨r, h1, (matchesSource_iff.mp h2).1⟩
      · rintro ⟨r, h1, h2⟩
        refine ⟨r, h1, matchesSource_iff.mpr ⟨h2, ?_⟩⟩
        rintro p rfl
        exact hno p h1 h2
    constructor
    · rw [← hany]; split <;> simp_all
    · intro i hi
      split at hi
      · simp at hi; exact .inr ⟨hno, hi.symm⟩
      · simp at hi

end Reg
end SD
