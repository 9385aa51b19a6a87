import Verif.Spec.Http

/-! # Decimal numbers, range headers, and what a stream holds -/

set_option linter.unusedVariables false

namespace SD

theorem digit_toNat {d : Nat} (h : d < 10) : (digit d).toNat = 48 + d := by
  have : d = 0 ∨ d = 1 ∨ d = 2 ∨ d = 3 ∨ d = 4 ∨ d = 5 ∨ d = 6 ∨ d = 7 ∨ d = 8 ∨ d = 9 := by omega
  rcases this with h | h | h | h | h | h | h | h | h | h <;> subst h <;> rfl

theorem digit_range {d : Nat} (h : d < 10) : '0' ≤ digit d ∧ digit d ≤ '9' := by
  have : d = 0 ∨ d = 1 ∨ d = 2 ∨ d = 3 ∨ d = 4 ∨ d = 5 ∨ d = 6 ∨ d = 7 ∨ d = 8 ∨ d = 9 := by omega
  rcases this with h | h | h | h | h | h | h | h | h | h <;> subst h <;> decide

theorem isDigit_iff {c : Char} : isDigit c = true ↔ '0' ≤ c ∧ c ≤ '9' := by
  simp only [isDigit, decide_eq_true_eq]
  simp only [Char.le_def, UInt32.le_iff_toNat_le]
  rfl

theorem value_append (a b : Text) : Numeral.value (a ++ b) = Numeral.value a * 10 ^ b.length + Numeral.value b := by
  induction a with
  | nil => simp [Numeral.value]
  | cons c a ih =>
    simp only [List.cons_append, Numeral.value, ih, List.length_append, Nat.pow_add]
    rw [Nat.add_mul, Nat.mul_assoc, Nat.add_assoc]

theorem numeral_decimal (n : Nat) : Numeral (decimal n) ∧ Numeral.value (decimal n) = n := by
  induction n using Nat.strongRecOn with
  | _ n ih =>
    rw [decimal]
    split
    · rename_i h
      refine ⟨⟨by simp, ?_⟩, ?_⟩
      · intro c hc; simp at hc; subst hc; exact digit_range h
      · simp [Numeral.value, digit_toNat h, show '0'.toNat = 48 from rfl]
    · rename_i h
      obtain ⟨⟨h1, h2⟩, h3⟩ := ih (n / 10) (by omega)
      have hm : n % 10 < 10 := by omega
      refine ⟨⟨by simp, ?_⟩, ?_⟩
      · intro c hc
        rcases List.mem_append.mp hc with hc | hc
        · exact h2 c hc
        · simp at hc; subst hc; exact digit_range hm
      · rw [value_append, h3]
        simp [Numeral.value, digit_toNat hm, show '0'.toNat = 48 from rfl]
        omega

theorem digitsValue_eq (ds : Text) : digitsValue ds = Numeral.value ds := by
  have : ∀ (ds : Text) (a : Nat), ds.foldl (fun a c => 10 * a + (c.toNat - 48)) a =
      a * 10 ^ ds.length + Numeral.value ds := by
    intro ds
    induction ds with
    | nil => intro a; simp [Numeral.value]
    | cons c ds ih =>
      intro a
      simp only [List.foldl_cons, ih, Numeral.value, List.length_cons, Nat.pow_succ]
      rw [show '0'.toNat = 48 from rfl, Nat.add_mul, Nat.mul_comm 10 a, Nat.mul_assoc, Nat.mul_comm 10,
        Nat.add_assoc]
  simpa [digitsValue] using this ds 0

theorem dash_split {a a' b b' : Text} (ha : ∀ c ∈ a, '0' ≤ c ∧ c ≤ '9') (ha' : ∀ c ∈ a', '0' ≤ c ∧ c ≤ '9')
    (h : a ++ '-' :: b = a' ++ '-' :: b') : a = a' ∧ b = b' := by
  induction a generalizing a' with
  | nil =>
    cases a' with
    | nil => simpa using h
    | cons c a' =>
      simp at h
      have := (ha' c (by simp)).1
      rw [← h.1] at this
      exact absurd this (by decide)
  | cons c a ih =>
    cases a' with
    | nil =>
      simp at h
      have := (ha c (by simp)).1
      rw [h.1] at this
      exact absurd this (by decide)
    | cons c' a' =>
      simp at h
      obtain ⟨h1, h2⟩ := ih (fun x hx => ha x (by simp [hx])) (fun x hx => ha' x (by simp [hx])) h.2
      exact ⟨by rw [h.1, h1], h2⟩

theorem bytes_eq : "bytes=".toList = ['b', 'y', 't', 'e', 's', '='] := rfl

theorem asksFor_open {start p : Nat} : AsksFor (formatRange start none) p ↔ start ≤ p := by
  obtain ⟨h1, h2⟩ := numeral_decimal start
  constructor
  · rintro ⟨a, b, h3, h4, h5, -⟩
    simp only [formatRange, bytes_eq, List.append_assoc] at h3
    obtain ⟨rfl, -⟩ := dash_split h1.2 h4.2 (List.append_cancel_left h3)
    omega
  · intro h
    exact ⟨decimal start, [], by simp [formatRange], h1, by omega, .inl rfl⟩

theorem asksFor_closed {start last p : Nat} :
    AsksFor (formatRange start (some last)) p ↔ start ≤ p ∧ p ≤ last := by
  obtain ⟨h1, h2⟩ := numeral_decimal start
  obtain ⟨g1, g2⟩ := numeral_decimal last
  constructor
  · rintro ⟨a, b, h3, h4, h5, h6⟩
    simp only [formatRange, bytes_eq, List.append_assoc] at h3
    obtain ⟨rfl, h7⟩ := dash_split h1.2 h4.2 (List.append_cancel_left h3)
    simp at h7
    subst h7
    rcases h6 with h6 | h6
    · exact absurd h6 g1.1
    · omega
  · intro h
    exact ⟨decimal start, decimal last, by simp [formatRange], h1, by omega, .inr ⟨g1, by omega⟩⟩

theorem formatRange_inj {a b : Nat} {x y : Option Nat} (h : formatRange a x = formatRange b y) :
    a = b ∧ x = y := by
  have hx : ∀ z, AsksFor (formatRange a x) z ↔ AsksFor (formatRange b y) z := by rw [h]; simp
  obtain ⟨h1, h2⟩ := numeral_decimal a
  obtain ⟨h3, h4⟩ := numeral_decimal b
  simp only [formatRange, List.append_assoc] at h
  obtain ⟨e1, e2⟩ := dash_split h1.2 h3.2 (List.append_cancel_left h)
  refine ⟨by rw [← h2, ← h4, e1], ?_⟩
  cases x with
  | none =>
    cases y with
    | none => rfl
    | some y => exact absurd e2.symm (by simpa using (numeral_decimal y).1.1)
  | some x =>
    cases y with
    | none => exact absurd e2 (by simpa using (numeral_decimal x).1.1)
    | some y =>
      simp at e2
      rw [← (numeral_decimal x).2, ← (numeral_decimal y).2, e2]

/-- The part of a resource in an interval. -/
theorem part_drop (remote : List Byte) (a : Nat) : part remote (fun p => a ≤ p) = remote.drop a := by
  have key : ∀ (l : List Byte) (k : Nat),
      ((List.range' k l.length).filter (fun p => decide (a ≤ p))).map (fun p => (l.getD (p - k) 0)) =
        l.drop (a - k) := by
    intro l
    induction l with
    | nil => intro k; simp
    | cons x l ih =>
      intro k
      have hc : ((List.range' (k + 1) l.length).filter (fun p => decide (a ≤ p))).map
          (fun p => ((x :: l).getD (p - k) 0)) = l.drop (a - (k + 1)) := by
        rw [← ih (k + 1)]
        apply List.map_congr_left
        intro p hp
        have := (List.mem_range'_1.mp (List.mem_filter.mp hp).1).1
        rw [show p - k = (p - (k + 1)) + 1 by omega]
        simp
      simp only [List.length_cons, List.range'_succ, List.filter_cons]
      split
      · rename_i h
        have h : a ≤ k := by simpa using h
        rw [List.map_cons, hc, show a - k = 0 by omega, show a - (k + 1) = 0 by omega]
        simp
      · rename_i h
        have h : ¬ a ≤ k := by simpa using h
        rw [hc, show a - k = (a - (k + 1)) + 1 by omega]
        simp
  have := key remote 0
  simpa [part, List.range_eq_range'] using this

theorem part_interval (remote : List Byte) (a b : Nat) :
    part remote (fun p => a ≤ p ∧ p < b) = (remote.take b).drop a := by
  rw [← part_drop]
  unfold part
  have e : List.range remote.length =
      List.range (min b remote.length) ++ List.range' (min b remote.length) (remote.length - min b remote.length) := by
    have := List.range'_append_1 (s := 0) (m := min b remote.length) (n := remote.length - min b remote.length)
    rw [show min b remote.length + (remote.length - min b remote.length) = remote.length by omega,
      Nat.zero_add] at this
    rw [List.range_eq_range', List.range_eq_range', this]
  rw [e, List.filter_append, List.map_append, List.length_take]
  have e2 : (List.range' (min b remote.length) (remote.length - min b remote.length)).filter
      (fun p => decide (a ≤ p ∧ p < b)) = [] := by
    rw [List.filter_eq_nil_iff]
    intro p hp
    have := List.mem_range'_1.mp hp
    simp; omega
  rw [e2, List.map_nil, List.append_nil]
  have e3 : (List.range (min b remote.length)).filter (fun p => decide (a ≤ p ∧ p < b)) =
      (List.range (min b remote.length)).filter (fun p => decide (a ≤ p)) := by
    apply List.filter_congr
    intro p hp
    have := List.mem_range.mp hp
    simp; omega
  rw [e3]
  apply List.map_congr_left
  intro p hp
  have := List.mem_range.mp (List.mem_filter.mp hp).1
  rw [List.getD_eq_getElem?_getD, List.getD_eq_getElem?_getD, List.getElem?_take, if_pos (by omega)]

end SD
