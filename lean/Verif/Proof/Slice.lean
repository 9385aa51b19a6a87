import Verif.Model.Basic

/-! # Slices of the resource -/

namespace SD

@[simp] theorem slice_length (r : Nat → Byte) (p n : Nat) : (slice r p n).length = n := by
  simp [slice]

@[simp] theorem slice_zero (r : Nat → Byte) (p : Nat) : slice r p 0 = [] := rfl

theorem slice_getElem? (r : Nat → Byte) (p n i : Nat) (h : i < n) :
    (slice r p n)[i]? = some (r (p + i)) := by
  simp [slice, h]

theorem slice_ext {r : Nat → Byte} {p : Nat} {l : List Byte}
    (h : ∀ i, i < l.length → l[i]? = some (r (p + i))) : l = slice r p l.length := by
  apply List.ext_getElem?
  intro i
  by_cases hi : i < l.length
  · rw [h i hi, slice_getElem? r p _ i hi]
  · rw [List.getElem?_eq_none (by omega), List.getElem?_eq_none (by simp; omega)]

theorem slice_take (r : Nat → Byte) (p n k : Nat) : (slice r p n).take k = slice r p (min k n) := by
  apply List.ext_getElem?
  intro i
  by_cases hi : i < min k n
  · rw [slice_getElem? r p _ i hi, List.getElem?_take, if_pos (by omega),
      slice_getElem? r p _ i (by omega)]
  · rw [List.getElem?_eq_none (by simp; omega), List.getElem?_eq_none (by simp; omega)]

theorem slice_drop (r : Nat → Byte) (p n k : Nat) :
    (slice r p n).drop k = slice r (p + k) (n - k) := by
  apply List.ext_getElem?
  intro i
  by_cases hi : i < n - k
  · rw [slice_getElem? r _ _ i hi, List.getElem?_drop, slice_getElem? r p _ _ (by omega),
      Nat.add_assoc]
  · rw [List.getElem?_eq_none (by simp; omega), List.getElem?_eq_none (by simp; omega)]

theorem slice_append (r : Nat → Byte) (p a b : Nat) :
    slice r p a ++ slice r (p + a) b = slice r p (a + b) := by
  apply List.ext_getElem?
  intro i
  by_cases hi : i < a
  · rw [List.getElem?_append_left (by simpa), slice_getElem? r p _ i hi,
      slice_getElem? r p _ i (by omega)]
  · rw [List.getElem?_append_right (by simp; omega)]
    by_cases hb : i < a + b
    · rw [slice_getElem? r _ _ _ (by simp; omega), slice_getElem? r p _ i hb]
      congr 2; simp; omega
    · rw [List.getElem?_eq_none (by simp; omega), List.getElem?_eq_none (by simp; omega)]

/-- A list that is a slice of the resource at `p`. -/
def IsSlice (r : Nat → Byte) (p : Nat) (l : List Byte) : Prop := l = slice r p l.length

theorem isSlice_nil (r : Nat → Byte) (p : Nat) : IsSlice r p [] := rfl

theorem isSlice_slice (r : Nat → Byte) (p n : Nat) : IsSlice r p (slice r p n) := by
  simp [IsSlice]

theorem IsSlice.getElem? {r : Nat → Byte} {p : Nat} {l : List Byte} (h : IsSlice r p l) {i : Nat}
    (hi : i < l.length) : l[i]? = some (r (p + i)) := by
  rw [h, slice_getElem? r p _ i hi]

theorem IsSlice.take {r : Nat → Byte} {p : Nat} {l : List Byte} (h : IsSlice r p l) (k : Nat) :
    IsSlice r p (l.take k) := by
  unfold IsSlice at *
  rw [h, slice_take]; simp

theorem IsSlice.drop {r : Nat → Byte} {p : Nat} {l : List Byte} (h : IsSlice r p l) (k : Nat) :
    IsSlice r (p + k) (l.drop k) := by
  unfold IsSlice at *
  rw [h, slice_drop]; simp

theorem IsSlice.append {r : Nat → Byte} {p : Nat} {l m : List Byte} (h : IsSlice r p l)
    (h' : IsSlice r (p + l.length) m) : IsSlice r p (l ++ m) := by
  unfold IsSlice at *
  rw [List.length_append, ← slice_append, ← h, ← h']

end SD
