import Verif.Proof.RangeSet

/-!
# C34: downloaded-range bookkeeping is exact

Stated for the set built by an arbitrary sequence `ops` of `add` calls, against
the plain set of positions "some recorded range contains `p`".
-/

namespace SD

/-- The recorded positions are exactly the union of the recorded ranges. -/
theorem C34_membership (ops : List (Nat × Nat)) (p : Nat) :
    RSet.Mem (RSet.addAll ops) p ↔ ∃ r ∈ ops, r.1 ≤ p ∧ p < r.2 := by
  unfold RSet.addAll
  rw [RSet.mem_foldl_add ops [] RSet.wf_nil]
  simp [RSet.mem_nil]

/-- A lookup fails exactly at positions that are not recorded, and otherwise
returns the maximal recorded range around the position: it contains the
position, every position of it is recorded, and neither its end nor the position
before its start is recorded. -/
theorem C34_lookup (ops : List (Nat × Nat)) (p : Nat) :
    match RSet.get (RSet.addAll ops) p with
    | none => ¬ RSet.Mem (RSet.addAll ops) p
    | some (a, b) =>
        a ≤ p ∧ p < b ∧ (∀ q, a ≤ q → q < b → RSet.Mem (RSet.addAll ops) q) ∧
        ¬ RSet.Mem (RSet.addAll ops) b ∧ (0 < a → ¬ RSet.Mem (RSet.addAll ops) (a - 1)) := by
  have hwf := RSet.wf_addAll ops
  split
  · next h => exact RSet.get_none_iff.mp h
  · next a b h =>
    refine ⟨(RSet.get_some_mem h).2.1, (RSet.get_some_mem h).2.2, RSet.get_some_covers h,
      RSet.get_some_end_not_mem hwf h, ?_⟩
    intro ha hm
    refine RSet.get_some_start_not_mem hwf h (a - 1) (by omega) ?_
    intro q h1 h2
    have : q = a - 1 := by omega
    rw [this]; exact hm

/-- The next-gap query on a window returns nothing exactly if the window is
fully recorded, and otherwise the first maximal missing range of the window. -/
theorem C34_next_gap (ops : List (Nat × Nat)) (lo hi : Nat) :
    match RSet.nextGap (RSet.addAll ops) lo hi with
    | none => ∀ p, lo ≤ p → p < hi → RSet.Mem (RSet.addAll ops) p
    | some (x, y) =>
        lo ≤ x ∧ x < y ∧ y ≤ hi ∧
        (∀ p, lo ≤ p → p < x → RSet.Mem (RSet.addAll ops) p) ∧
        (∀ p, x ≤ p → p < y → ¬ RSet.Mem (RSet.addAll ops) p) ∧
        (y = hi ∨ RSet.Mem (RSet.addAll ops) y) := by
  split
  · next h => exact RSet.nextGap_none h
  · next x y h => exact RSet.nextGap_some (RSet.wf_addAll ops) h

/-- The stored representation is canonical: ranges are non-empty, ordered, and no
two of them overlap or touch, so progress reports show maximal ranges. -/
theorem C34_canonical (ops : List (Nat × Nat)) :
    (∀ r ∈ RSet.addAll ops, r.1 < r.2) ∧
    (RSet.addAll ops).Pairwise (fun r r' => r.2 < r'.1) := by
  have h := RSet.wf_addAll ops
  generalize RSet.addAll ops = s at h
  refine ⟨fun r hr => RSet.wf_mem_lt h hr, ?_⟩
  induction s with
  | nil => exact List.Pairwise.nil
  | cons x t ih =>
    obtain ⟨a, b⟩ := x
    exact List.Pairwise.cons h.2.1 (ih h.2.2)

/-! Concrete instances: touching, overlapping, nested and empty ranges. -/

example : RSet.addAll [(10, 20), (30, 40), (20, 25), (50, 50), (24, 31)] = [(10, 40)] := by decide
example : RSet.addAll [(10, 20), (30, 40), (0, 5)] = [(0, 5), (10, 20), (30, 40)] := by decide
example : RSet.get (RSet.addAll [(10, 20), (30, 40)]) 20 = none := by decide
example : RSet.get (RSet.addAll [(10, 20), (20, 40)]) 20 = some (10, 40) := by decide
example : RSet.nextGap (RSet.addAll [(0, 20), (30, 40)]) 5 100 = some (20, 30) := by decide
example : RSet.nextGap (RSet.addAll [(0, 20), (30, 40)]) 25 28 = some (25, 28) := by decide
example : RSet.nextGap (RSet.addAll [(0, 20), (20, 40)]) 5 40 = none := by decide

end SD
