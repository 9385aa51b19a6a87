import Verif.Model.RangeSet

/-!
# Specification of the downloaded ranges: a set of positions
-/

namespace SD

/-- Position `p` is in the set of positions denoted by the list of ranges. -/
def RSet.Mem (s : RSet) (p : Nat) : Prop := ∃ r ∈ s, r.1 ≤ p ∧ p < r.2

/-- All positions of `[lo, hi)` are in the set. -/
def RSet.Covers (s : RSet) (lo hi : Nat) : Prop := ∀ p, lo ≤ p → p < hi → s.Mem p

/-- A sequence of `Downloaded::add` calls on an empty set. -/
def RSet.addAll (ops : List (Nat × Nat)) : RSet :=
  ops.foldl (fun s r => RSet.add s r.1 r.2) []

end SD
