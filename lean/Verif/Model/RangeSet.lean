/-!
# Downloaded ranges

Model of `source/handle.rs` 152-170 (`Downloaded`), which is a `RangeSet<u64>` of
the external crate `rangemap`.  The crate keeps a map of disjoint ranges ordered
by start and coalesces ranges that overlap or touch; the model keeps a list of
pairs `(start, end)` with the same shape.
-/

namespace SD

/-- A `RangeSet<u64>`: half-open ranges `(start, end)`. -/
abbrev RSet := List (Nat × Nat)

namespace RSet

/-- `RangeSet::insert` (crate `rangemap`), which merges the new range with every
range it overlaps or touches. -/
def insert : RSet → Nat → Nat → RSet
  | [], lo, hi => [(lo, hi)]
  | (a, b) :: t, lo, hi =>
    if b < lo then (a, b) :: insert t lo hi
    else if hi < a then (lo, hi) :: (a, b) :: t
    else insert t (min a lo) (max b hi)

/-- `Downloaded::add`, source/handle.rs 156-161: empty and reversed ranges are
ignored. -/
def add (s : RSet) (lo hi : Nat) : RSet :=
  if lo < hi then insert s lo hi else s

/-- `Downloaded::get`, source/handle.rs 163-165: the stored range containing the
position. -/
def get : RSet → Nat → Option (Nat × Nat)
  | [], _ => none
  | (a, b) :: t, p => if a ≤ p ∧ p < b then some (a, b) else get t p

/-- `Downloaded::next_gap`, source/handle.rs 167-169: the first element of
`RangeSet::gaps` on the window `lo..hi` (crate `rangemap`): walk over the stored
ranges, moving the candidate start past every range that covers it.  An empty or
reversed window has no gaps. -/
def nextGap : RSet → Nat → Nat → Option (Nat × Nat)
  | [], lo, hi => if lo < hi then some (lo, hi) else none
  | (a, b) :: t, lo, hi =>
    if b ≤ lo then nextGap t lo hi
    else if a ≤ lo then nextGap t b hi
    else if lo < hi then some (lo, min a hi) else none

end RSet

end SD
