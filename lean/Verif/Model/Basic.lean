/-!
# Basic vocabulary of the model

Bytes, results of fallible operations and the 64-bit casts that `lib.rs` and the
storage layers use.  All `/repo` line numbers are relative to
`/repo/crates/stream-download/src` unless stated otherwise.
-/

namespace SD

/-- A byte of the stream (`u8`). -/
abbrev Byte := UInt8

/-- The `io::ErrorKind`s that the modelled code creates or passes on.
`other` stands for every kind the code does not look at. -/
inductive Kind where
  | invalidInput
  | unsupported
  | interrupted
  | unexpectedEof
  | writeZero
  | other
  deriving DecidableEq, Repr

/-- Result of a Rust operation: a value, an `io::Error`, or a panic.  Panics are
kept as values so that no branch of the code disappears in the model. -/
inductive Res (α : Type) where
  | ok (a : α)
  | err (k : Kind)
  | panic
  deriving DecidableEq, Repr

namespace Res

/-- Sequencing, i.e. the `?` operator (a panic unwinds). -/
def bind {α β : Type} (x : Res α) (f : α → Res β) : Res β :=
  match x with
  | ok a => f a
  | err k => err k
  | panic => panic

instance : Monad Res where
  pure := ok
  bind := bind

/-- Whether the result is a value. -/
def isOk {α : Type} : Res α → Bool
  | ok _ => true
  | _ => false

end Res

/-- `std::io::SeekFrom`. -/
inductive SeekFrom where
  | start (p : Nat)
  | current (d : Int)
  | fromEnd (d : Int)
  deriving DecidableEq, Repr

/-- `2^64`. -/
def two64 : Nat := 18446744073709551616

/-- `2^63`. -/
def two63 : Nat := 9223372036854775808

/-- `n as i64` for a `u64` value `n`. -/
def toI64 (n : Nat) : Int :=
  if n % two64 < two63 then ((n % two64 : Nat) : Int) else ((n % two64 : Nat) : Int) - two64

/-- `i as u64` for an `i64` value `i`. -/
def toU64 (i : Int) : Nat := (i % (two64 : Int)).toNat

/-- `(base as i64 + d) as u64`, the expression in lib.rs 435 and 440,
storage/memory.rs 77-78 and storage/bounded.rs 254.  If the `i64` addition
overflows, a build with overflow checks (`checks = true`) panics and other
builds wrap. -/
def addCast (checks : Bool) (base : Nat) (d : Int) : Res Nat :=
  if checks && (decide (toI64 base + d < -(two63 : Int)) || decide ((two63 : Int) ≤ toI64 base + d))
  then .panic
  else .ok (toU64 (toI64 base + d))

/-- `a - b` on `usize` (64-bit): a build with overflow checks panics on
underflow, other builds wrap. -/
def subU64 (checks : Bool) (a b : Nat) : Res Nat :=
  if b ≤ a then .ok (a - b)
  else if checks then .panic
  else .ok ((a + two64 - b % two64) % two64)

/-- The bytes of a resource `remote` at positions `[p, p + n)`. -/
def slice (remote : Nat → Byte) (p n : Nat) : List Byte :=
  (List.range n).map (fun i => remote (p + i))

end SD
