import Verif.Model.Bounded

/-! # Adaptive storage (`storage/adaptive.rs`) -/

namespace SD

/-- storage/adaptive.rs 144-155 and 192-203: the reader/writer that was chosen. -/
inductive Adp (F V : Storage) where
  | bounded (s : Bnd F)
  | fixed (s : F.σ)
  | variable (s : V.σ)

namespace Adp

/-- storage/adaptive.rs 107-134. -/
def mk? (F V : Provider) (bufferSize : Nat) (contentLength : Option Nat) : Res (Adp F.S V.S) :=
  match contentLength with
  | none =>
    match Bnd.mk? F bufferSize none with
    | .ok s => .ok (.bounded s)
    | .err k => .err k
    | .panic => .panic
  | some length =>
    if length ≤ bufferSize then
      match F.create (some length) with
      | .ok s => .ok (.fixed s)
      | .err k => .err k
      | .panic => .panic
    else
      match V.create (some length) with
      | .ok s => .ok (.variable s)
      | .err k => .err k
      | .panic => .panic

end Adp

/-- Apply a function to the value of a result. -/
def Res.map {α β : Type} (f : α → β) : Res α → Res β
  | .ok a => .ok (f a)
  | .err k => .err k
  | .panic => .panic

/-- storage/adaptive.rs 157-239: every operation is delegated to the chosen
storage. -/
abbrev adpStorage (checks : Bool) (F V : Storage) : Storage where
  σ := Adp F V
  tell
    | .bounded s => ((bndStorage checks F).tell s).map id .bounded
    | .fixed s => (F.tell s).map id .fixed
    | .variable s => (V.tell s).map id .variable
  read
    | .bounded s, n => ((bndStorage checks F).read s n).map (fun r => (r.1, .bounded r.2))
    | .fixed s, n => (F.read s n).map (fun r => (r.1, .fixed r.2))
    | .variable s, n => (V.read s n).map (fun r => (r.1, .variable r.2))
  rseek
    | .bounded s, p => ((bndStorage checks F).rseek s p).map .bounded
    | .fixed s, p => (F.rseek s p).map .fixed
    | .variable s, p => (V.rseek s p).map .variable
  wtell
    | .bounded s => (bndStorage checks F).wtell s
    | .fixed s => F.wtell s
    | .variable s => V.wtell s
  write
    | .bounded s, bs => ((bndStorage checks F).write s bs).map (fun r => (r.1, .bounded r.2))
    | .fixed s, bs => (F.write s bs).map (fun r => (r.1, .fixed r.2))
    | .variable s, bs => (V.write s bs).map (fun r => (r.1, .variable r.2))
  wseek
    | .bounded s, p => ((bndStorage checks F).wseek s p).map .bounded
    | .fixed s, p => (F.wseek s p).map .fixed
    | .variable s, p => (V.wseek s p).map .variable

/-- `AdaptiveStorageProvider::with_fixed_and_variable`, storage/adaptive.rs
69-135.  `max_capacity` is not overridden, so it is the default `None`
(storage/mod.rs 28-30), also when the bounded storage is chosen. -/
abbrev adpProvider (checks : Bool) (F V : Provider) (bufferSize : Nat) : Provider where
  S := adpStorage checks F.S V.S
  create := Adp.mk? F V bufferSize
  maxCapacity := none

end SD
