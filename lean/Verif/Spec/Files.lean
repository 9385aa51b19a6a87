import Verif.Model.Files

/-! # What a stream may expect of its temporary file -/

namespace SD

namespace Files

/-- A disk before the first stream: it holds any files, and every name leads to one of
them. -/
def Before (w : Files) : Prop :=
  (∀ i, w.streams i = none) ∧ ∀ p n, w.names p = some n → n < w.next

/-- What stream `i` did with its storage. -/
def opsOf (i : Nat) : List FileAct → List FileOp
  | [] => []
  | .op j o :: as => if j = i then o :: opsOf i as else opsOf i as
  | _ :: as => opsOf i as

/-- What it got for that. -/
def outsOf (i : Nat) (outs : List (Nat × FileOut)) : List FileOut :=
  (outs.filter fun r => r.1 = i).map Prod.snd

/-- What a file that nobody else can reach gives. -/
def alone : Tmp → List FileOp → List FileOut
  | _, [] => []
  | s, o :: os => (s.op o).1 :: alone (s.op o).2 os

/-- Other programs do not write into the files of the streams.  They may do what they like
with names, also with those of the streams. -/
def NotWritten (osDir : String) (w : Files) : List FileAct → Prop
  | [] => True
  | a :: as =>
    (∀ ino bs, a = .otherWrites ino bs → ∀ i s, w.streams i = some s → s.ino ≠ ino) ∧
    ∀ out w1, w.step osDir a = some (out, w1) → w1.NotWritten osDir as

/-- Other programs do not take the names of the streams' files away. -/
def NotRemoved (osDir : String) (w : Files) : List FileAct → Prop
  | [] => True
  | a :: as =>
    (∀ p, a = .otherRemoves p → ∀ i s, w.streams i = some s → s.reader = true → s.path ≠ p) ∧
    ∀ out w1, w.step osDir a = some (out, w1) → w1.NotRemoved osDir as

/-- Someone can still reach the file. -/
def Held (w : Files) (ino : Nat) : Prop :=
  (∃ p, w.names p = some ino) ∨
    ∃ i s, w.streams i = some s ∧ s.ino = ino ∧ (s.reader = true ∨ s.writer = true)

end Files

end SD
