import Verif.Model.ProcessSystem
import Verif.Spec.SourceSystem

/-!
# Vocabulary for the system with a process as its source
-/

namespace SD

variable {S : Storage}

/-- The stream of a pipeline of commands that was started, where the last command writes
`bytes`, and the system around it.  No process has ended yet. -/
def PStarts (P : Provider) (c : Cfg) (os : Proc.Os) (cmds : List Proc.Command) (bytes : List Byte)
    (w0 : PSys P.S) : Prop :=
  (∃ out st, Proc.spawnPipeline os cmds = (some out, st) ∧
    w0.early = List.replicate (st.children.length - 1) .started ∧ w0.last = .started) ∧
    RStarts P c bytes w0.x

/-- The world allows the action. -/
def PAct.Allowed (W : World asyncReadSource) (w : PSys S) : PAct → Prop
  | .x a => W.Allows w.x a
  | _ => True

/-- `w` is reachable from `w0` by actions that satisfy `G` in the world `W`. -/
inductive PReach (c : Cfg) (W : World asyncReadSource) (G : PSys S → PAct → Prop) (w0 : PSys S) :
    PSys S → Prop
  | refl : PReach c W G w0 w0
  | step {w w' : PSys S} {a : PAct} : PReach c W G w0 w → a.Allowed W w → G w a →
      pstep c w a = some w' → PReach c W G w0 w'

/-- No restriction. -/
def PAny (_ : PSys S) (_ : PAct) : Prop := True

/-- The consumer does not seek. -/
def PNoSeek (_ : PSys S) (a : PAct) : Prop := ∀ f, a ≠ .x (.sys (.seek f))

/-- The process that writes the stream does not end by itself, and the operating system does
not fail. -/
def PRuns (_ : PSys S) (a : PAct) : Prop := (∀ b, a ≠ .exit b) ∧ a ≠ .finish false

/-- The process still runs. -/
def PChild.Runs (p : PChild) : Prop := p.exit = none

end SD
