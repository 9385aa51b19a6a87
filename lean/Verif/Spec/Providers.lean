import Verif.Model.Memory
import Verif.Model.Temp
import Verif.Model.Adaptive
import Verif.Model.Short

/-!
# The storage providers of the crate, by what they keep

The properties of the running system are stated for these.  `cl` is the content
length of the stream, which decides what adaptive storage is.  Their writes may take less than
they are given, as those of files do (Model/Short).
-/

namespace SD

/-- Providers whose storage keeps everything that is written to it.  `blank` asks
in addition that there is nothing to read before something was written; this is
not so for memory storage with a known length, which starts as that many zeros.  `eager` asks that
reads return everything that is there and fits. -/
inductive Keeps (eager blank : Bool) : Option Nat → Provider → Prop
  | memory (cl : Option Nat) : (blank = true → cl = none) → Keeps eager blank cl memProvider
  | temp (cl : Option Nat) : Keeps eager blank cl tmpProvider
  | adaptive (checks : Bool) (F V : Provider) (bufferSize n : Nat) :
      Keeps eager blank (some n) F → Keeps eager blank (some n) V →
      Keeps eager blank (some n) (adpProvider checks F V bufferSize)
  | slow (cl : Option Nat) (takes : Nat → Nat) (P : Provider) : Keeps eager blank cl P →
      Keeps eager blank cl (slowProvider takes P)
  | short (cl : Option Nat) (gives : Nat → Nat) (P : Provider) : eager = false →
      Keeps eager blank cl P → Keeps eager blank cl (shortProvider gives P)

/-- Providers whose storage keeps everything that is written to it. -/
abbrev Unbounded : Option Nat → Provider → Prop := Keeps true false

/-- Those that start with nothing to read. -/
abbrev Blank : Option Nat → Provider → Prop := Keeps true true

/-- Providers whose storage keeps everything and whose reads may return less than is there. -/
abbrev Sparing : Option Nat → Provider → Prop := Keeps false false

/-- Those that start with nothing to read. -/
abbrev SparingBlank : Option Nat → Provider → Prop := Keeps false true

/-- Providers whose storage keeps a window of the stream, over any storage. -/
inductive Windowed : Option Nat → Provider → Prop
  | bounded (cl : Option Nat) (checks : Bool) (F : Provider) (bufferSize : Nat) :
      Sparing (some (Bnd.sizeFor bufferSize cl)) F → Windowed cl (bndProvider checks F bufferSize)
  | adaptive (checks : Bool) (F V : Provider) (bufferSize : Nat) :
      Sparing (some bufferSize) F → Sparing (some bufferSize) V →
      Windowed none (adpProvider checks F V bufferSize)

/-- Every provider of the crate. -/
def Supported (cl : Option Nat) (P : Provider) : Prop := Unbounded cl P ∨ Windowed cl P

end SD
