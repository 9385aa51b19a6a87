import Verif.Proof.Sys.Token

/-! # How the download task ends -/

set_option linter.unusedSimpArgs false
set_option linter.unusedVariables false

namespace SD

variable {S : Storage}

/-- On the way to a normal end. -/
def SrcPc.normal : SrcPc → Bool
  | .fin | .finSig | .report | .onFin none _ => true
  | _ => false

/-- The download has ended, or is about to, without an error. -/
def endedOk (s : Sys S) : Prop :=
  s.spc.normal = true ∨ (s.failed = false ∧ (s.spc = .sigDone ∨ s.done = true))

/-- After `finish_or_find_next_gap` has decided that everything is there. -/
def finished (s : Sys S) : Prop :=
  (s.spc.normal = true ∧ s.spc ≠ .fin) ∨ (s.failed = false ∧ (s.spc = .sigDone ∨ s.done = true))

structure EndInv (s : Sys S) : Prop where
  ending : s.done = true → s.spc.ending = true
  failed : s.failed = true → s.spc = .sigDone ∨ s.spc = .tokCancel ∨ s.spc = .ended
  late : s.spc = .tokCancel ∨ s.spc = .ended → s.done = true
  early : s.spc = .report → s.done = true
  onFin : ∀ o, s.spc = .onFin none o → s.done = true ∧ o = .completed
  eof : endedOk s → Ev.eof ∈ s.log

set_option maxHeartbeats 2000000 in
theorem EndInv.step {c : Cfg} {s s' : Sys S} {a : Act} (hk : c.KeepsErrors) (h : EndInv s)
    (ht : Tr c s a s') : EndInv s' := by
  obtain ⟨h1, h2, h3, h4, h5, h6⟩ := h
  unfold Cfg.KeepsErrors at hk
  cases ht
  case onFinOk r o heq hn =>
    cases r with
    | some k => exact absurd hn (hk k o)
    | none =>
      have hd := (h5 o heq).1
      have he : Ev.eof ∈ s.log := h6 (Or.inl (by simp [heq, SrcPc.normal]))
      constructor <;> simp_all [SrcPc.ending]
  all_goals constructor
  all_goals grind [SrcPc.ending, SrcPc.normal, endedOk, roundPc, startPc]

theorem EndInv.init (c : Cfg) (st : S.σ) : EndInv (SD.init c st) := by
  constructor <;> simp [SD.init, endedOk, SrcPc.normal]

end SD
