import Verif.Proof.Sys.Trans

/-! # The request / notify / wait protocol -/

set_option linter.unusedSimpArgs false
set_option linter.unusedVariables false

namespace SD

variable {S : Storage}

/-- The position the consumer has asked for and waits for. -/
def RdrPc.waiting : RdrPc → Option Nat
  | .rLoad _ r | .rNotify _ r | .rWait _ r => some r
  | .sSend p | .sWait p => some p
  | _ => none

/-- The task found the requested position to be reached. -/
def SrcPc.answering : SrcPc → Bool
  | .wClr _ _ _ _ | .wNtf _ _ _ _ => true
  | _ => false

/-- The task is about to tell the consumer. -/
def SrcPc.telling : SrcPc → Bool
  | .wNtf _ _ _ _ => true
  | _ => false

/-- The task is past the download loop. -/
def SrcPc.ending : SrcPc → Bool
  | .report | .onFin _ _ | .setFail | .sigDone | .tokCancel | .ended => true
  | _ => false

/-- State of the protocol. -/
structure Tok (s : Sys S) : Prop where
  ended : s.done = true → s.spc.ending = true
  free : s.rpc.waiting = none → waitSt s.log = some .free ∧
    (s.done = false → s.req = none ∧ s.reached = false ∧ s.spc.answering = false)
  wait : ∀ r, s.rpc.waiting = some r →
    (waitSt s.log = some (.asked r) ∧ (s.done = false → s.reached = false ∧
      (∀ r', s.req = some r' → r' = r) ∧
      (s.spc.answering = true → r ≤ S.wtell s.st) ∧
      (s.spc.answering = true → s.spc.telling = false → s.req = some r) ∧
      (s.spc.telling = true → s.req = none))) ∨
    (waitSt s.log = some (.told r) ∧ (s.done = false → s.reached = true ∧ s.req = none ∧
      s.spc.answering = false))

theorem storeReq_some {r r' : Nat} (h : storeReq r = some r') : r' = r := by
  unfold storeReq at h; split at h
  · simp at h
  · simpa using h.symm

theorem telling_answering {p : SrcPc} (h : p.telling = true) : p.answering = true := by
  revert h; cases p <;> simp [SrcPc.telling, SrcPc.answering]

set_option maxHeartbeats 2000000 in
theorem Tok.step {c : Cfg} {s s' : Sys S} {a : Act} (h : Tok s) (ht : Tr c s a s') : Tok s' := by
  obtain ⟨h1, h2, h3⟩ := h
  cases ht
  all_goals constructor
  all_goals grind [RdrPc.waiting, SrcPc.answering, SrcPc.telling, SrcPc.ending, waitSt, roundPc, startPc, storeReq_some,
    telling_answering]

theorem Tok.init (c : Cfg) (st : S.σ) : Tok (SD.init c st) := by
  constructor <;> simp [SD.init, RdrPc.waiting, waitSt, SrcPc.answering]

end SD
