import Verif.Proof.Sys.Pos
import Verif.Proof.Sys.Token

/-! # The waiting protocol, call by call -/

set_option linter.unusedSimpArgs false
set_option linter.unusedVariables false

namespace SD

variable {S : Storage}

/-- What `read` waits for, while it does. -/
def RdrPc.wants : RdrPc → Option (Nat × Nat)
  | .rSet n r | .rLoad n r | .rNotify n r | .rWait n r | .rCheck n r => some (n, r)
  | _ => none

/-- The consumer has not waited in this call, or not any more. -/
def RdrPc.unwaited : RdrPc → Bool
  | .idle | .rDecide _ | .rSet _ _ | .rSwap | .rWake | .sDecide _ | .sSet _ | .dropped
  | .rRead _ true => true
  | _ => false

structure CallInv (c : Cfg) (s : Sys S) : Prop where
  unwaited : s.rpc.unwaited = true → callSt s.log = .fresh
  wants : ∀ n r, s.rpc.wants = some (n, r) → r = c.normalize (logPos s.log + n)
  wait : ∀ r, s.rpc.waiting = some r →
    (callSt s.log = .asked r ∧ (s.done = false → s.reached = false ∧
      (s.spc.answering = true → r ≤ S.wtell s.st))) ∨
    (∃ w, callSt s.log = .told r w ∧ (s.done = false → s.reached = true ∧
      s.spc.answering = false))
  rCheck : ∀ n r, s.rpc = .rCheck n r → callSt s.log = .byDone r ∨ ∃ w, callSt s.log = .byTold r w
  sCheck : ∀ r, s.rpc = .sCheck r → callSt s.log = .byDone r ∨ ∃ w, callSt s.log = .byTold r w
  rRead : ∀ n, s.rpc = .rRead n false → callSt s.log = .byDone (c.normalize (logPos s.log + n)) ∨
    ∃ w, callSt s.log = .byTold (c.normalize (logPos s.log + n)) w
  sSeek : ∀ p, s.rpc = .sSeek p → callSt s.log = .fresh ∨ callSt s.log = .byDone p ∨
    ∃ w, callSt s.log = .byTold p w

theorem unwaited_waiting {p : RdrPc} (h : p.unwaited = true) : p.waiting = none := by
  cases p <;> simp_all [RdrPc.unwaited, RdrPc.waiting]

theorem Tok.telling {s : Sys S} (h : Tok s) (hs : s.spc.telling = true) :
    ∃ r, s.rpc.waiting = some r := by
  cases hw : s.rpc.waiting with
  | some r => exact ⟨r, rfl⟩
  | none =>
    have hd : s.done = false := by
      cases hd : s.done
      · rfl
      · have := h.ended hd
        revert hs this
        cases s.spc <;> simp [SrcPc.telling, SrcPc.ending]
    have := ((h.free hw).2 hd).2.2
    rw [telling_answering hs] at this
    simp at this

set_option maxHeartbeats 4000000 in
theorem CallInv.step {c : Cfg} {s s' : Sys S} {a : Act} (htok : Tok s)
    (hp : (S.tell s.st).1 = logPos s.log) (h : CallInv c s) (ht : Tr c s a s') : CallInv c s' := by
  obtain ⟨h1, h2, h3, h4, h5, h6, h7⟩ := h
  have htell := htok.telling
  obtain ⟨t1, t2, t3⟩ := htok
  have hread : ∀ n fast, s.rpc = .rRead n fast → callSt s.log = .fresh ∨
      (∃ r, callSt s.log = .byDone r) ∨ ∃ r w, callSt s.log = .byTold r w := by
    intro n fast heq
    cases fast with
    | true => exact Or.inl (h1 (by rw [heq]; rfl))
    | false =>
      rcases h6 n heq with h | ⟨w, h⟩
      · exact Or.inr (Or.inl ⟨_, h⟩)
      · exact Or.inr (Or.inr ⟨_, _, h⟩)
  have hwant : ∀ n r, s.rpc = .rCheck n r → r = c.normalize (logPos s.log + n) := by
    intro n r heq
    exact h2 n r (by rw [heq]; rfl)
  cases ht
  all_goals constructor
  all_goals grind [callSt, logPos, RdrPc.wants, RdrPc.unwaited, RdrPc.waiting, SrcPc.answering,
    SrcPc.telling, SrcPc.ending, Ev.isReturn, telling_answering, unwaited_waiting, storeReq_some, roundPc, startPc]

theorem CallInv.init (c : Cfg) (st : S.σ) : CallInv c (SD.init c st) := by
  constructor <;> simp [SD.init, callSt, RdrPc.wants, RdrPc.waiting]

end SD
