import Verif.Proof.Sys.CallState
import Verif.Proof.Sys.CallEvents
import Verif.Proof.Sys.ReadLog

/-! # The waiting protocol in the log of reachable states -/

set_option linter.unusedSimpArgs false
set_option linter.unusedVariables false

namespace SD

variable {S : Storage}

theorem Tok.reach {c : Cfg} {G : Sys S → Act → Prop} {st : S.σ} {s : Sys S}
    (h : Reach c G (SD.init c st) s) : Tok s :=
  Reach.inv (P := Tok) h (Tok.init c st) (fun _ _ _ h _ ht => h.step ht)

/-- What was waited for before a result was returned. -/
def waitRule (c : Cfg) (e : Ev) (l : List Ev) : Prop :=
  match e with
  | .readRet _ len false _ => callSt l = .byDone (c.normalize (logPos l + len)) ∨
      ∃ w, callSt l = .byTold (c.normalize (logPos l + len)) w
  | .readRet _ _ true _ => callSt l = .fresh
  | .seekRet t _ => callSt l = .fresh ∨ callSt l = .byDone t ∨ ∃ w, callSt l = .byTold t w
  | _ => True

theorem tr_seekRet {c : Cfg} {s s' : Sys S} {a : Act} {t : Nat} {res : Res Nat} (ht : Tr c s a s')
    (hl : s'.log = .seekRet t res :: s.log) : s.rpc = .sSeek t := by
  cases ht
  case sSeek p st' heq hr => simp at hl; rw [heq, hl.1]
  case sSeekErr p k heq hr => simp at hl; rw [heq, hl.1]
  case sSeekPanic p heq hr => simp at hl; rw [heq, hl.1]
  all_goals (exfalso; simp_all)

theorem call_log {P : Provider} {c : Cfg} (hP : Supported c.contentLength P)
    {G : Sys P.S → Act → Prop} {s0 s : Sys P.S} (h0 : Starts P c s0) (h : Reach c G s0 s) :
    CallInv c s ∧ Always (waitRule c) s.log := by
  obtain ⟨PP⟩ := supported_positional hP
  have h0' := h0
  obtain ⟨-, st, hst, rfl⟩ := h0'
  have key : Tok s ∧ PosInv PP.pos s ∧ CallInv c s ∧ Always (waitRule c) s.log := by
    refine Reach.inv (P := fun s => Tok s ∧ PosInv PP.pos s ∧ CallInv c s ∧
      Always (waitRule c) s.log) h ?_ ?_
    · exact ⟨Tok.init _ _, PosInv.reach PP h0 (G := G) .refl, CallInv.init _ _, trivial⟩
    · rintro s s' a ⟨h1, h2, h3, h4⟩ - ht
      have htell : (P.S.tell s.st).1 = logPos s.log := by
        rw [← h2.rp]; exact (PP.pos.tell h2.ok).1
      refine ⟨h1.step ht, h2.step ht, h3.step h1 htell ht, always_step ht h4 ?_⟩
      intro e he
      cases e <;> try trivial
      case readRet pos len fast res =>
        obtain ⟨h5, -⟩ := tr_readRet_any ht he
        cases fast with
        | true => exact h3.unwaited (by rw [h5]; rfl)
        | false => exact h3.rRead len h5
      case seekRet t res => exact h3.sSeek t (tr_seekRet ht he)
  exact key.2.2

/-- Only the end of the download releases a call as such. -/
theorem released_done {c : Cfg} {G : Sys S → Act → Prop} {st : S.σ} {s : Sys S}
    (h : Reach c G (init c st) s) (hr : Ev.released true ∈ s.log) : s.done = true := by
  revert hr
  refine Reach.inv (P := fun s => Ev.released true ∈ s.log → s.done = true) h (by simp [init]) ?_
  intro s s' a ih _ ht
  cases ht <;> simp_all

end SD
