import Verif.Spec.Abort
import Verif.Proof.Sys.Trans

/-! # What a shutdown of the runtime can change -/

namespace SD

variable {S : Storage}

/-- The task somewhere else. -/
def Sys.sp (s : Sys S) (p : SrcPc) : Sys S := { s with spc := p }

theorem sp_rdrStep (c : Cfg) (s : Sys S) (p : SrcPc) : rdrStep c (s.sp p) = (rdrStep c s).map (·.sp p) := by
  cases h : s.rpc <;> simp only [rdrStep, h, show (s.sp p).rpc = s.rpc from rfl, Option.map_some, Option.map_none]
  case rDecide n =>
    by_cases e1 : two64 ≤ (S.tell s.st).1 + n
    · simp [Sys.sp, e1]
    · cases e2 : RSet.get s.dl (S.tell s.st).1 with
      | none => simp [Sys.sp, e1, e2]
      | some r => by_cases e3 : c.normalize ((S.tell s.st).1 + n) ≤ r.2 <;> simp [Sys.sp, e1, e2, e3]
  case rWait =>
    cases e1 : s.done <;> cases e2 : s.reached <;> simp [Sys.sp, e1, e2]
  case sWait =>
    cases e1 : s.done <;> cases e2 : s.reached <;> simp [Sys.sp, e1, e2]
  case rCheck =>
    cases e1 : s.failed <;> simp [Sys.sp, e1]
  case sCheck =>
    cases e1 : s.failed <;> simp [Sys.sp, e1]
  case rRead n f =>
    cases e1 : S.read s.st n <;> simp [Sys.sp, e1]
  case sDecide n =>
    cases e1 : RSet.get s.dl n <;> simp [Sys.sp, e1]
  case sSeek n =>
    cases e1 : S.rseek s.st n <;> simp [Sys.sp, e1]
  all_goals rfl

theorem sp_user {c : Cfg} {s : Sys S} {a : Act} (ha : a.ofUser = true) (p : SrcPc) :
    step c (s.sp p) a = (step c s a).map (·.sp p) := by
  cases a <;> simp only [Act.ofUser] at ha <;> try cases ha
  case rdr => exact sp_rdrStep c s p
  case read n =>
    simp only [step, show (s.sp p).rpc = s.rpc from rfl]
    split
    · cases e1 : s.failed <;> cases e2 : c.excessiveRead n <;> simp [callRead, Sys.sp, e1, e2]
    · rfl
  case seek f =>
    simp only [step, show (s.sp p).rpc = s.rpc from rfl]
    split
    · cases e1 : s.failed
      · cases e2 : c.absolute (S.tell s.st).1 f with
        | ok q => cases e3 : c.excessiveSeek (S.tell s.st).1 (c.normalize q) <;> simp [callSeek, Sys.sp, e1, e2, e3]
        | err k => simp [callSeek, Sys.sp, e1, e2]
        | panic => simp [callSeek, Sys.sp, e1, e2]
      · simp [callSeek, Sys.sp, e1]
    · rfl
  case cancel => rfl
  case drop =>
    simp only [step, show (s.sp p).rpc = s.rpc from rfl]
    split <;> rfl

/-- A task that is gone does nothing. -/
theorem gone_user {c : Cfg} {s s' : Sys S} {a : Act} (hs : s.spc = .panicked) (h : step c s a = some s') :
    a.ofUser = true := by
  cases a <;> first | rfl | (exfalso; simp [step, srcStep, hs] at h)

theorem breach_sim {c : Cfg} {G : Sys S → Act → Prop} (hG : Independent G) {s0 s : Sys S} (h : BReach c G s0 s) :
    Reach c G s0 s ∨ (s.spc = .panicked ∧ ∃ p, Reach c G s0 (s.sp p)) := by
  induction h with
  | refl => exact .inl .refl
  | act _ hg hs ih =>
    rcases ih with ih | ⟨e, p, ih⟩
    · exact .inl (ih.step hg hs)
    · have hu := gone_user e hs
      refine .inr ⟨?_, p, ih.step (hG _ _ p hu hg) ((sp_user hu p).trans (congrArg _ hs))⟩
      rename_i s1 s2 a _
      have h2 := sp_user (c := c) (s := s1) hu .panicked
      have h3 : s1.sp .panicked = s1 := by rw [← e]; rfl
      rw [h3, show step c s1 a = some s2 from hs] at h2
      simp only [Option.map_some, Option.some.injEq] at h2
      rw [h2]; rfl
  | shutdown _ hs ih =>
    simp only [bstep] at hs
    split at hs
    · next hsus =>
      simp only [Option.some.injEq] at hs
      subst hs
      rcases ih with ih | ⟨e, p, ih⟩
      · exact .inr ⟨rfl, _, ih⟩
      · rw [e] at hsus; cases hsus
    · cases hs

end SD
