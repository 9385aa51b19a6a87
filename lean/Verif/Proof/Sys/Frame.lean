import Verif.Proof.Sys.Trans
import Verif.Spec.Storage
import Verif.Proof.RangeSet
import Verif.Proof.Slice

/-! # What the steps of the two sides leave alone -/

set_option linter.unusedSimpArgs false

namespace SD

variable {S : Storage}

/-- The actions of the consumer's side (and cancellation). -/
def Act.isRdr : Act → Bool
  | .rdr | .read _ | .seek _ | .cancel | .drop => true
  | _ => false

/-- The target of the seek that the consumer is executing. -/
def RdrPc.target : RdrPc → Option Nat
  | .sDecide p | .sSet p | .sSend p | .sWait p | .sCheck p | .sSeek p => some p
  | _ => none

/-- Inside `read`, after the position was asked for and before the storage is read. -/
def RdrPc.inRead : RdrPc → Bool
  | .rSet _ _ | .rLoad _ _ | .rNotify _ _ | .rWait _ _ | .rCheck _ _ | .rRead _ _ => true
  | _ => false

/-- Events that only the consumer produces. -/
def Ev.isRdr : Ev → Bool
  | .readRet _ _ _ _ | .readErr _ _ | .seekRet _ _ | .seekErr _ | .request _ | .released _ => true
  | _ => false

/-- What a consumer action leaves alone. -/
structure RdrFrame {full : Bool} (L : Lawful S full) (s s' : Sys S) : Prop where
  dl : s'.dl = s.dl
  failed : s'.failed = s.failed
  done : s'.done = s.done
  pfDone : s'.pfDone = s.pfDone
  pfStart : s'.pfStart = s.pfStart
  rem : s'.rem = s.rem
  tpos : s'.tpos = s.tpos
  tlim : s'.tlim = s.tlim
  tend : s'.tend = s.tend
  spc : s'.spc = s.spc
  wtell : S.wtell s'.st = S.wtell s.st
  cell : ∀ q, L.cell s'.st q = L.cell s.st q
  log : ∃ es, s'.log = es ++ s.log ∧ ∀ e ∈ es, e.isRdr = true

/-- The reader has nothing buffered between asking for the position and reading. -/
def CleanInv {full : Bool} (L : Lawful S full) (s : Sys S) : Prop :=
  s.rpc.inRead = true → L.Clean s.st

theorem rdr_frame {full : Bool} (L : Lawful S full) {c : Cfg} {s s' : Sys S} {a : Act}
    {W : Finset Nat} (ha : a.isRdr = true) (h : Tr c s a s') (hinv : L.Inv s.st W)
    (hc : CleanInv L s) : RdrFrame L s s' ∧ L.Inv s'.st W ∧ CleanInv L s' := by
  obtain ⟨t1, t2, t3, t4, t5, t6⟩ := L.tell_ok hinv
  cases h
  case rRead n fast bs st' heq hr =>
    have hcl := hc (by simp [heq, RdrPc.inRead])
    obtain ⟨r1, r2, r3, r4, r5, r6, r7⟩ := L.read_ok hinv (L.clean_fresh hinv hcl) hr
    exact ⟨⟨rfl, rfl, rfl, rfl, rfl, rfl, rfl, rfl, rfl, rfl, r6, r7,
      ⟨[_], rfl, by simp [Ev.isRdr]⟩⟩, r3, fun hh => by simp [RdrPc.inRead] at hh⟩
  case sSeek p st' heq hr =>
    obtain ⟨r1, r2, r3, r4, r5⟩ := L.rseek_ok hinv hr
    exact ⟨⟨rfl, rfl, rfl, rfl, rfl, rfl, rfl, rfl, rfl, rfl, r4, r5,
      ⟨[_], rfl, by simp [Ev.isRdr]⟩⟩, r1, fun hh => by simp [RdrPc.inRead] at hh⟩
  all_goals first
    | (simp [Act.isRdr] at ha; done)
    | (refine ⟨⟨rfl, rfl, rfl, rfl, rfl, rfl, rfl, rfl, rfl, rfl, ?_, ?_, ?_⟩, ?_, ?_⟩
       · first | rfl | exact t5
       · first | exact fun _ => rfl | exact t6
       · first | exact ⟨[], rfl, by simp⟩ | exact ⟨[_], rfl, by simp [Ev.isRdr]⟩
       · first | exact hinv | exact t2
       · first
           | exact fun _ => t3
           | (intro hh; simp [RdrPc.inRead] at hh; done)
           | (intro hh; exact hc (by simpa using hh))
           | (intro _; exact hc (by simp [*, RdrPc.inRead])))

end SD
