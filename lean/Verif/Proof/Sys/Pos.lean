import Verif.Proof.Positional
import Verif.Proof.Sys.Reads

/-! # The consumer's position, in every history -/

set_option linter.unusedSimpArgs false
set_option linter.unusedVariables false

namespace SD

variable {S : Storage}

theorem supported_positional {cl : Option Nat} {P : Provider} (h : Supported cl P) :
    Nonempty (PositionalProvider P cl) := by
  rcases h with h | h
  · exact keeps_positional h
  · exact windowed_positional h

/-- Reads start where the consumer is, and return at most what was asked for;
seeks return their target. -/
def posRule (e : Ev) (l : List Ev) : Prop :=
  match e with
  | .readRet pos len _ res => pos = logPos l ∧ ∀ bs, res = .ok bs → bs.length ≤ len
  | .seekRet t res => ∀ p, res = .ok p → p = t
  | _ => True

structure PosInv (Q : Positional S) (s : Sys S) : Prop where
  ok : Q.Ok s.st
  rp : Q.rp s.st = logPos s.log
  rule : Always posRule s.log

theorem PosInv.step {Q : Positional S} {c : Cfg} {s s' : Sys S} {a : Act} (h : PosInv Q s)
    (ht : Tr c s a s') : PosInv Q s' := by
  obtain ⟨h1, h2, h3⟩ := h
  obtain ⟨t1, t2, t3, t4⟩ := Q.tell h1
  cases ht
  case rRead n fast bs st' heq hr =>
    obtain ⟨r1, r2, r3⟩ := Q.read h1 hr
    refine ⟨r1, by rw [r2, h2]; rfl, ⟨⟨by rw [t1, h2], ?_⟩, h3⟩⟩
    intro bs' hb
    cases hb
    exact Q.read_le hr
  case rReadErr n fast k heq hr =>
    exact ⟨h1, h2, ⟨⟨by rw [t1, h2], by simp⟩, h3⟩⟩
  case rReadPanic n fast heq hr =>
    exact ⟨h1, h2, ⟨⟨by rw [t1, h2], by simp⟩, h3⟩⟩
  case sSeek p st' heq hr =>
    obtain ⟨r1, r2, r3⟩ := Q.rseek h1 hr
    exact ⟨r1, r2, ⟨by intro q hq; cases hq; rfl, h3⟩⟩
  case sSeekErr p k heq hr => exact ⟨h1, h2, ⟨(by intro q hq; cases hq), h3⟩⟩
  case sSeekPanic p heq hr => exact ⟨h1, h2, ⟨(by intro q hq; cases hq), h3⟩⟩
  case pfWriteMore hw _ =>
    obtain ⟨w1, w2, w3, w4⟩ := Q.write h1 hw
    exact ⟨w1, by rw [w3]; exact h2, ⟨trivial, h3⟩⟩
  case pfWriteEnd hw =>
    obtain ⟨w1, w2, w3, w4⟩ := Q.write h1 hw
    exact ⟨w1, by rw [w3]; exact h2, ⟨trivial, h3⟩⟩
  case wWriteMore hw _ =>
    obtain ⟨w1, w2, w3, w4⟩ := Q.write h1 hw
    exact ⟨w1, by rw [w3]; exact h2, ⟨trivial, h3⟩⟩
  case wWriteEnd hw =>
    obtain ⟨w1, w2, w3, w4⟩ := Q.write h1 hw
    exact ⟨w1, by rw [w3]; exact h2, ⟨trivial, h3⟩⟩
  case seekOk hw =>
    obtain ⟨w1, w2, w3⟩ := Q.wseek h1 hw
    exact ⟨w1, by rw [w2]; exact h2, h3⟩
  all_goals first
    | exact ⟨h1, h2, h3⟩
    | exact ⟨h1, h2, ⟨trivial, h3⟩⟩
    | exact ⟨t2, by rw [t3]; exact h2, h3⟩

theorem PosInv.reach {c : Cfg} {P : Provider} (PP : PositionalProvider P c.contentLength)
    {G : Sys P.S → Act → Prop} {s0 s : Sys P.S} (h0 : Starts P c s0) (h : Reach c G s0 s) :
    PosInv PP.pos s := by
  refine Reach.inv (P := fun s => PosInv PP.pos s) h ?_ (fun _ _ _ h _ ht => h.step ht)
  obtain ⟨-, st, hc, rfl⟩ := h0
  obtain ⟨h1, h2, -⟩ := PP.create hc
  exact ⟨h1, h2, trivial⟩

/-- A log without seeks, whose reads are right: the reads return the stream from
its start. -/
theorem delivered_exact {remote : Nat → Byte} {log : List Ev} (hr : ReadsExact remote log)
    (hp : Always posRule log) (hs : ∀ t r, Ev.seekRet t r ∉ log) :
    logPos log = (delivered log).length ∧
      delivered log = slice remote 0 (delivered log).length := by
  induction log with
  | nil => exact ⟨rfl, rfl⟩
  | cons e l ih =>
    obtain ⟨ih1, ih2⟩ := ih (fun pos len fast bs h => hr pos len fast bs (List.mem_cons_of_mem _ h)) hp.2
      (fun t r h => hs t r (List.mem_cons_of_mem _ h))
    cases e with
    | readRet pos len fast res =>
      cases res with
      | ok bs =>
        have h1 := hp.1.1
        have h2 := hr pos len fast bs (by simp)
        rw [h1, ih1] at h2
        simp only [logPos, delivered, List.length_append]
        refine ⟨by rw [ih1], ?_⟩
        rw [← slice_append]
        congr 1
        simpa using h2
      | err k => exact ⟨ih1, ih2⟩
      | panic => exact ⟨ih1, ih2⟩
    | seekRet t r => exact absurd (by simp) (hs t r)
    | _ => exact ⟨ih1, ih2⟩

/-- Without calls of `seek` there are no results of `seek`. -/
theorem noSeek_reach {c : Cfg} {G : Sys S → Act → Prop} (hG : ∀ s a, G s a → NoSeek s a)
    {st : S.σ} {s : Sys S} (h : Reach c G (init c st) s) :
    s.rpc.target = none ∧ ∀ t r, Ev.seekRet t r ∉ s.log := by
  refine Reach.inv (P := fun s => s.rpc.target = none ∧ ∀ t r, Ev.seekRet t r ∉ s.log) h
    ⟨rfl, by simp [init]⟩ ?_
  rintro s s' a ⟨h1, h2⟩ hg ht
  have hns := hG _ _ hg
  unfold NoSeek at hns
  cases ht <;> simp_all [RdrPc.target]

end SD
