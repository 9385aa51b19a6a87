import Verif.Proof.Sys.Panic
import Verif.Proof.Sys.ReadLog
import Verif.Proof.Sys.Ending

/-! # After completion -/

set_option linter.unusedSimpArgs false
set_option linter.unusedVariables false

namespace SD

variable {S : Storage}

theorem endLog_of_reach {c : Cfg} {G : Sys S → Act → Prop} {st : S.σ} {s : Sys S}
    (h : Reach c G (init c st) s) : EndLog c s :=
  Reach.inv (P := EndLog c) h (EndLog.init c st) (fun _ _ _ h _ ht => h.step ht)

/-- A download that is over and did not fail has everything. -/
theorem covered_of_done {c : Cfg} {G : Sys S → Act → Prop} {st : S.σ} {s : Sys S} (hk : c.KeepsErrors)
    (h : Reach c G (init c st) s) (hd : s.done = true) (hf : s.failed = false)
    (hss : c.supportsSeek = true) {n : Nat} (hn : c.contentLength = some n) :
    RSet.Covers s.dl 0 n := by
  have hC := Cov.reach h
  have hE := endLog_of_reach h
  have he : s.spc.ending = true := by
    cases he : s.spc.ending
    · rw [(hE.before he).2] at hd; simp at hd
    · rfl
  cases hov : s.spc.over
  · cases hp : s.spc <;> simp [hp, SrcPc.ending, SrcPc.over] at he hov
    · exact hC.found (by simp [hp, SrcPc.found]) hss n hn
    · next r o =>
      cases r with
      | none => exact hC.found (by simp [hp, SrcPc.found]) hss n hn
      | some k =>
        have := ((hE.onFin _ _ hp).2 (by simp)).2
        rw [hd] at this; simp at this
  · obtain ⟨r, o, h1, h2, h3, h4, h5, h6⟩ := hE.isOver hov
    cases r with
    | none => exact (hC.log (by rw [(h2 rfl).1]; simp)).2.2 hss n hn
    | some k =>
      exfalso
      by_cases hs : s.spc = .setFail
      · have := (hE.dn2 (Or.inl hs) _ _ h1).1 (by simp)
        rw [hd] at this; simp at this
      · have := (h5 hs).mpr (hk k o)
        rw [hf] at this; simp at this

theorem rpos_step {c : Cfg} {L : Lawful S true} {W : Finset Nat} {s s' : Sys S} {a : Act}
    {N : Nat} (hn : c.contentLength = some N) (hF : Full c L W s) (h : L.rpos s.st ≤ N)
    (ht : Tr c s a s') : L.rpos s'.st ≤ N := by
  obtain ⟨t1, t2, t3, t4, t5, t6⟩ := L.tell_ok hF.src.inv
  have hi := hF.src.inv
  have hcl := hF.rdr.clean
  have htg := hF.rdr.target
  cases ht
  case rRead n fast bs st' heq hr =>
    obtain ⟨r1, r2, r3, r4, r5, r6, r7⟩ :=
      L.read_ok hi (L.clean_fresh hi (hcl (by simp [heq, RdrPc.inRead]))) hr
    simp only [r5]
    by_contra hc
    have hl : N - L.rpos s.st < bs.length := by omega
    have := r2 _ hl
    have h3 := (hF.src.bnd N hn).2.2.2 (L.rpos s.st + (N - L.rpos s.st)) (by
      rw [this, List.getElem?_eq_getElem hl]; simp)
    omega
  case sSeek p st' heq hr =>
    simp only [(L.rseek_ok hi hr).2.2.1]
    exact htg N p hn (by simp [heq, RdrPc.target])
  case pfWriteMore hw _ => simp only [(L.write_ok hi hw).2.2.2.1]; exact h
  case pfWriteEnd hw => simp only [(L.write_ok hi hw).2.2.2.1]; exact h
  case wWriteMore hw _ => simp only [(L.write_ok hi hw).2.2.2.1]; exact h
  case wWriteEnd hw => simp only [(L.write_ok hi hw).2.2.2.1]; exact h
  case seekOk hw => simp only [(L.wseek_ok hi (Or.inl rfl) hw).2.2.1]; exact h
  all_goals first
    | exact h
    | (simp only [t4]; exact h)

theorem rpos_le {P : Provider} {c : Cfg} (LP : LawfulProvider P true c.contentLength)
    (hb : c.batchSize ≠ 0) (hlen : c.LengthHonest) {G : Sys P.S → Act → Prop}
    (hG : ∀ s a, G s a → Honest s a) {s0 s : Sys P.S} (h0 : Starts P c s0) (h : Reach c G s0 s)
    {N : Nat} (hn : c.contentLength = some N) : LP.law.rpos s.st ≤ N := by
  induction h with
  | refl =>
    obtain ⟨-, st, hc, rfl⟩ := h0
    simp only [init, (LP.create_ok hc).2.2.2.1]; omega
  | @step s s' a hs _ hst ih =>
    obtain ⟨W, hF⟩ := Full.reach LP hb hlen hG h0 hs
    exact rpos_step hn hF ih (tr_of_step hst)

theorem Reach.trans {c : Cfg} {G : Sys S → Act → Prop} {s0 s1 s : Sys S} (h1 : Reach c G s0 s1)
    (h : Reach c G s1 s) : Reach c G s0 s := by
  induction h with
  | refl => exact h1
  | step _ hg hs ih => exact ih.step hg hs

/-- The consumer waits, or has waited, in `read`. -/
def RdrPc.slowRead : RdrPc → Option Nat
  | .rSet _ r | .rLoad _ r | .rNotify _ r | .rWait _ r | .rCheck _ r => some r
  | _ => none

/-- The consumer waits, or has waited, in `seek`. -/
def RdrPc.slowSeek : RdrPc → Option Nat
  | .sSet p | .sSend p | .sWait p | .sCheck p => some p
  | _ => none

/-- What events there are after completion. -/
def afterRule (c : Cfg) (N : Nat) (e : Ev) : Prop :=
  match e with
  | .readRet pos len fast _ => pos ≤ N ∧ (pos < N → fast = true)
  | .readErr _ k => k = .other ∨ k = .invalidInput
  | .seekErr _ => True
  | .seekRet t r => t ≤ N ∧ r = .ok t
  | .request r => r = N
  | .progress _ _ .complete | .onFinish _ _ | .released _ => True
  | _ => False

structure After (c : Cfg) (L : Lawful S true) (N : Nat) (l0 : List Ev) (s : Sys S) : Prop where
  ending : s.spc.ending = true
  cov : RSet.Covers s.dl 0 N
  log : ∃ l1, s.log = l1 ++ l0 ∧ ∀ e ∈ l1, afterRule c N e
  slow : ∀ r, s.rpc.slowRead = some r → r = N ∧ N ≤ L.rpos s.st
  read : ∀ n, s.rpc = .rRead n false → N ≤ L.rpos s.st
  seek : ∀ p, s.rpc.slowSeek = some p → p = N

set_option maxHeartbeats 4000000 in
theorem After.step {c : Cfg} {L : Lawful S true} (hTot : SeekTotal L) {N : Nat} {l0 : List Ev}
    {W : Finset Nat} {s s' : Sys S} {a : Act} (hn : c.contentLength = some N) (hF : Full c L W s)
    (hp : L.rpos s.st ≤ N) (h : After c L N l0 s) (ht : Tr c s a s') : After c L N l0 s' := by
  obtain ⟨h1, h2, h3, h4, h5, h6⟩ := h
  obtain ⟨t1, t2, t3, t4, t5, t6⟩ := L.tell_ok hF.src.inv
  have htg : ∀ p, s.rpc.target = some p → p ≤ N := fun p => hF.rdr.target N p hn
  have hnm : ∀ x, c.normalize x = min x N := fun x => by simp [Cfg.normalize, hn]
  have hget : ∀ p, p < N → ∃ a b, RSet.get s.dl p = some (a, b) ∧ N ≤ b := by
    intro p hp
    cases hg : RSet.get s.dl p with
    | none => exact absurd (h2 p (by omega) hp) (RSet.get_none_iff.mp hg)
    | some r =>
      refine ⟨r.1, r.2, rfl, ?_⟩
      by_contra hc
      exact RSet.get_some_end_not_mem hF.src.wf hg (h2 r.2 (by omega) (by omega))
  have hrs : ∀ p k, S.rseek s.st p ≠ .err k ∧ S.rseek s.st p ≠ .panic := by
    intro p k
    obtain ⟨st', h⟩ := hTot.rseek_total (p := p) hF.src.inv
    rw [h]; simp
  have hrp2 : ∀ p, S.rseek s.st p ≠ .panic := fun p => (hrs p .other).2
  have hmiss : ∀ p, s.rpc = .sDecide p → RSet.get s.dl p = none → p = N := by
    intro p h1 h2
    have h3 := htg p (by simp [h1, RdrPc.target])
    by_contra h4
    obtain ⟨a, b, h5, -⟩ := hget p (by omega)
    rw [h5] at h2; simp at h2
  have hrp : ∀ p st', S.rseek s.st p = .ok st' → L.rpos st' = p :=
    fun p st' h => (L.rseek_ok hF.src.inv h).2.2.1
  have hcons : ∀ e, afterRule c N e → ∃ l1, e :: s.log = l1 ++ l0 ∧ ∀ e ∈ l1, afterRule c N e := by
    intro e he
    obtain ⟨l1, hl, hr⟩ := h3
    refine ⟨e :: l1, by rw [hl]; rfl, ?_⟩
    intro e' he'
    rcases List.mem_cons.mp he' with rfl | he'
    · exact he
    · exact hr e' he'
  have hrd : ∀ n fast res, s.rpc = .rRead n fast → afterRule c N (.readRet (S.tell s.st).1 n fast res) := by
    intro n fast res hr
    refine ⟨by omega, fun hlt => ?_⟩
    cases fast
    · exact absurd (h5 n hr) (by omega)
    · rfl
  clear hF
  cases ht
  all_goals constructor
  all_goals grind [SrcPc.ending, RdrPc.slowRead, RdrPc.slowSeek, RdrPc.target, afterRule]

theorem After.reach {P : Provider} {c : Cfg} (LP : LawfulProvider P true c.contentLength)
    (hTot : SeekTotal LP.law) (hb : c.batchSize ≠ 0) (hlen : c.LengthHonest) {G : Sys P.S → Act → Prop}
    (hG : ∀ s a, G s a → Honest s a) {s0 s1 s : Sys P.S} (h0 : Starts P c s0) (h1 : Reach c G s0 s1)
    {N : Nat} (hn : c.contentLength = some N) (ha : After c LP.law N s1.log s1) (h : Reach c G s1 s) :
    After c LP.law N s1.log s := by
  induction h with
  | refl => exact ha
  | @step s s' a hs _ hst ih =>
    obtain ⟨W, hF⟩ := Full.reach LP hb hlen hG h0 (h1.trans hs)
    exact ih.step hTot hn hF (rpos_le LP hb hlen hG h0 (h1.trans hs) hn) (tr_of_step hst)

end SD
