import Verif.Spec.Stored
import Verif.Proof.Sys.LiveTask

/-!
# The downloaded ranges are what the storage accepted

In every history: up to what is being written at the moment.
-/

set_option linter.unusedSimpArgs false
set_option linter.unusedVariables false

namespace SD

variable {S : Storage}

theorem storedIn_cons {e : Ev} {l : List Ev} {q : Nat} : StoredIn (e :: l) q ↔ e.stores q ∨ StoredIn l q := by
  simp [StoredIn]

/-- The source was asked for a range and has not answered. -/
def SrcPc.target : SrcPc → Option Nat
  | .seeking p _ => some p
  | _ => none

structure StInv (c : Cfg) (s : Sys S) : Prop where
  sound : ∀ q, c.within q → RSet.Mem s.dl q → StoredIn s.log q
  pf : s.spc.gone = false → s.pfDone = false → ∀ q, c.within q → s.pfStart ≤ q → q < S.wtell s.st → s.spc.target = none →
    StoredIn s.log q
  pfSeek : s.pfDone = false → ∀ q p, c.within q → s.pfStart ≤ q → s.spc.target = some p → q < p →
    StoredIn s.log q
  round : ∀ p q, s.spc.base = some p → c.within q → p ≤ q → q < S.wtell s.st → StoredIn s.log q
  noted : ∀ p q, s.spc.base = some p → s.spc.noted = true → p ≤ q → q < S.wtell s.st → RSet.Mem s.dl q
  free : s.spc.gone = false → s.pfDone = false → ∀ q, c.within q → S.wtell s.st ≤ q → q < s.pfStart → s.spc.target = none →
    RSet.Mem s.dl q
  freeSeek : s.pfDone = false → ∀ p, s.spc.target = some p → s.pfStart ≤ p
  complete : s.spc.gone = false → ∀ q, c.within q → StoredIn s.log q → RSet.Mem s.dl q ∨
    (s.pfDone = false ∧ s.spc.target = none ∧ s.pfStart ≤ q ∧ q < S.wtell s.st) ∨
    (∃ p, s.spc.base = some p ∧ p ≤ q ∧ q < S.wtell s.st)

set_option maxHeartbeats 8000000 in
theorem StInv.step {Q : Positional S} {c : Cfg} {s s' : Sys S} {a : Act} (hok : Q.Ok s.st)
    (hwf : RSet.WF s.dl) (hT : Track s) (h : StInv c s) (ht : Tr c s a s') : StInv c s' := by
  obtain ⟨h1, h2, h3, h4, h5, h6, h7, h8⟩ := h
  have r1 := hT.fin
  have r2 : s.spc.pfTodo.isSome = true → s.pfDone = false := by
    intro h
    obtain ⟨t, ht⟩ := Option.isSome_iff_exists.1 h
    exact hT.pf t ht
  have r3 := hT.round
  clear hT
  have t4 := (Q.tell hok).2.2.2
  have hw : ∀ bs k st', S.write s.st bs = .ok (k, st') → S.wtell st' = S.wtell s.st + k :=
    fun bs k st' h => (Q.write hok h).2.2.2
  have hr : ∀ n bs st', S.read s.st n = .ok (bs, st') → S.wtell st' = S.wtell s.st :=
    fun n bs st' h => (Q.read hok h).2.2
  have hs : ∀ p st', S.rseek s.st p = .ok st' → S.wtell st' = S.wtell s.st :=
    fun p st' h => (Q.rseek hok h).2.2
  have hws : ∀ p st', S.wseek s.st p = .ok st' → S.wtell st' = p := fun p st' h => (Q.wseek hok h).2.2
  have hm : ∀ lo hi p, RSet.Mem (RSet.add s.dl lo hi) p ↔ RSet.Mem s.dl p ∨ (lo ≤ p ∧ p < hi) :=
    fun lo hi p => RSet.mem_add hwf lo hi p
  have hg : ∀ lo n a b, RSet.nextGap s.dl lo n = some (a, b) → lo ≤ a ∧ ∀ q, lo ≤ q → q < a → RSet.Mem s.dl q :=
    fun lo n a b h => ⟨(RSet.nextGap_some hwf h).1, (RSet.nextGap_some hwf h).2.2.2.1⟩
  have hg0 : ∀ lo n, RSet.nextGap s.dl lo n = none → ∀ q, lo ≤ q → q < n → RSet.Mem s.dl q :=
    fun lo n h => RSet.nextGap_none h
  have hlim : ∀ n q, c.contentLength = some n → c.within q → q < n := fun n q h h' => h' n h
  clear hwf hok
  cases ht
  all_goals constructor
  all_goals try simp only [t4]
  all_goals first | assumption | grind [storedIn_cons, Ev.stores, SrcPc.target, SrcPc.base, SrcPc.noted, SrcPc.gone,
    SrcPc.pfTodo, roundPc, startPc]

theorem StInv.reach {c : Cfg} {P : Provider} (PP : PositionalProvider P c.contentLength)
    {G : Sys P.S → Act → Prop} {s0 s : Sys P.S} (h0 : Starts P c s0) (h : Reach c G s0 s) : StInv c s := by
  suffices hh : ((PP.pos.Ok s.st ∧ RSet.WF s.dl) ∧ Track s) ∧ StInv c s from hh.2
  refine Reach.inv (P := fun s : Sys P.S => ((PP.pos.Ok s.st ∧ RSet.WF s.dl) ∧ Track s) ∧ StInv c s) h ?_ ?_
  · refine ⟨Track.reach PP h0 (G := G) .refl, ?_⟩
    obtain ⟨-, st, hc, rfl⟩ := h0
    constructor <;> simp [SD.init, SrcPc.target, SrcPc.base, StoredIn, RSet.Mem]
    intro _ _ q _
    have := (PP.create hc).2.2
    omega
  · rintro s s' a ⟨⟨⟨h1, h2⟩, h3⟩, h4⟩ - ht
    exact ⟨⟨⟨ok_step h1 ht, wf_step h2 ht⟩, h3.step h1 h2 ht⟩, h4.step h1 h2 h3 ht⟩

end SD
