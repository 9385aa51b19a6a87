import Verif.Spec.Live
import Verif.Proof.Sys.Pos
import Verif.Proof.Sys.Task
import Verif.Proof.Sys.Token
import Verif.Proof.Sys.Wake

/-!
# Calls return

The proof is by contradiction: a call that never returns sleeps for ever, and then
the task, which is never stuck, writes the bytes that arrive; each of them decreases a
measure.
-/

set_option linter.unusedSimpArgs false
set_option linter.unusedVariables false

namespace SD

variable {S : Storage}

section exec

variable {c : Cfg} {s0 : Sys S} {r : Nat → Sys S} {act : Nat → Option Act}

theorem Exec.reach (h : Exec c s0 r act) (i : Nat) : Reach c Any s0 (r i) := by
  induction i with
  | zero => rw [h.start]; exact .refl
  | succ i ih =>
    cases ha : act i with
    | none => rw [h.pause i ha]; exact ih
    | some a => exact .step ih trivial (h.next i a ha)

/-- Weak fairness as a rule: something that stays true until `a` is taken, and makes `a`
possible. -/
theorem Fair.next {a : Act} (hf : Fair c r act a) {Q : Nat → Prop} {i : Nat} (hi : Q i)
    (hkeep : ∀ j, i ≤ j → Q j → act j ≠ some a → Q (j + 1))
    (hen : ∀ j, i ≤ j → Q j → step c (r j) a ≠ none) : ∃ j, i ≤ j ∧ Q j ∧ act j = some a := by
  by_cases hex : ∃ j, i ≤ j ∧ Q j ∧ act j = some a
  · exact hex
  exfalso
  have hall : ∀ d, Q (i + d) := by
    intro d
    induction d with
    | zero => exact hi
    | succ d ih =>
      refine hkeep (i + d) (Nat.le_add_right _ _) ih fun ha => hex ⟨i + d, Nat.le_add_right _ _, ih, ha⟩
  have hall' : ∀ j, i ≤ j → Q j := fun j hj => by
    have := hall (j - i)
    rwa [Nat.add_sub_cancel' hj] at this
  obtain ⟨j, hj, ha⟩ := hf i fun j hj => hen j hj (hall' j hj)
  exact hex ⟨j, hj, hall' j hj, ha⟩

end exec

/-! ### The consumer -/

/-- How far a call is from its end. -/
def RdrPc.rank : RdrPc → Nat
  | .rDecide _ => 9
  | .rSet _ _ => 8
  | .rLoad _ _ => 7
  | .rNotify _ _ => 6
  | .rWait _ _ => 5
  | .rCheck _ _ => 4
  | .rRead _ _ => 3
  | .rSwap => 2
  | .rWake => 1
  | .sDecide _ => 6
  | .sSet _ => 5
  | .sSend _ => 4
  | .sWait _ => 3
  | .sCheck _ => 2
  | .sSeek _ => 1
  | _ => 0

theorem rdr_rank {c : Cfg} {s s' : Sys S} (ht : Tr c s .rdr s') : s'.rpc.rank < s.rpc.rank := by
  cases ht <;> simp_all [RdrPc.rank]

theorem rdr_read {c : Cfg} {s s' : Sys S} (ht : Tr c s .rdr s') (h : s.rpc.inReadCall = true) :
    s'.rpc.inReadCall = true ∨ s'.rpc = .idle ∨ s'.rpc = .panicked := by
  cases ht <;> simp_all [RdrPc.inReadCall]

theorem rdr_call {c : Cfg} {s s' : Sys S} (ht : Tr c s .rdr s') (h : s.rpc.inCall = true) :
    s'.rpc.inCall = true ∨ s'.rpc = .idle ∨ s'.rpc = .panicked := by
  cases ht <;> simp_all [RdrPc.inCall, RdrPc.inReadCall]

/-- In a call, only the consumer's own steps move it. -/
theorem rpc_frame {c : Cfg} {s s' : Sys S} {a : Act} (ht : Tr c s a s') (h : s.rpc.inCall = true)
    (ha : a ≠ .rdr) : s'.rpc = s.rpc := by
  cases ht <;> simp_all [RdrPc.inCall, RdrPc.inReadCall]

/-- A call that does not sleep can go on. -/
theorem rdr_enabled {c : Cfg} {s : Sys S} (h : s.rpc.inCall = true)
    (hs : s.rpc.asleep = none ∨ s.done = true ∨ s.reached = true) : step c s .rdr ≠ none := by
  unfold step rdrStep
  cases hp : s.rpc <;> simp_all [RdrPc.inCall, RdrPc.inReadCall, RdrPc.asleep]
  all_goals (repeat' split) <;> simp_all

/-- Once the call may go on, only it can change that. -/
theorem wake_frame {c : Cfg} {s s' : Sys S} {a : Act} (ht : Tr c s a s') (ha : a ≠ .rdr)
    (hs : s.done = true ∨ s.reached = true) : s'.done = true ∨ s'.reached = true := by
  cases ht <;> simp_all

section exec

variable {c : Cfg} {s0 : Sys S} {r : Nat → Sys S} {act : Nat → Option Act}

/-- A call ends, or sleeps for ever. -/
theorem ends_or_sleeps (he : Exec c s0 r act) (hf : Fair c r act .rdr) :
    ∀ n i, (r i).rpc.rank ≤ n → (r i).rpc.inCall = true →
      (∃ j, i ≤ j ∧ ((r j).rpc = .idle ∨ (r j).rpc = .panicked)) ∨
      ∃ i' p w, i ≤ i' ∧ p.asleep = some w ∧ ((r i).rpc.inReadCall = true → p.inReadCall = true) ∧
        ∀ j, i' ≤ j → (r j).rpc = p ∧ (r j).done = false ∧ (r j).reached = false := by
  intro n
  induction n with
  | zero =>
    intro i hn hc
    exfalso
    revert hn hc
    cases (r i).rpc <;> simp [RdrPc.rank, RdrPc.inCall, RdrPc.inReadCall]
  | succ n ih =>
    intro i hn hc
    -- a step of the consumer at `j`, with the program counter still the same
    have hgo : ∀ j, i ≤ j → (r j).rpc = (r i).rpc → act j = some .rdr →
        (∃ j, i ≤ j ∧ ((r j).rpc = .idle ∨ (r j).rpc = .panicked)) ∨
        ∃ i' p w, i ≤ i' ∧ p.asleep = some w ∧ ((r i).rpc.inReadCall = true → p.inReadCall = true) ∧
          ∀ j, i' ≤ j → (r j).rpc = p ∧ (r j).done = false ∧ (r j).reached = false := by
      intro j hj hp ha
      have ht := tr_of_step (he.next j _ ha)
      have hc' : (r j).rpc.inCall = true := by rw [hp]; exact hc
      rcases rdr_call ht hc' with h1 | h1
      · have hr := rdr_rank ht
        rw [hp] at hr
        rcases ih (j + 1) (by omega) h1 with ⟨k, hk, h2⟩ | ⟨i', p, w, hi', h2, h3, h4⟩
        · exact Or.inl ⟨k, by omega, h2⟩
        · by_cases hrd : (r i).rpc.inReadCall = true
          · rcases rdr_read ht (by rw [hp]; exact hrd) with h5 | h5
            · exact Or.inr ⟨i', p, w, by omega, h2, fun _ => h3 h5, h4⟩
            · exact Or.inl ⟨j + 1, by omega, h5⟩
          · exact Or.inr ⟨i', p, w, by omega, h2, fun h => absurd h hrd, h4⟩
      · exact Or.inl ⟨j + 1, by omega, h1⟩
    have hsame : ∀ j, (r j).rpc = (r i).rpc → act j ≠ some .rdr → (r (j + 1)).rpc = (r i).rpc := by
      intro j hp ha
      cases hact : act j with
      | none => rw [he.pause j hact]; exact hp
      | some a =>
        rw [rpc_frame (tr_of_step (he.next j a hact)) (by rw [hp]; exact hc) (fun e => ha (by rw [hact, e]))]
        exact hp
    by_cases hsl : (r i).rpc.asleep = none
    · obtain ⟨j, hj, hp, ha⟩ := hf.next (Q := fun j => (r j).rpc = (r i).rpc) rfl
        (fun j _ hp ha => hsame j hp ha)
        (fun j _ hp => rdr_enabled (by rw [hp]; exact hc) (Or.inl (by rw [hp]; exact hsl)))
      exact hgo j hj hp ha
    · by_cases hw : ∃ j, i ≤ j ∧ (r j).rpc = (r i).rpc ∧ ((r j).done = true ∨ (r j).reached = true)
      · obtain ⟨j, hj, hp, hd⟩ := hw
        obtain ⟨k, hk, ⟨hp', -⟩, ha⟩ := hf.next (i := j)
          (Q := fun j => (r j).rpc = (r i).rpc ∧ ((r j).done = true ∨ (r j).reached = true)) ⟨hp, hd⟩
          (fun j _ hp ha => by
            refine ⟨hsame j hp.1 ha, ?_⟩
            cases hact : act j with
            | none => rw [he.pause j hact]; exact hp.2
            | some a => exact wake_frame (tr_of_step (he.next j a hact)) (fun e => ha (by rw [hact, e])) hp.2)
          (fun j _ hp => rdr_enabled (by rw [hp.1]; exact hc) (Or.inr hp.2))
        exact hgo k (by omega) hp' ha
      · right
        have hno : ∀ j, i ≤ j → (r j).rpc = (r i).rpc → (r j).done = false ∧ (r j).reached = false := by
          intro j hj hp
          cases h1 : (r j).done
          · cases h2 : (r j).reached
            · exact ⟨rfl, rfl⟩
            · exact absurd ⟨j, hj, hp, Or.inr h2⟩ hw
          · exact absurd ⟨j, hj, hp, Or.inl h1⟩ hw
        by_cases hact : ∃ j, i ≤ j ∧ (r j).rpc = (r i).rpc ∧ act j = some .rdr
        · obtain ⟨j, hj, hp, ha⟩ := hact
          obtain ⟨h1, h2⟩ := hno j hj hp
          have := he.next j _ ha
          exfalso
          rw [← hp] at hsl
          revert hsl this
          unfold step rdrStep
          cases (r j).rpc <;> simp [RdrPc.asleep, h1, h2]
        · have hall : ∀ d, (r (i + d)).rpc = (r i).rpc := by
            intro d
            induction d with
            | zero => rfl
            | succ d ihd =>
              exact hsame (i + d) ihd fun ha => hact ⟨i + d, Nat.le_add_right _ _, ihd, ha⟩
          have hall' : ∀ j, i ≤ j → (r j).rpc = (r i).rpc := fun j hj => by
            have := hall (j - i)
            rwa [Nat.add_sub_cancel' hj] at this
          obtain ⟨w, hw'⟩ := Option.ne_none_iff_exists'.mp hsl
          exact ⟨i, _, w, Nat.le_refl _, hw', id, fun j hj => ⟨hall' j hj, hno j hj (hall' j hj)⟩⟩

end exec

/-! ### The task -/

theorem ok_step {Q : Positional S} {c : Cfg} {s s' : Sys S} {a : Act} (h : Q.Ok s.st) (ht : Tr c s a s') :
    Q.Ok s'.st := by
  cases ht
  case rRead hr => exact (Q.read h hr).1
  case sSeek hr => exact (Q.rseek h hr).1
  case pfWriteMore hw _ => exact (Q.write h hw).1
  case pfWriteEnd hw => exact (Q.write h hw).1
  case wWriteMore hw _ => exact (Q.write h hw).1
  case wWriteEnd hw => exact (Q.write h hw).1
  case seekOk hw => exact (Q.wseek h hw).1
  all_goals first | exact h | exact (Q.tell h).2.1

/-- Where the current `Source::write` started. -/
def SrcPc.base : SrcPc → Option Nat
  | .wReq p _ _ | .wWrite p _ _ _ | .wAdd p _ _ _ | .wChk p _ _ _ | .wClr p _ _ _ | .wNtf p _ _ _
  | .wWait p _ _ => some p
  | _ => none

/-- The current `write_batched` has written something. -/
def SrcPc.wrote : SrcPc → Bool
  | .wWrite _ _ _ bw | .wAdd _ _ _ bw | .wChk _ _ _ bw | .wClr _ _ _ bw | .wNtf _ _ _ bw => bw != 0
  | _ => false

/-- What was written is entered into the downloaded ranges. -/
def SrcPc.noted : SrcPc → Bool
  | .wChk _ _ _ _ | .wClr _ _ _ _ | .wNtf _ _ _ _ => true
  | _ => false

/-- The prefetch code handles a chunk. -/
def SrcPc.pfTodo : SrcPc → Option (List Byte)
  | .pfWrite _ t | .pfPost _ t => some t
  | _ => none

/-- The task knows that the download is over. -/
def SrcPc.late : SrcPc → Bool
  | .report | .tokCancel | .ended => true
  | _ => false

structure Track (s : Sys S) : Prop where
  late : s.spc.late = true → s.done = true
  fin : s.spc = .fin → s.pfDone = true
  pf : ∀ t, s.spc.pfTodo = some t → s.pfDone = false
  round : ∀ p, s.spc.base = some p → p ≤ S.wtell s.st ∧ s.pfDone = true
  wrote : ∀ p, s.spc.base = some p → s.spc.wrote = true → p < S.wtell s.st
  noted : ∀ p, s.spc.base = some p → s.spc.wrote = true → s.spc.noted = true → RSet.Mem s.dl p
  req : ∀ r, s.rpc.waiting = some r → r ≠ two64 - 1 → s.done = false → s.reached = false →
    s.spc.telling = false → s.req = some r

set_option maxHeartbeats 4000000 in
theorem Track.step {Q : Positional S} {c : Cfg} {s s' : Sys S} {a : Act} (hok : Q.Ok s.st)
    (hwf : RSet.WF s.dl) (h : Track s) (ht : Tr c s a s') : Track s' := by
  obtain ⟨h1, h2, h3, h4, h5, h6, h7⟩ := h
  have t4 := (Q.tell hok).2.2.2
  have hw : ∀ bs k st', S.write s.st bs = .ok (k, st') → S.wtell st' = S.wtell s.st + k :=
    fun bs k st' h => (Q.write hok h).2.2.2
  have hr : ∀ n bs st', S.read s.st n = .ok (bs, st') → S.wtell st' = S.wtell s.st :=
    fun n bs st' h => (Q.read hok h).2.2
  have hs : ∀ p st', S.rseek s.st p = .ok st' → S.wtell st' = S.wtell s.st :=
    fun p st' h => (Q.rseek hok h).2.2
  have hm : ∀ lo hi p, RSet.Mem (RSet.add s.dl lo hi) p ↔ RSet.Mem s.dl p ∨ (lo ≤ p ∧ p < hi) :=
    fun lo hi p => RSet.mem_add hwf lo hi p
  cases ht
  all_goals constructor
  all_goals grind [SrcPc.late, SrcPc.pfTodo, SrcPc.base, SrcPc.wrote, SrcPc.noted, RdrPc.waiting,
    SrcPc.telling, storeReq_of, roundPc, startPc]

theorem Track.reach {c : Cfg} {P : Provider} (PP : PositionalProvider P c.contentLength)
    {G : Sys P.S → Act → Prop} {s0 s : Sys P.S} (h0 : Starts P c s0) (h : Reach c G s0 s) :
    (PP.pos.Ok s.st ∧ RSet.WF s.dl) ∧ Track s := by
  refine Reach.inv (P := fun s : Sys P.S => (PP.pos.Ok s.st ∧ RSet.WF s.dl) ∧ Track s) h ?_ ?_
  · refine ⟨⟨(PosInv.reach PP h0 (G := G) .refl).ok, ?_⟩, ?_⟩
    · obtain ⟨-, st, hc, rfl⟩ := h0
      exact trivial
    · obtain ⟨-, st, hc, rfl⟩ := h0
      constructor <;> simp [SD.init, SrcPc.late, SrcPc.pfTodo, SrcPc.base, RdrPc.waiting]
  · rintro s s' a ⟨⟨h1, h2⟩, h3⟩ - ht
    exact ⟨⟨ok_step h1 ht, wf_step h2 ht⟩, h3.step h1 h2 ht⟩

end SD
