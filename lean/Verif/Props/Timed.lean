import Verif.Proof.Timed
import Verif.Props.Reads
import Verif.Proof.Sys.Finish
import Verif.Props.Stop

/-!
# Property C81: silent sources are reconnected, others are not

With a clock.  A reconnect is attempted only after the source was silent for
`retry_timeout`, whatever the schedule.  A source that yields nothing at all is reconnected in
time, again and again.  As documented, for a source that yields no data, that is false: the
timer is restarted by errors, and there is none while the source is asked for a range.
-/

set_option linter.unusedVariables false

namespace SD

/-! ### Running histories with time -/

section
variable {S : Storage}

/-- `Punctual`, as a test. -/
def punctualB (c : Cfg) (retry : Nat) (w : TimedSys S) : TimedAct → Bool
  | .act _ => true
  | .tick d =>
    d == 0 || ((srcStep c w.sys).isNone &&
      match w.sys.spc with
      | .sel => w.sys.seekQ.isNone && !w.sys.cancelled && decide (w.now + d ≤ w.since + retry)
      | .reconn _ => decide (w.now + d ≤ w.since + retry)
      | _ => true)

theorem punctual_of {c : Cfg} {retry : Nat} {w : TimedSys S} {a : TimedAct} (h : punctualB c retry w a = true) :
    Punctual c retry w a := by
  rintro d rfl hd
  simp only [punctualB, Bool.or_eq_true, beq_iff_eq, Bool.and_eq_true] at h
  rcases h with h | ⟨h1, h2⟩
  · omega
  · refine ⟨⟨by simpa using h1, ?_⟩, ?_⟩
    · intro e; rw [e] at h2
      simp only [Bool.and_eq_true, Option.isNone_iff_eq_none, Bool.not_eq_true'] at h2
      exact h2.1
    · rintro (e | ⟨p, e⟩) <;> rw [e] at h2
      · simp only [Bool.and_eq_true, decide_eq_true_eq] at h2; exact h2.2
      · simpa using h2

def timedRun (c : Cfg) (retry : Nat) (g : TimedSys S → TimedAct → Bool) : TimedSys S → List TimedAct → Option (TimedSys S)
  | w, [] => some w
  | w, a :: as =>
    if g w a then
      match timedStep c retry w a with
      | some w' => timedRun c retry g w' as
      | none => none
    else none

theorem timedReach_trans {c : Cfg} {retry : Nat} {G : TimedSys S → TimedAct → Prop} {w0 w w' : TimedSys S}
    (h : TimedReach c retry G w0 w) (h' : TimedReach c retry G w w') : TimedReach c retry G w0 w' := by
  induction h' with
  | refl => exact h
  | step _ hg hs ih => exact .step ih hg hs

theorem timedReach_run {c : Cfg} {retry : Nat} {g : TimedSys S → TimedAct → Bool} {G : TimedSys S → TimedAct → Prop}
    (hg : ∀ w a, g w a = true → G w a) {as : List TimedAct} {w0 w : TimedSys S}
    (h : timedRun c retry g w0 as = some w) : TimedReach c retry G w0 w := by
  induction as generalizing w0 with
  | nil => simp only [timedRun, Option.some.injEq] at h; subst h; exact .refl
  | cons a as ih =>
    simp only [timedRun] at h
    split at h
    · next h1 =>
      split at h
      · next w' hw => exact timedReach_trans (.step .refl (hg _ _ h1) hw) (ih h)
      · cases h
    · cases h

theorem timedReach_mono {c : Cfg} {retry : Nat} {G G' : TimedSys S → TimedAct → Prop} {w0 w : TimedSys S}
    (hG : ∀ w a, G w a → G' w a) (h : TimedReach c retry G w0 w) : TimedReach c retry G' w0 w := by
  induction h with
  | refl => exact .refl
  | step _ hg hs ih => exact .step ih (hG _ _ hg) hs

/-- The actions of the system as actions of the system with a clock. -/
def timedActs (as : List Act) : List TimedAct := as.map TimedAct.act

end

/-! ### Time takes nothing away and adds nothing -/

/-- C81: what happens with a clock can happen without, and what happens without can happen with
it, if time passes as it must: all the other properties hold with time as well. -/
theorem C81_same_histories {S : Storage} {c : Cfg} {retry : Nat} {st : S.σ} {s : Sys S} :
    Reach c Any (init c st) s ↔
      ∃ w, TimedReach c retry (fun _ _ => True) (timedInit c st) w ∧ w.sys = s := by
  constructor
  · intro h
    induction h with
    | refl => exact ⟨_, .refl, rfl⟩
    | @step s s' a _ _ hs ih =>
      obtain ⟨w, h, rfl⟩ := ih
      have hc : Clock w := Clock.init.reach h
      have h1 : TimedReach c retry (fun _ _ => True) (timedInit c st) { w with now := w.now + retry } :=
        .step (a := .tick retry) h trivial rfl
      have hd : TimedSys.due retry { w with now := w.now + retry } a = true := by
        have := hc.since
        cases a <;> simp [TimedSys.due] <;> omega
      refine ⟨{
          sys := s'
          now := w.now + retry
          since := if a.ofTask then w.now + retry else w.since
          times := (s'.log.take (s'.log.length - w.sys.log.length)).map (w.now + retry, ·) ++ w.times },
        .step (a := .act a) h1 trivial ?_, rfl⟩
      simp only [timedStep, hd, if_true, hs]
  · rintro ⟨w, h, rfl⟩
    exact (timed_sim h).mono fun _ _ _ => trivial

/-- C81: the times of the events are those of a clock that does not go back: the later the
event, the later its time. -/
theorem C81_elapsed_grows {S : Storage} {c : Cfg} {retry : Nat} {st : S.σ} {w : TimedSys S}
    (h : TimedReach c retry (fun _ _ => True) (timedInit c st) w) :
    w.times.map Prod.snd = w.sys.log ∧ w.times.Pairwise (fun x y => y.1 ≤ x.1) := by
  refine ⟨(Clock.init.reach h).log, ?_⟩
  induction h with
  | refl => simp [timedInit]
  | @step w w' a h _ hs ih =>
    cases a with
    | tick d => rw [timedStep_tick hs]; exact ih
    | act a =>
      obtain ⟨-, h1, -, -, h4⟩ := timedStep_act hs
      rcases newly_times (t := w.now) h1 with ⟨e1, -⟩ | ⟨e, e1, -⟩
      · rw [h4, e1]; exact ih
      · rw [h4, e1, List.singleton_append]
        exact List.pairwise_cons.mpr ⟨fun x hx => (Clock.init.reach h).all x hx, ih⟩

/-! ### No reconnect without a reason -/

/-- C81: whatever the schedule, the source is reconnected only if for `retry_timeout` nothing has
arrived from it, and the task has done nothing either: every earlier chunk, error, range
request, reconnect, write or callback is at least that old. -/
theorem C81_no_early_reconnect {P : Provider} {c : Cfg} {retry : Nat} {w0 w : TimedSys P.S}
    (h0 : TimedStarts P c w0) (h : TimedReach c retry (fun _ _ => True) w0 w) : QuietBefore retry w.times := by
  obtain ⟨-, st, -, rfl⟩ := h0
  induction h with
  | refl => trivial
  | step h _ hs ih => exact quiet_step (Clock.init.reach h) (Nat.le_add_left _ _) ih hs

/-- A history with two reconnects, the second after the first was given up. -/
example : ∃ w0 w, TimedStarts memProvider demoCfg w0 ∧ TimedReach demoCfg 5 (fun _ _ => True) w0 w ∧
    w.times.map (fun x => (x.1, x.2.isReconnect)) =
      [(18, false), (17, true), (7, true), (2, false), (2, false), (2, false), (2, false)] := by
  have h : (timedRun demoCfg 5 (punctualB demoCfg 5) (timedInit (S := memStorage) demoCfg demoMem10)
      (.tick 2 :: timedActs (.chunk 4 :: srcs 6) ++ [.tick 5, .act .timeout, .tick 5, .act .reconnTimeout, .tick 5,
        .act .timeout, .tick 1, .act (.reconnOk 4)])).any
      (fun w => w.times.map (fun x => (x.1, x.2.isReconnect)) ==
        [(18, false), (17, true), (7, true), (2, false), (2, false), (2, false), (2, false)]) = true := by
    decide +kernel
  obtain ⟨w, h1, h2⟩ := of_any h
  exact ⟨_, w, ⟨rfl, demoMem10, rfl, rfl⟩, timedReach_mono (fun _ _ _ => trivial)
    (timedReach_run (G := Punctual demoCfg 5) (fun _ _ => punctual_of) h1), by simpa using h2⟩

/-! ### A source that yields nothing is reconnected -/

/-- C81: with punctual timers, a source from which nothing arrives (neither data nor an error nor
its end) is reconnected in time, as long as the consumer does not ask for another position
meanwhile: if the task waits for the next chunk, then after `retry_timeout` a reconnect is
attempted, and as long as the silence lasts the last attempt is never older than twice
`retry_timeout`. -/
theorem C81_silence_reconnects_partial {P : Provider} {c : Cfg} {retry : Nat} {w0 w w' : TimedSys P.S}
    (h0 : TimedStarts P c w0) (h : TimedReach c retry (Punctual c retry) w0 w) (hsel : w.sys.spc = .sel)
    (h' : TimedReach c retry (fun w a => Punctual c retry w a ∧ Silent w a) w w') (hlate : w.now + retry < w'.now) :
    w'.sys.spc.closing = true ∨
      ∃ l t p, w'.times = l ++ w.times ∧ (t, Ev.reconnect p) ∈ l ∧ w.now ≤ t ∧ w'.now ≤ t + 2 * retry := by
  obtain ⟨-, st, -, rfl⟩ := h0
  have hc : Clock w := Clock.init.reach h
  have hi : InTime retry w := inTime_reach (fun _ => Nat.zero_le _) (fun _ _ h => h) h
  have hi' : InTime retry w' := inTime_reach hi (fun _ _ h => h.1) h'
  have hh : Hush retry w w' := by
    clear hlate hi'
    have : InTime retry w' ∧ Hush retry w w' := by
      induction h' with
      | refl => exact ⟨hi, Nat.le_refl _, hc.since, .inl hsel, .inr (.inl ⟨hsel, hc.since⟩), ⟨[], rfl⟩⟩
      | step _ hg hs ih => exact ⟨inTime_step ih.1 hg.1 hs, ih.2.step ih.1 hg.2 hs⟩
    exact this.2
  rcases hh.tried with h1 | ⟨h1, h2⟩ | ⟨l, t, p, h1, h2, h3, h4, h5⟩
  · exact .inl h1
  · have := hi' (.inl h1)
    omega
  · rcases hh.place with hp | hp | hp
    · have := hi' (.inl hp)
      exact .inr ⟨l, t, p, h1, h2, h3, by omega⟩
    · have := hi' (.inr hp)
      have := h4 hp
      exact .inr ⟨l, t, p, h1, h2, h3, by omega⟩
    · exact .inl hp

/-- C81: at any moment at which the task waits for the next chunk or for a reconnect, it has
waited for at most `retry_timeout`. -/
theorem C81_waits_bounded {P : Provider} {c : Cfg} {retry : Nat} {w0 w : TimedSys P.S}
    (h0 : TimedStarts P c w0) (h : TimedReach c retry (Punctual c retry) w0 w)
    (hw : w.sys.spc = .sel ∨ ∃ p, w.sys.spc = .reconn p) : w.now ≤ w.since + retry := by
  obtain ⟨-, st, -, rfl⟩ := h0
  exact inTime_reach (w0 := timedInit c st) (fun _ => Nat.zero_le _) (fun _ _ h => h) h hw

/-- `Silent`, as a test. -/
def silentB {S : Storage} (_ : TimedSys S) : TimedAct → Bool
  | .act (.chunk _) | .act .chunkErr | .act .eof | .act .recvSeek => false
  | _ => true

theorem silent_of {S : Storage} {w : TimedSys S} {a : TimedAct} (h : silentB w a = true) : Silent w a := by
  refine ⟨?_, ?_, ?_, ?_⟩
  · rintro n rfl; cases h
  all_goals (rintro rfl; cases h)

/-- A silent source: after a chunk at 2, reconnects at 7 (given up at 12) and at 17. -/
example : ∃ w0 w w', TimedStarts memProvider demoCfg w0 ∧
    TimedReach demoCfg 5 (Punctual demoCfg 5) w0 w ∧ w.sys.spc = .sel ∧
    TimedReach demoCfg 5 (fun w a => Punctual demoCfg 5 w a ∧ Silent w a) w w' ∧ w.now + 5 < w'.now ∧
    w'.sys.spc.closing = false := by
  have h : (timedRun demoCfg 5 (punctualB demoCfg 5) (timedInit (S := memStorage) demoCfg demoMem10)
      (.tick 2 :: timedActs (.chunk 4 :: srcs 6))).any (fun w => decide (w.sys.spc = .sel) &&
        (timedRun demoCfg 5 (fun w a => punctualB demoCfg 5 w a && silentB w a) w
          [.tick 5, .act .timeout, .tick 5, .act .reconnTimeout, .tick 5, .act .timeout, .tick 1]).any
          (fun w' => decide (w.now + 5 < w'.now) && !w'.sys.spc.closing)) = true := by
    decide +kernel
  obtain ⟨w, h1, h2⟩ := of_any h
  simp only [Bool.and_eq_true, decide_eq_true_eq] at h2
  obtain ⟨w', h3, h4⟩ := of_any h2.2
  simp only [Bool.and_eq_true, decide_eq_true_eq, Bool.not_eq_true'] at h4
  exact ⟨_, w, w', ⟨rfl, demoMem10, rfl, rfl⟩, timedReach_run (fun _ _ => punctual_of) h1, h2.1,
    timedReach_run (fun _ _ h => by
      simp only [Bool.and_eq_true] at h
      exact ⟨punctual_of h.1, silent_of h.2⟩) h3, h4.1, h4.2⟩

/-! ### Time goes on

The upper bounds above are about histories in which time does not pass beyond the moment at which a
timer runs down.  They would say nothing if such histories came to a halt there. -/

/-- A tick of one unit, at a state in which time may pass. -/
theorem tick_one {S : Storage} {c : Cfg} {retry : Nat} {w : TimedSys S} (hi : Idles c w.sys)
    (hw : w.sys.spc = .sel ∨ (∃ p, w.sys.spc = .reconn p) → w.now + 1 ≤ w.since + retry) :
    TimedReach c retry (fun w a => Punctual c retry w a ∧ Silent w a) w { w with now := w.now + 1 } := by
  refine .step (a := .tick 1) .refl ⟨?_, fun n => by simp, by simp, by simp, by simp⟩ rfl
  intro d hd _
  cases hd
  exact ⟨hi, hw⟩

/-- The timer that runs down while the task waits for the next chunk. -/
theorem timer_sel {S : Storage} (c : Cfg) {retry : Nat} {w : TimedSys S} (hd : decide (w.since + retry ≤ w.now) = true)
    (e : w.sys.spc = .sel) : ∃ u, timedStep c retry w (.act .timeout) = some u ∧ u.now = w.now ∧ u.since = w.now ∧
      (∃ p, u.sys.spc = .reconn p) ∧ u.sys.seekQ = w.sys.seekQ ∧ u.sys.cancelled = w.sys.cancelled := by
  simp only [timedStep, TimedSys.due, hd, if_true, step, e, Act.ofTask]
  exact ⟨_, rfl, rfl, rfl, ⟨_, rfl⟩, rfl, rfl⟩

/-- The timer that runs down while it waits for a reconnect. -/
theorem timer_reconn {S : Storage} (c : Cfg) {retry : Nat} {w : TimedSys S} (hd : decide (w.since + retry ≤ w.now) = true)
    {p : Nat} (e : w.sys.spc = .reconn p) : ∃ u, timedStep c retry w (.act .reconnTimeout) = some u ∧ u.now = w.now ∧
      u.since = w.now ∧ u.sys.spc = .sel ∧ u.sys.seekQ = w.sys.seekQ ∧ u.sys.cancelled = w.sys.cancelled := by
  simp only [timedStep, TimedSys.due, hd, if_true, step, e, Act.ofTask]
  exact ⟨_, rfl, rfl, rfl, rfl, rfl, rfl⟩

/-- C81: if the task waits for the next chunk or for a reconnect, then the silence of
`C81_silence_reconnects_partial` can go on for any length of time. -/
theorem C81_silence_goes_on {P : Provider} {c : Cfg} {retry : Nat} (hr : 0 < retry) {w0 w : TimedSys P.S}
    (h0 : TimedStarts P c w0) (h : TimedReach c retry (Punctual c retry) w0 w)
    (hw : w.sys.spc = .sel ∨ ∃ p, w.sys.spc = .reconn p) (hq : w.sys.seekQ = none) (hc : w.sys.cancelled = false)
    (d : Nat) : ∃ w', TimedReach c retry (fun w a => Punctual c retry w a ∧ Silent w a) w w' ∧ w'.now = w.now + d := by
  have hb := C81_waits_bounded h0 h hw
  suffices h : ∃ w', TimedReach c retry (fun w a => Punctual c retry w a ∧ Silent w a) w w' ∧ w'.now = w.now + d ∧
      (w'.sys.spc = .sel ∨ ∃ p, w'.sys.spc = .reconn p) ∧ w'.sys.seekQ = none ∧ w'.sys.cancelled = false ∧
      w'.now ≤ w'.since + retry by
    obtain ⟨w', h1, h2, -⟩ := h
    exact ⟨w', h1, h2⟩
  induction d with
  | zero => exact ⟨w, .refl, rfl, hw, hq, hc, hb⟩
  | succ d ih =>
    obtain ⟨v, h1, h2, h3, h4, h5, h6⟩ := ih
    have idle : ∀ u : TimedSys P.S, (u.sys.spc = .sel ∨ ∃ p, u.sys.spc = .reconn p) → u.sys.seekQ = none →
        u.sys.cancelled = false → Idles c u.sys := by
      intro u hu hq hc
      refine ⟨?_, fun _ => ⟨hq, hc⟩⟩
      rcases hu with e | ⟨p, e⟩ <;> simp [srcStep, e]
    by_cases ht : v.now < v.since + retry
    · exact ⟨{ v with now := v.now + 1 }, timedReach_trans h1 (tick_one (idle v h3 h4 h5) fun _ => ht),
        by show v.now + 1 = _; omega, h3, h4, h5, ht⟩
    · have hd : decide (v.since + retry ≤ v.now) = true := by simp; omega
      obtain ⟨u, hu, hn, hs, hp, hq', hc'⟩ : ∃ u, TimedReach c retry (fun w a => Punctual c retry w a ∧ Silent w a) v u ∧
          u.now = v.now ∧ u.since = v.now ∧ (u.sys.spc = .sel ∨ ∃ p, u.sys.spc = .reconn p) ∧ u.sys.seekQ = none ∧
          u.sys.cancelled = false := by
        rcases h3 with e | ⟨p, e⟩
        · obtain ⟨u, hu, f1, f2, f3, f4, f5⟩ := timer_sel c hd e
          exact ⟨u, .step .refl ⟨fun d hd => by simp at hd, fun n => by simp, by simp, by simp, by simp⟩ hu,
            f1, f2, .inr f3, f4.trans h4, f5.trans h5⟩
        · obtain ⟨u, hu, f1, f2, f3, f4, f5⟩ := timer_reconn c hd e
          exact ⟨u, .step .refl ⟨fun d hd => by simp at hd, fun n => by simp, by simp, by simp, by simp⟩ hu,
            f1, f2, .inl f3, f4.trans h4, f5.trans h5⟩
      have hlt : u.now + 1 ≤ u.since + retry := by omega
      exact ⟨{ u with now := u.now + 1 }, timedReach_trans h1 (timedReach_trans hu (tick_one (idle u hp hq' hc') fun _ => hlt)),
        by show u.now + 1 = _; omega, hp, hq', hc', hlt⟩

example : ∃ w', TimedReach demoCfg 30 (fun w a => Punctual demoCfg 30 w a ∧ Silent w a)
    (timedInit (S := memStorage) demoCfg demoMem10) w' ∧ w'.now = 0 + 1000 :=
  C81_silence_goes_on (P := memProvider) (by omega) ⟨rfl, demoMem10, by decide +kernel, rfl⟩ .refl (.inl rfl) rfl rfl 1000

/-- What a step of the task itself leaves alone. -/
theorem src_keeps {S : Storage} {c : Cfg} {s s' : Sys S} (ht : Tr c s .src s') :
    s'.seekQ = s.seekQ ∧ (s'.cancelled = s.cancelled ∨ s'.spc.closing = true) ∧
      (s.spc.closing = true → s'.spc.closing = true) := by
  cases ht <;> simp_all [SrcPc.closing]

theorem src_permit {S : Storage} {c : Cfg} {s s' : Sys S} (ht : Tr c s .src s') :
    s'.permit = true → s.permit = true := by
  cases ht <;> simp_all

/-- A task that is busy comes to a place where it waits, without time passing. -/
theorem comes_to_rest {P : Provider} {c : Cfg} {retry : Nat} (PP : PositionalProvider P c.contentLength)
    {w0 w : TimedSys P.S} (h0 : TimedStarts P c w0) (h : TimedReach c retry (Punctual c retry) w0 w) :
    ∃ w', TimedReach c retry (Punctual c retry) w w' ∧ w'.now = w.now ∧ srcStep c w'.sys = none ∧
      w'.sys.seekQ = w.sys.seekQ ∧ (w'.sys.cancelled = w.sys.cancelled ∨ w'.sys.spc.closing = true) ∧
      (w.sys.spc.closing = true → w'.sys.spc.closing = true) := by
  generalize hn : w.sys.spc.rank + (if w.sys.permit then 7 else 0) = n
  induction n using Nat.strongRecOn generalizing w with
  | _ n ih =>
    cases hs : srcStep c w.sys with
    | none => exact ⟨w, .refl, rfl, hs, rfl, .inl rfl, id⟩
    | some s' =>
      have hst : step c w.sys .src = some s' := hs
      let v : TimedSys P.S := {
        sys := s'
        now := w.now
        since := w.now
        times := (s'.log.take (s'.log.length - w.sys.log.length)).map (w.now, ·) ++ w.times }
      have hv : timedStep c retry w (.act .src) = some v := by
        simp only [timedStep, TimedSys.due, if_true, hst, Act.ofTask, v]
      have h1 : TimedReach c retry (Punctual c retry) w0 v := .step h (fun d hd => by simp at hd) hv
      have hw1 : TimedReach c retry (Punctual c retry) w v := .step .refl (fun d hd => by simp at hd) hv
      have hk : s'.seekQ = w.sys.seekQ ∧ (s'.cancelled = w.sys.cancelled ∨ s'.spc.closing = true) ∧
          (w.sys.spc.closing = true → s'.spc.closing = true) := src_keeps (tr_of_step hst)
      by_cases haw : s'.spc.awaits = true
      · refine ⟨v, hw1, rfl, ?_, hk⟩
        show srcStep c s' = none
        revert haw
        cases e : s'.spc <;> simp [SrcPc.awaits, srcStep, e]
      · obtain ⟨hcap, st, hst0, rfl⟩ := h0
        have hok := (PosInv.reach PP (s0 := (timedInit c st).sys) ⟨hcap, st, hst0, rfl⟩ (timed_sim h)).ok
        have ht := tr_of_step hst
        have hlt : s'.spc.rank + (if s'.permit then 7 else 0) < n := by
          by_cases hw : ∃ p l t, w.sys.spc = .wWait p l t
          · obtain ⟨p, l, t, e⟩ := hw
            rw [e] at hn
            simp only [srcStep, e] at hs
            split at hs
            · next hp =>
              simp only [Option.some.injEq] at hs
              subst hs
              simp only [hp, if_true, SrcPc.rank] at hn
              simp only [SrcPc.rank, Bool.false_eq_true, if_false]
              omega
            · cases hs
          · have hr := src_rank_pc hok ht (fun p l t e => hw ⟨p, l, t, e⟩)
            have hp := src_permit ht
            rcases hr with hr | hr
            · exact absurd hr haw
            · rw [← hn]
              cases hp1 : s'.permit
              · simp; omega
              · simp [hp hp1]; omega
        obtain ⟨w', h2, h3, h4, h5, h6, h7⟩ := ih _ hlt h1 rfl
        exact ⟨w', timedReach_trans hw1 h2, h3, h4, h5.trans hk.1,
          h6.elim (fun e => hk.2.1.elim (fun e' => .inl (e.trans e')) fun e' => .inr (h7 e')) .inr, fun e => h7 (hk.2.2 e)⟩

/-- C81: punctual timers never bring time to a halt: at every moment of such a history, it can go
on so that time passes, without help from the source or the consumer. -/
theorem C81_time_passes {P : Provider} {c : Cfg} (hP : Supported c.contentLength P) {retry : Nat} (hr : 0 < retry)
    {w0 w : TimedSys P.S} (h0 : TimedStarts P c w0) (h : TimedReach c retry (Punctual c retry) w0 w) :
    ∃ w', TimedReach c retry (Punctual c retry) w w' ∧ w.now < w'.now := by
  obtain ⟨PP⟩ := supported_positional hP
  -- a state in which the task waits for something other than the next chunk
  have rest : ∀ v : TimedSys P.S, srcStep c v.sys = none → v.sys.spc ≠ .sel → (∀ p, v.sys.spc ≠ .reconn p) →
      ∃ w', TimedReach c retry (Punctual c retry) v w' ∧ v.now < w'.now := by
    intro v h1 h2 h3
    refine ⟨_, timedReach_mono (fun _ _ h => h.1) (tick_one (c := c) (retry := retry) ⟨h1, fun e => absurd e h2⟩ ?_), Nat.lt_succ_self _⟩
    rintro (e | ⟨p, e⟩)
    · exact absurd e h2
    · exact absurd e (h3 p)
  -- a state in which it waits for the next chunk, with nothing else to take
  have quiet : ∀ v : TimedSys P.S, TimedReach c retry (Punctual c retry) w0 v →
      (v.sys.spc = .sel ∨ ∃ p, v.sys.spc = .reconn p) → v.sys.seekQ = none → v.sys.cancelled = false →
      ∃ w', TimedReach c retry (Punctual c retry) v w' ∧ v.now < w'.now := by
    intro v hv h1 h2 h3
    obtain ⟨w', h4, h5⟩ := C81_silence_goes_on hr h0 hv h1 h2 h3 1
    exact ⟨w', timedReach_mono (fun _ _ h => h.1) h4, by omega⟩
  -- a step that takes no time
  have act : ∀ {u v : TimedSys P.S} {a : Act}, TimedReach c retry (Punctual c retry) w0 u →
      timedStep c retry u (.act a) = some v → (∃ w', TimedReach c retry (Punctual c retry) v w' ∧ v.now < w'.now) →
      ∃ w', TimedReach c retry (Punctual c retry) u w' ∧ u.now < w'.now := by
    rintro u v a hu hs ⟨w', h1, h2⟩
    refine ⟨w', timedReach_trans (.step .refl (fun d hd => by simp at hd) hs) h1, ?_⟩
    rw [(timedStep_act hs).2.2.1] at h2
    exact h2
  -- a state in which it waits for the next chunk
  have sel : ∀ v : TimedSys P.S, TimedReach c retry (Punctual c retry) w0 v → v.sys.spc = .sel →
      ∃ w', TimedReach c retry (Punctual c retry) v w' ∧ v.now < w'.now := by
    intro v hv e
    cases hc : v.sys.cancelled with
    | true =>
      obtain ⟨u, hu, hcl⟩ : ∃ u, timedStep c retry v (.act .seeCancel) = some u ∧ u.sys.spc.closing = true := by
        simp only [timedStep, TimedSys.due, if_true, step, e, hc, and_self]
        exact ⟨_, rfl, rfl⟩
      refine act hv hu ?_
      have hu' := TimedReach.step hv (fun d hd => by simp at hd : Punctual c retry v (.act .seeCancel)) hu
      obtain ⟨x, h1, h2, h3, -, -, h4⟩ := comes_to_rest PP h0 hu'
      have h4 := h4 hcl
      obtain ⟨y, h5, h6⟩ := rest x h3 (by intro e; simp [e, SrcPc.closing] at h4) (by intro p e; simp [e, SrcPc.closing] at h4)
      exact ⟨y, timedReach_trans h1 h5, by omega⟩
    | false =>
      cases hq : v.sys.seekQ with
      | none => exact quiet v hv (.inl e) hq hc
      | some p =>
        obtain ⟨u, hu, hq', hc'⟩ : ∃ u, timedStep c retry v (.act .recvSeek) = some u ∧ u.sys.seekQ = none ∧
            u.sys.cancelled = false := by
          simp only [timedStep, TimedSys.due, if_true, step, e, hq]
          exact ⟨_, rfl, rfl, hc⟩
        refine act hv hu ?_
        have hu' := TimedReach.step hv (fun d hd => by simp at hd : Punctual c retry v (.act .recvSeek)) hu
        obtain ⟨x, h1, h2, h3, h4, h5, -⟩ := comes_to_rest PP h0 hu'
        obtain ⟨y, h6, h7⟩ : ∃ w', TimedReach c retry (Punctual c retry) x w' ∧ x.now < w'.now := by
          by_cases hx : x.sys.spc = .sel ∨ ∃ p, x.sys.spc = .reconn p
          · refine quiet x (timedReach_trans hu' h1) hx (h4.trans hq') ?_
            rcases h5 with h5 | h5
            · exact h5.trans hc'
            · rcases hx with e | ⟨p, e⟩ <;> simp [e, SrcPc.closing] at h5
          · exact rest x h3 (fun e => hx (.inl e)) (fun p e => hx (.inr ⟨p, e⟩))
        exact ⟨y, timedReach_trans h1 h6, by omega⟩
  obtain ⟨v, h1, h2, h3, -⟩ := comes_to_rest PP h0 h
  have hv := timedReach_trans h h1
  obtain ⟨y, h4, h5⟩ : ∃ w', TimedReach c retry (Punctual c retry) v w' ∧ v.now < w'.now := by
    by_cases e : v.sys.spc = .sel
    · exact sel v hv e
    · by_cases e' : ∃ p, v.sys.spc = .reconn p
      · obtain ⟨p, e'⟩ := e'
        by_cases hd : v.since + retry ≤ v.now
        · obtain ⟨u, hu, -, -, f3, -⟩ := timer_reconn c (w := v) (retry := retry) (by simpa using hd) e'
          exact act hv hu (sel u (.step hv (fun d hd => by simp at hd) hu) f3)
        · exact ⟨_, timedReach_mono (fun _ _ h => h.1) (tick_one (c := c) (retry := retry)
            ⟨h3, fun h => absurd h e⟩ fun _ => by omega), Nat.lt_succ_self _⟩
      · exact rest v h3 e (fun p h => e' ⟨p, h⟩)
  exact ⟨y, timedReach_trans h1 h4, by omega⟩

example : ∃ w', TimedReach demoCfg 30 (Punctual demoCfg 30) (timedInit (S := memStorage) demoCfg demoMem10) w' ∧
    0 < w'.now :=
  C81_time_passes (P := memProvider) (.inl (.memory _ nofun)) (by omega) ⟨rfl, demoMem10, by decide +kernel, rfl⟩ .refl

/-! ### A source that yields no data need not be reconnected -/

/-- C81 fails for a source that yields errors: each of them restarts the timer.  For any
number of times `retry_timeout`, no data arrives and no reconnect is attempted. -/
theorem errors_restart {S : Storage} {c : Cfg} {retry : Nat} {w : TimedSys S} (hsel : w.sys.spc = .sel)
    (hq : w.sys.seekQ = none) (hc : w.sys.cancelled = false) (hw : w.since = w.now) (n : Nat) :
    ∃ w', TimedReach c retry (fun w a => Punctual c retry w a ∧ NoData w a) w w' ∧ w'.now = w.now + n * retry ∧
      w'.sys.spc = .sel ∧ w'.times.map Prod.snd = List.replicate n Ev.chunkErr ++ w.times.map Prod.snd := by
  suffices h : ∃ w', TimedReach c retry (fun w a => Punctual c retry w a ∧ NoData w a) w w' ∧
      w'.now = w.now + n * retry ∧ w'.sys.spc = .sel ∧ w'.sys.seekQ = none ∧ w'.sys.cancelled = false ∧
      w'.since = w'.now ∧ w'.times.map Prod.snd = List.replicate n Ev.chunkErr ++ w.times.map Prod.snd by
    obtain ⟨w', h1, h2, h3, -, -, -, h4⟩ := h
    exact ⟨w', h1, h2, h3, h4⟩
  induction n with
  | zero => exact ⟨w, .refl, by omega, hsel, hq, hc, hw, rfl⟩
  | succ n ih =>
    obtain ⟨v, h1, h2, h3, h4, h5, h6, h7⟩ := ih
    have ht : TimedReach c retry (fun w a => Punctual c retry w a ∧ NoData w a) w { v with now := v.now + retry } := by
      refine .step (a := .tick retry) h1 ⟨?_, fun n _ => by simp⟩ rfl
      intro d hd hpos
      cases hd
      refine ⟨⟨by simp [srcStep, h3], fun _ => ⟨h4, h5⟩⟩, fun _ => by omega⟩
    have hs : timedStep c retry { v with now := v.now + retry } (.act .chunkErr) = some {
        sys := { v.sys with log := .chunkErr :: v.sys.log }
        now := v.now + retry
        since := v.now + retry
        times := (v.now + retry, .chunkErr) :: v.times } := by
      simp [timedStep, TimedSys.due, step, h3, Act.ofTask, Nat.add_sub_cancel_left]
    refine ⟨_, .step ht ⟨fun d hd => by simp at hd, fun n _ => by simp⟩ hs, ?_, h3, h4, h5, rfl, ?_⟩
    · show v.now + retry = _
      rw [h2, Nat.succ_mul]; omega
    · show Ev.chunkErr :: v.times.map Prod.snd = _
      rw [h7, List.replicate_succ, List.cons_append]

/-- C81 fails for a source that yields errors instead of data. -/
theorem C81_errors_violated :
    ∃ w0 : TimedSys memStorage, TimedStarts memProvider demoCfg w0 ∧ ¬ RetriesSilence demoCfg 5 w0 := by
  refine ⟨timedInit (S := memStorage) demoCfg demoMem10, ⟨rfl, demoMem10, rfl, rfl⟩, fun h => ?_⟩
  obtain ⟨w', h1, h2, h3, h4⟩ := errors_restart (c := demoCfg) (retry := 5) (w := timedInit (S := memStorage) demoCfg demoMem10)
    rfl rfl rfl rfl 2
  rcases h _ w' .refl h1 (by rw [h2]; simp [timedInit]) with h5 | ⟨_, _, _, h5⟩ | ⟨l, t, p, h5, h6⟩
  · rw [h3] at h5; cases h5
  · rw [h3] at h5; cases h5
  · have : Ev.reconnect p ∈ w'.times.map Prod.snd := by
      rw [h5]; exact List.mem_map.mpr ⟨_, List.mem_append_left _ h6, rfl⟩
    rw [h4] at this
    simp [timedInit] at this

/-- C81: there is no timer while the source is asked for a range.  If it never answers, the
download waits for any length of time, with the consumer's seek, and no reconnect is
attempted. -/
theorem C81_hanging_seek {S : Storage} {c : Cfg} {retry : Nat} {w : TimedSys S} {start : Nat} {stop : Option Nat}
    (hs : w.sys.spc = .seeking start stop) (d : Nat) :
    TimedReach c retry (fun w a => Punctual c retry w a ∧ Silent w a) w { w with now := w.now + d } := by
  refine .step (a := .tick d) .refl ⟨?_, fun n => by simp, by simp, by simp, by simp⟩ rfl
  rintro _ - -
  refine ⟨⟨by simp [srcStep, hs], fun h => by rw [hs] at h; cases h⟩, ?_⟩
  rintro (h | ⟨p, h⟩) <;> rw [hs] at h <;> cases h

/-- C81 fails if the source does not answer a request for a range. -/
theorem C81_hanging_seek_violated :
    ∃ w0 : TimedSys memStorage, TimedStarts memProvider demoCfg w0 ∧ ¬ RetriesSilence demoCfg 5 w0 := by
  have h : (timedRun demoCfg 5 (punctualB demoCfg 5) (timedInit (S := memStorage) demoCfg demoMem10)
      (timedActs (.seek (.start 7) :: rdrs 3 ++ [.recvSeek, .src]))).any
      (fun w => decide (w.sys.spc = .seeking 7 (some 10))) = true := by decide +kernel
  obtain ⟨w, h1, h2⟩ := of_any h
  simp only [decide_eq_true_eq] at h2
  refine ⟨_, ⟨rfl, demoMem10, rfl, rfl⟩, fun h => ?_⟩
  have h3 := C81_hanging_seek (c := demoCfg) (retry := 5) h2 6
  rcases h _ _ (timedReach_run (fun _ _ => punctual_of) h1)
    (timedReach_mono (fun _ _ h => ⟨h.1, fun n _ => h.2.1 n⟩) h3) (by simp) with h5 | ⟨_, _, _, h5⟩ | ⟨l, t, p, h5, h6⟩
  · rw [show (_ : TimedSys _).sys.spc = _ from h2] at h5; cases h5
  · rw [show (_ : TimedSys _).sys.spc = _ from h2] at h5; cases h5
  · have : l = [] := by simpa using h5
    rw [this] at h6; cases h6

/-! ### A cancelled download ends in time -/

/-- C75, with time: after the download was cancelled, time passes only while the task waits for the
answer to a request for a range, while it waits for the consumer to make room in the storage, when
it is over, or during the first `retry_timeout` (while it waits for a reconnect). -/
theorem C75_cancel_in_time {P : Provider} {c : Cfg} {retry : Nat} (hr : 0 < retry) {w0 w w' : TimedSys P.S}
    (h0 : TimedStarts P c w0) (h : TimedReach c retry (Punctual c retry) w0 w) (hc : w.sys.cancelled = true)
    (h' : TimedReach c retry (Punctual c retry) w w') {d : Nat} (hd : 0 < d)
    (hp : Punctual c retry w' (.tick d)) (hlate : w.now + retry < w'.now + d) :
    (∃ start stop, w'.sys.spc = .seeking start stop) ∨ (∃ pos0 len todo, w'.sys.spc = .wWait pos0 len todo) ∨
      w'.sys.spc = .ended ∨ w'.sys.spc = .panicked := by
  obtain ⟨-, st, -, rfl⟩ := h0
  have hcl : Clock w := Clock.init.reach h
  have hi : InTime retry w := inTime_reach (fun _ => Nat.zero_le _) (fun _ _ h => h) h
  have hcut : Cut w w' retry := by
    clear hp hlate
    induction h' with
    | refl => exact ⟨hc, Nat.le_refl _, hcl.since, fun _ => .inr rfl, fun _ => hcl.since⟩
    | step _ hg hs ih => exact ih.step hr hg hs
  obtain ⟨⟨h1, h2⟩, h3⟩ := hp d rfl hd
  cases hs : w'.sys.spc with
  | sel => have := (h2 hs).2; rw [hcut.cancelled] at this; cases this
  | reconn p =>
    have := h3 (.inr ⟨p, hs⟩)
    have := hcut.reconn ⟨p, hs⟩
    omega
  | seeking a b => exact .inl ⟨a, b, rfl⟩
  | wWait a b t => exact .inr (.inl ⟨a, b, t, rfl⟩)
  | ended => exact .inr (.inr (.inl rfl))
  | panicked => exact .inr (.inr (.inr rfl))
  | _ => revert h1; simp only [srcStep, hs]; (repeat' split) <;> simp

/-- A download that is cancelled while it waits for a reconnect: it ends when the reconnect is
given up, and time passes again. -/
example : ∃ w0 w w', TimedStarts memProvider demoCfg w0 ∧
    TimedReach demoCfg 5 (Punctual demoCfg 5) w0 w ∧ w.sys.cancelled = true ∧
    TimedReach demoCfg 5 (Punctual demoCfg 5) w w' ∧ Punctual demoCfg 5 w' (.tick 9) ∧ w.now + 5 < w'.now + 9 ∧
    w'.sys.spc = .ended := by
  have h : (timedRun demoCfg 5 (punctualB demoCfg 5) (timedInit (S := memStorage) demoCfg demoMem10)
      [.tick 5, .act .timeout, .tick 3, .act .cancel]).any (fun w => w.sys.cancelled &&
        (timedRun demoCfg 5 (punctualB demoCfg 5) w
          (.tick 2 :: timedActs (.reconnTimeout :: .seeCancel :: srcs 4))).any
          (fun w' => punctualB demoCfg 5 w' (.tick 9) && decide (w.now + 5 < w'.now + 9) &&
            decide (w'.sys.spc = .ended))) = true := by
    decide +kernel
  obtain ⟨w, h1, h2⟩ := of_any h
  simp only [Bool.and_eq_true] at h2
  obtain ⟨w', h3, h4⟩ := of_any h2.2
  simp only [Bool.and_eq_true, decide_eq_true_eq] at h4
  exact ⟨_, w, w', ⟨rfl, demoMem10, rfl, rfl⟩, timedReach_run (fun _ _ => punctual_of) h1, h2.1,
    timedReach_run (fun _ _ => punctual_of) h3, punctual_of h4.1.1, h4.1.2, h4.2⟩

end SD
