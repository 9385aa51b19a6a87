import Verif.Proof.Sys.Trans
import Verif.Spec.Timed

/-! # Proofs about histories with time -/

set_option linter.unusedVariables false

namespace SD

variable {S : Storage}

/-- A step adds at most one event to the log. -/
theorem log_grows {c : Cfg} {s s' : Sys S} {a : Act} (h : step c s a = some s') :
    s'.log = s.log ∨ ∃ e, s'.log = e :: s.log ∧ e.ofTask = a.ofTask ∧ (e.isReconnect = true → a = .timeout) := by
  cases tr_of_step h <;>
    first
      | exact .inl rfl
      | exact .inr ⟨_, rfl, rfl, by simp [Ev.isReconnect]⟩

/-- The events a step adds, with their time. -/
theorem newly_times {c : Cfg} {s s' : Sys S} {a : Act} {t : Nat} (h : step c s a = some s') :
    (s'.log.take (s'.log.length - s.log.length)).map (t, ·) = [] ∧ s'.log = s.log ∨
      ∃ e, (s'.log.take (s'.log.length - s.log.length)).map (t, ·) = [(t, e)] ∧ s'.log = e :: s.log ∧
        e.ofTask = a.ofTask ∧ (e.isReconnect = true → a = .timeout) := by
  rcases log_grows h with h1 | ⟨e, h1, h2, h3⟩
  · left; rw [h1]; simp
  · right; exact ⟨e, by rw [h1]; simp [Nat.add_sub_cancel_left], h1, h2, h3⟩

/-- What a step with a clock is made of. -/
theorem timedStep_act {c : Cfg} {retry : Nat} {w w' : TimedSys S} {a : Act}
    (h : timedStep c retry w (.act a) = some w') :
    w.due retry a = true ∧ step c w.sys a = some w'.sys ∧ w'.now = w.now ∧
      w'.since = (if a.ofTask then w.now else w.since) ∧
      w'.times = (w'.sys.log.take (w'.sys.log.length - w.sys.log.length)).map (w.now, ·) ++ w.times := by
  simp only [timedStep] at h
  split at h
  · next hd =>
    split at h
    · next s' hs =>
      simp only [Option.some.injEq] at h
      subst h
      exact ⟨hd, hs, rfl, rfl, rfl⟩
    · cases h
  · cases h

theorem timedStep_tick {c : Cfg} {retry : Nat} {w w' : TimedSys S} {d : Nat}
    (h : timedStep c retry w (.tick d) = some w') : w' = { w with now := w.now + d } := by
  simp only [timedStep, Option.some.injEq] at h
  exact h.symm

/-- Without the clock, a history with time is a history. -/
theorem timed_sim {c : Cfg} {retry : Nat} {G : TimedSys S → TimedAct → Prop} {w0 w : TimedSys S}
    (h : TimedReach c retry G w0 w) :
    Reach c (fun s a => ∃ v : TimedSys S, v.sys = s ∧ G v (.act a)) w0.sys w.sys := by
  induction h with
  | refl => exact .refl
  | @step w w' a h hg hs ih =>
    cases a with
    | tick d => rw [timedStep_tick hs]; exact ih
    | act a => exact .step ih ⟨w, rfl, hg⟩ (timedStep_act hs).2.1

/-- The clock does not go back, and the events of the log keep their times. -/
structure Clock (w : TimedSys S) : Prop where
  since : w.since ≤ w.now
  last : ∀ x ∈ w.times, x.2.ofTask = true → x.1 ≤ w.since
  all : ∀ x ∈ w.times, x.1 ≤ w.now
  log : w.times.map Prod.snd = w.sys.log

theorem Clock.init {c : Cfg} {st : S.σ} : Clock (timedInit c st) :=
  ⟨Nat.le_refl _, by simp [timedInit], by simp [timedInit], rfl⟩

theorem Clock.step {c : Cfg} {retry : Nat} {w w' : TimedSys S} {a : TimedAct} (h : Clock w)
    (hs : timedStep c retry w a = some w') : Clock w' := by
  cases a with
  | tick d =>
    rw [timedStep_tick hs]
    exact ⟨Nat.le_trans h.since (Nat.le_add_right _ _), h.last,
      fun x hx => Nat.le_trans (h.all x hx) (Nat.le_add_right _ _), h.log⟩
  | act a =>
    obtain ⟨-, h1, h2, h3, h4⟩ := timedStep_act hs
    rcases newly_times (t := w.now) h1 with ⟨e1, e2⟩ | ⟨e, e1, e2, e3, -⟩
    · rw [e1, List.nil_append] at h4
      refine ⟨?_, ?_, ?_, ?_⟩
      · rw [h3, h2]; split; exact Nat.le_refl _; exact h.since
      · rw [h4, h3]
        intro x hx ho
        split
        · exact h.all x hx
        · exact h.last x hx ho
      · rw [h4, h2]; exact h.all
      · rw [h4, e2]; exact h.log
    · rw [e1, List.singleton_append] at h4
      refine ⟨?_, ?_, ?_, ?_⟩
      · rw [h3, h2]; split; exact Nat.le_refl _; exact h.since
      · rw [h4, h3]
        intro x hx ho
        rcases List.mem_cons.mp hx with rfl | hx
        · rw [← e3, if_pos ho]; exact Nat.le_refl _
        · split
          · exact h.all x hx
          · exact h.last x hx ho
      · rw [h4, h2]
        intro x hx
        rcases List.mem_cons.mp hx with rfl | hx
        · exact Nat.le_refl _
        · exact h.all x hx
      · rw [h4, e2, List.map_cons, h.log]

theorem Clock.reach {c : Cfg} {retry : Nat} {G : TimedSys S → TimedAct → Prop} {w0 w : TimedSys S}
    (h0 : Clock w0) (h : TimedReach c retry G w0 w) : Clock w := by
  induction h with
  | refl => exact h0
  | step _ _ hs ih => exact ih.step hs

theorem quiet_step {c : Cfg} {retry : Nat} {w w' : TimedSys S} {a : TimedAct} (hc : Clock w)
    (hr : retry ≤ w.since + retry) (h : QuietBefore retry w.times) (hs : timedStep c retry w a = some w') :
    QuietBefore retry w'.times := by
  cases a with
  | tick d => rw [timedStep_tick hs]; exact h
  | act a =>
    obtain ⟨h0, h1, h2, h3, h4⟩ := timedStep_act hs
    rcases newly_times (t := w.now) h1 with ⟨e1, e2⟩ | ⟨e, e1, e2, e3, e4⟩
    · rw [e1, List.nil_append] at h4
      rw [h4]; exact h
    · rw [e1, List.singleton_append] at h4
      rw [h4]
      refine ⟨fun he => ?_, h⟩
      have ha := e4 he
      subst ha
      have hd : w.since + retry ≤ w.now := by simpa [TimedSys.due] using h0
      refine ⟨Nat.le_trans hr hd, fun x hx ho => ?_⟩
      have := hc.last x hx ho
      omega

/-- At most `retry` passes while a timer of the task runs. -/
def InTime (retry : Nat) (w : TimedSys S) : Prop :=
  w.sys.spc = .sel ∨ (∃ p, w.sys.spc = .reconn p) → w.now ≤ w.since + retry

theorem waits_frame {c : Cfg} {s s' : Sys S} {a : Act} (h : step c s a = some s') (ha : a.ofTask = false) :
    s'.spc = s.spc := by
  cases tr_of_step h <;> first | rfl | cases ha

theorem inTime_step {c : Cfg} {retry : Nat} {w w' : TimedSys S} {a : TimedAct} (h : InTime retry w)
    (hp : Punctual c retry w a) (hs : timedStep c retry w a = some w') : InTime retry w' := by
  cases a with
  | tick d =>
    rw [timedStep_tick hs]
    intro hw
    by_cases hd : 0 < d
    · exact (hp d rfl hd).2 hw
    · have : d = 0 := by omega
      subst this
      exact h hw
  | act a =>
    obtain ⟨h0, h1, h2, h3, h4⟩ := timedStep_act hs
    intro hw
    rw [h2, h3]
    cases ha : a.ofTask with
    | true => simp
    | false =>
      rw [waits_frame h1 ha] at hw
      exact h hw

theorem inTime_reach {c : Cfg} {retry : Nat} {G : TimedSys S → TimedAct → Prop} {w0 w : TimedSys S}
    (h0 : InTime retry w0) (hG : ∀ w a, G w a → Punctual c retry w a) (h : TimedReach c retry G w0 w) :
    InTime retry w := by
  induction h with
  | refl => exact h0
  | step _ hg hs ih => exact inTime_step ih (hG _ _ hg) hs

/-- Where a download that hears nothing can be. -/
structure Hush (retry : Nat) (w w' : TimedSys S) : Prop where
  later : w.now ≤ w'.now
  since : w'.since ≤ w'.now
  place : w'.sys.spc = .sel ∨ (∃ p, w'.sys.spc = .reconn p) ∨ w'.sys.spc.closing = true
  tried : w'.sys.spc.closing = true ∨ (w'.sys.spc = .sel ∧ w'.since ≤ w.now) ∨
    ∃ l t p, w'.times = l ++ w.times ∧ (t, Ev.reconnect p) ∈ l ∧ w.now ≤ t ∧
      ((∃ q, w'.sys.spc = .reconn q) → w'.since ≤ t) ∧ w'.since ≤ t + retry
  kept : ∃ l, w'.times = l ++ w.times

theorem hush_tr {c : Cfg} {s s' : Sys S} {a : Act} (h : step c s a = some s') (ha : a.ofTask = true)
    (h1 : ∀ n, a ≠ .chunk n) (h2 : a ≠ .chunkErr) (h3 : a ≠ .eof) (h4 : a ≠ .recvSeek) :
    (s.spc = .sel → a = .timeout ∧ (∃ p, s'.spc = .reconn p ∧ s'.log = .reconnect p :: s.log) ∨ s'.spc.closing = true) ∧
    ((∃ p, s.spc = .reconn p) → s'.spc = .sel) ∧
    (s.spc.closing = true → s'.spc.closing = true) := by
  cases tr_of_step h <;>
    grind [SrcPc.closing, Act.ofTask]

theorem Hush.step {c : Cfg} {retry : Nat} {w v v' : TimedSys S} {a : TimedAct} (h : Hush retry w v)
    (ht : InTime retry v) (hq : Silent v a) (hs : timedStep c retry v a = some v') : Hush retry w v' := by
  obtain ⟨l0, hl0⟩ := h.kept
  cases a with
  | tick d =>
    rw [timedStep_tick hs]
    exact ⟨Nat.le_trans h.later (Nat.le_add_right _ _), Nat.le_trans h.since (Nat.le_add_right _ _),
      h.place, h.tried, h.kept⟩
  | act a =>
    obtain ⟨h0, h1, h2, h3, h4⟩ := timedStep_act hs
    obtain ⟨l1, hk⟩ : ∃ l, v'.times = l ++ v.times := ⟨_, h4⟩
    have hk' : ∃ l, v'.times = l ++ w.times := ⟨_, by rw [h4, hl0, ← List.append_assoc]⟩
    cases ha : a.ofTask with
    | false =>
      have hspc := waits_frame h1 ha
      rw [ha] at h3
      refine ⟨by rw [h2]; exact h.later, by rw [h2]; simpa [h3] using h.since, by rw [hspc]; exact h.place, ?_, hk'⟩
      rw [hspc]
      rcases h.tried with h5 | ⟨h5, h6⟩ | ⟨l, t, p, h5, h6, h7, h8, h9⟩
      · exact .inl h5
      · exact .inr (.inl ⟨h5, by simpa [h3] using h6⟩)
      · refine .inr (.inr ⟨l1 ++ l, t, p, ?_, List.mem_append_right _ h6, h7, ?_, ?_⟩)
        · rw [hk, h5, List.append_assoc]
        · simpa [h3] using h8
        · simpa [h3] using h9
    | true =>
      rw [ha] at h3
      simp only [if_true] at h3
      have hq' : (∀ n, a ≠ .chunk n) ∧ a ≠ .chunkErr ∧ a ≠ .eof ∧ a ≠ .recvSeek := by
        obtain ⟨q1, q2, q3, q4⟩ := hq
        exact ⟨fun n e => q1 n (by rw [e]), fun e => q2 (by rw [e]), fun e => q3 (by rw [e]), fun e => q4 (by rw [e])⟩
      obtain ⟨f1, f2, f3⟩ := hush_tr h1 ha hq'.1 hq'.2.1 hq'.2.2.1 hq'.2.2.2
      have hl : w.now ≤ v'.now := by rw [h2]; exact h.later
      have hsn : v'.since ≤ v'.now := by rw [h2, h3]; exact Nat.le_refl _
      rcases h.place with hp | hp | hp
      · rcases f1 hp with ⟨rfl, p, e1, e2⟩ | e1
        · refine ⟨hl, hsn, .inr (.inl ⟨p, e1⟩), .inr (.inr ?_), hk'⟩
          rw [e2] at h4
          have h4' : v'.times = (v.now, Ev.reconnect p) :: v.times := by
            rw [h4]; simp [Nat.add_sub_cancel_left]
          refine ⟨(v.now, Ev.reconnect p) :: l0, v.now, p, by rw [h4', hl0]; rfl, List.mem_cons_self, h.later, ?_, ?_⟩
          · intro _; rw [h3]; exact Nat.le_refl _
          · rw [h3]; exact Nat.le_add_right _ _
        · exact ⟨hl, hsn, .inr (.inr e1), .inl e1, hk'⟩
      · have e1 := f2 hp
        refine ⟨hl, hsn, .inl e1, .inr (.inr ?_), hk'⟩
        have ht' := ht (.inr hp)
        obtain ⟨p, hp⟩ := hp
        rcases h.tried with h5 | ⟨h5, h6⟩ | ⟨l, t, p', h5, h6, h7, h8, h9⟩
        · rw [hp] at h5; cases h5
        · rw [hp] at h5; cases h5
        · refine ⟨l1 ++ l, t, p', ?_, List.mem_append_right _ h6, h7, ?_, ?_⟩
          · rw [hk, h5, List.append_assoc]
          · rintro ⟨q, hq⟩; rw [e1] at hq; cases hq
          · have := h8 ⟨p, hp⟩; rw [h3]; omega
      · have e1 := f3 hp
        exact ⟨hl, hsn, .inr (.inr e1), .inl e1, hk'⟩

/-- After a cancellation, a reconnect can only be one that was due already. -/
structure Cut (w w' : TimedSys S) (retry : Nat) : Prop where
  cancelled : w'.sys.cancelled = true
  later : w.now ≤ w'.now
  since : w'.since ≤ w'.now
  sel : w'.sys.spc = .sel → w'.now < w'.since + retry ∨ w'.now = w.now
  reconn : (∃ p, w'.sys.spc = .reconn p) → w'.since ≤ w.now

theorem cut_tr {c : Cfg} {s s' : Sys S} {a : Act} (h : step c s a = some s') (ha : a.ofTask = true) :
    (s.cancelled = true → s'.cancelled = true) ∧ ((∃ p, s'.spc = .reconn p) → a = .timeout ∧ s.spc = .sel) := by
  cases tr_of_step h <;>
    grind [startPc, roundPc, Act.ofTask]

theorem cut_cancelled {c : Cfg} {s s' : Sys S} {a : Act} (h : step c s a = some s') (hc : s.cancelled = true) :
    s'.cancelled = true := by
  cases tr_of_step h <;> simp_all

theorem Cut.step {c : Cfg} {retry : Nat} (hr : 0 < retry) {w v v' : TimedSys S} {a : TimedAct} (h : Cut w v retry)
    (hp : Punctual c retry v a) (hs : timedStep c retry v a = some v') : Cut w v' retry := by
  cases a with
  | tick d =>
    rw [timedStep_tick hs]
    refine ⟨h.cancelled, Nat.le_trans h.later (Nat.le_add_right _ _), Nat.le_trans h.since (Nat.le_add_right _ _), ?_, h.reconn⟩
    intro hsel
    by_cases hd : 0 < d
    · have := ((hp d rfl hd).1.2 hsel).2
      rw [h.cancelled] at this
      cases this
    · have : d = 0 := by omega
      subst this
      exact h.sel hsel
  | act a =>
    obtain ⟨h0, h1, h2, h3, h4⟩ := timedStep_act hs
    cases ha : a.ofTask with
    | false =>
      have hspc := waits_frame h1 ha
      rw [ha] at h3
      simp only [Bool.false_eq_true, if_false] at h3
      refine ⟨cut_cancelled h1 h.cancelled, by rw [h2]; exact h.later, by rw [h2, h3]; exact h.since, ?_, ?_⟩
      · rw [hspc, h2, h3]; exact h.sel
      · rw [hspc, h3]; exact h.reconn
    | true =>
      rw [ha] at h3
      simp only [if_true] at h3
      refine ⟨cut_cancelled h1 h.cancelled, by rw [h2]; exact h.later, by rw [h2, h3]; exact Nat.le_refl _, ?_, ?_⟩
      · intro _; left; rw [h2, h3]; omega
      · intro hp
        obtain ⟨rfl, hsel⟩ := (cut_tr h1 ha).2 hp
        have hd : v.since + retry ≤ v.now := by simpa [TimedSys.due] using h0
        have := h.sel hsel
        rw [h3]; omega

end SD
