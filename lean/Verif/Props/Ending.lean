import Verif.Proof.Sys.CallLog
import Verif.Proof.Sys.Release
import Verif.Proof.Sys.Run

/-!
# Properties C10, C11, C12, C17, C19: failures, the end of the download, cancellation
-/

set_option linter.unusedVariables false

namespace SD

theorem endLog_reach {S : Storage} {c : Cfg} {G : Sys S → Act → Prop} {st : S.σ} {s : Sys S}
    (h : Reach c G (init c st) s) : EndLog c s :=
  Reach.inv (P := EndLog c) h (EndLog.init c st) (fun _ _ _ h _ ht => h.step ht)

theorem finishOnce_reach {S : Storage} {c : Cfg} {G : Sys S → Act → Prop} {st : S.σ} {s : Sys S}
    (h : Reach c G (init c st) s) : FinishOnce s := by
  have : EndLog c s ∧ FinishOnce s := by
    refine Reach.inv (P := fun s => EndLog c s ∧ FinishOnce s) h
      ⟨EndLog.init c st, by simp [FinishOnce, init]⟩ ?_
    rintro s s' a ⟨h1, h2⟩ - ht
    exact ⟨h1.step ht, h2.step h1 ht⟩
  exact this.2

/-! ### C10: a failed download is reported to every later call -/

/-- C10: from the moment the download is marked as failed, whatever happens, it stays
marked, and every call that is issued afterwards returns an error. -/
theorem C10_failure_is_permanent {S : Storage} {c : Cfg} {G : Sys S → Act → Prop} {s s' : Sys S}
    (hfail : s.failed = true) (hidle : s.rpc = .idle) (h : Reach c G s s') :
    s'.failed = true ∧ ∃ l, s'.log = l ++ s.log ∧ ∀ e ∈ l, e.isReturn = true → e.isError = true := by
  have key : s'.failed = true ∧ (s'.rpc = .idle ∨ s'.rpc = .dropped) ∧
      ∃ l, s'.log = l ++ s.log ∧ ∀ e ∈ l, e.isReturn = true → e.isError = true := by
    refine Reach.inv (P := fun s' => s'.failed = true ∧ (s'.rpc = .idle ∨ s'.rpc = .dropped) ∧
      ∃ l, s'.log = l ++ s.log ∧ ∀ e ∈ l, e.isReturn = true → e.isError = true) h
      ⟨hfail, Or.inl hidle, [], rfl, by simp⟩ ?_
    rintro s1 s2 a ⟨h1, h2, l, h3, h4⟩ - ht
    have hcons : ∀ e : Ev, (e.isReturn = true → e.isError = true) →
        ∃ l', e :: s1.log = l' ++ s.log ∧ ∀ e ∈ l', e.isReturn = true → e.isError = true := by
      intro e he
      refine ⟨e :: l, by rw [h3]; rfl, ?_⟩
      intro e' he'
      rcases List.mem_cons.mp he' with rfl | he'
      · exact he
      · exact h4 _ he'
    cases ht
    all_goals first
      | exact ⟨h1, h2, l, h3, h4⟩
      | exact ⟨h1, h2, hcons _ (by simp [Ev.isReturn, Ev.isError])⟩
      | exact ⟨rfl, h2, l, h3, h4⟩
      | exact ⟨h1, Or.inr rfl, l, h3, h4⟩
      | (exfalso; simp_all)
  exact ⟨key.1, key.2.2⟩

/-- What marks a download as failed: when the task is over, the mark is set exactly if
`on_finish` was given, and did not clear, an error (or returned one of its own). -/
theorem C10_failure_is_recorded {S : Storage} {c : Cfg} {G : Sys S → Act → Prop} {st : S.σ}
    {s : Sys S} (h : Reach c G (init c st) s) (hend : s.spc = .ended) :
    ∃ r o, Ev.onFinish r o ∈ s.log ∧ (s.failed = true ↔ c.onFinish r o ≠ none) ∧
      ∀ r' o', Ev.onFinish r' o' ∈ s.log → r' = r ∧ o' = o := by
  obtain ⟨r, o, h1, -, -, -, h5, -⟩ := (endLog_reach h).isOver (by rw [hend]; rfl)
  refine ⟨r, o, ?_, h5 (by rw [hend]; simp), ?_⟩
  · by_contra hn
    have : finishOf s.log = none ∨ ∃ r' o', finishOf s.log = some (r', o') ∧ Ev.onFinish r' o' ∈ s.log := by
      generalize s.log = l
      clear h1 hn h h5
      induction l with
      | nil => exact Or.inl rfl
      | cons e l ih =>
        cases e
        case onFinish r' o' => exact Or.inr ⟨r', o', rfl, by simp⟩
        all_goals
          rcases ih with ih | ⟨r', o', ih, ih'⟩
          · exact Or.inl (by simpa [finishOf] using ih)
          · exact Or.inr ⟨r', o', by simpa [finishOf] using ih, List.mem_cons_of_mem _ ih'⟩
    rcases this with h6 | ⟨r', o', h6, h7⟩
    · rw [h6] at h1; simp at h1
    · rw [h6] at h1; simp at h1; obtain ⟨rfl, rfl⟩ := h1; exact hn h7
  · intro r' o' hm
    have := finishOnce_reach h r' o' hm
    rw [this] at h1; simp at h1; exact h1

/-- A source that fails to seek: the download fails, and later calls return errors. -/
example : ∃ s0 s s' : Sys memStorage, Starts memProvider demoCfg s0 ∧ Reach demoCfg Any s0 s ∧
    s.failed = true ∧ s.spc = .ended ∧ s.rpc = .idle ∧ Reach demoCfg Any s s' ∧
    s'.log = Ev.seekErr .other :: Ev.readErr 3 .other :: s.log := by
  obtain ⟨s0, s, h1, h2, h3⟩ := exists_of_run (P := memProvider) (c := demoCfg)
    { buf := List.replicate 10 0, written := 0, rp := 0, wp := 0 }
    ([.seek (.start 5)] ++ rdrs 3 ++ [.recvSeek, .src, .seekFail .other] ++ srcs 4 ++ rdrs 2)
    (fun s => decide (s.failed = true ∧ s.spc = .ended ∧ s.rpc = .idle)) rfl rfl (by decide +kernel)
  obtain ⟨h3, h4, h5⟩ := of_decide_eq_true h3
  refine ⟨s0, s, { s with log := Ev.seekErr .other :: Ev.readErr 3 .other :: s.log }, h1, h2, h3, h4, h5,
    ?_, rfl⟩
  refine .step (s := { s with log := Ev.readErr 3 .other :: s.log }) (a := .seek (.start 0))
    (.step .refl trivial (a := .read 3) ?_) trivial ?_
  · simp [step, h5, callRead, h3]
  · simp [step, h5, callSeek, h3, SeekFrom.valid, two64]

/-! ### C11: a blocked call is released when the download ends -/

/-- The consumer is inside a call. -/
def inCall : RdrPc → Bool
  | .idle | .dropped | .panicked => false
  | _ => true

/-- How many steps a call can still make. -/
def callSteps : RdrPc → Nat
  | .rDecide _ | .sDecide _ => 9
  | .rSet _ _ | .sSet _ => 8
  | .rLoad _ _ | .sSend _ => 7
  | .rNotify _ _ => 6
  | .rWait _ _ | .sWait _ => 5
  | .rCheck _ _ | .sCheck _ => 4
  | .rRead _ _ | .sSeek _ => 3
  | .rSwap => 2
  | .rWake => 1
  | .idle | .dropped | .panicked => 0

/-- C11, first part: when the task is over, a call in progress is never blocked: the
consumer's next step is possible and brings the call closer to its end, which takes at
most nine steps. -/
theorem C11_no_call_blocks {S : Storage} {c : Cfg} {G : Sys S → Act → Prop} {st : S.σ} {s : Sys S}
    (h : Reach c G (init c st) s) (hend : s.spc = .ended) (hc : inCall s.rpc = true) :
    ∃ s', step c s .rdr = some s' ∧ callSteps s'.rpc < callSteps s.rpc ∧ callSteps s.rpc ≤ 9 := by
  have hd : s.done = true := by
    obtain ⟨r, o, -, -, -, -, -, h6⟩ := (endLog_reach h).isOver (by rw [hend]; rfl)
    exact h6 (Or.inr hend)
  simp only [step, rdrStep]
  cases hr : s.rpc <;> simp only [hr, inCall, Bool.false_eq_true] at hc <;>
    simp only [hd, if_true]
  all_goals (repeat' split) <;> simp [callSteps] <;> (try split) <;> simp [callSteps]

/-- C11, first part, continued: nothing else changes where a call in progress is, and the
task stays over. -/
theorem C11_calls_undisturbed {S : Storage} {c : Cfg} {s s' : Sys S} {a : Act}
    (hc : inCall s.rpc = true) (ha : a ≠ .rdr) (hs : step c s a = some s') :
    s'.rpc = s.rpc ∧ (s.spc = .ended → s'.spc = .ended) := by
  cases tr_of_step hs <;> simp_all [inCall]

/-- C11, second part: if the download has failed, no call that was released by its end
has touched the storage: it returned an error.  (`relOf earlier = some true` says
that the call that returned here was released by the end of the download.)  Assumes
that `on_finish` does not fail a download that completed, as the default does not. -/
theorem C11_released_call_reports_failure {S : Storage} {c : Cfg} {G : Sys S → Act → Prop} {st : S.σ}
    {s : Sys S} (hc : c.onFinish none .completed = none) (h : Reach c G (init c st) s)
    (hfail : s.failed = true) {later earlier : List Ev} {e : Ev}
    (hl : s.log = later ++ e :: earlier) (he : e.isReturn = true) (hr : relOf earlier = some true) :
    e.isError = true := by
  have key : EndLog c s ∧ Rel s := by
    refine Reach.inv (P := fun s => EndLog c s ∧ Rel s) h ⟨EndLog.init c st, Rel.init c st⟩ ?_
    rintro s s' a ⟨h1, h2⟩ - ht
    exact ⟨h1.step ht, h2.step hc h1 ht⟩
  have hdata : ∀ l : List Ev, dataAfterDone (e :: earlier) = true →
      dataAfterDone (l ++ e :: earlier) = true := by
    intro l hd
    induction l with
    | nil => exact hd
    | cons x l ih =>
      simp only [List.cons_append]
      cases x <;> simp [dataAfterDone, ih]
  cases e <;> simp_all [Ev.isReturn, Ev.isError]
  case readRet pos len fast res =>
    have := (key.2.data (by rw [hl]; exact hdata later (by simp [dataAfterDone, hr]))).2
    rw [hfail] at this; simp at this
  case seekRet t res =>
    have := (key.2.data (by rw [hl]; exact hdata later (by simp [dataAfterDone, hr]))).2
    rw [hfail] at this; simp at this

/-- A read that is blocked when the download fails, and is released with an error. -/
example : ∃ s0 s : Sys memStorage, Starts memProvider demoCfg s0 ∧ Reach demoCfg Any s0 s ∧
    s.failed = true ∧ ∃ l, s.log = [] ++ Ev.readErr 3 .other :: l ∧ relOf l = some true := by
  obtain ⟨s0, s, h1, h2, h3⟩ := exists_of_run (P := memProvider) (c := demoCfg)
    { buf := List.replicate 10 0, written := 0, rp := 0, wp := 0 }
    ([.read 3] ++ rdrs 3 ++ [.cancel, .seeCancel] ++ srcs 4 ++ rdrs 2)
    (fun s => decide (s.failed = true ∧ s.log.head? = some (Ev.readErr 3 .other) ∧
      relOf s.log.tail = some true)) rfl rfl (by decide +kernel)
  obtain ⟨h3, h4, h5⟩ := of_decide_eq_true h3
  refine ⟨s0, s, h1, h2, h3, s.log.tail, ?_, h5⟩
  cases hl : s.log with
  | nil => rw [hl] at h4; simp at h4
  | cons e l => rw [hl] at h4; simp at h4; simp [h4]

/-! ### C12: a released read has its data -/

/-- C12: consider any read that had to wait and then used the storage.  Either it was
released by the end of the download, or, within this same call (no other call returned,
asked or was told anything in between), it asked for the end of its range, the task
announced, with the download at a position `w` not before it, and that announcement
released it. -/
theorem C12_released_read_has_data {P : Provider} {c : Cfg} (hP : Supported c.contentLength P)
    {G : Sys P.S → Act → Prop} {s0 s : Sys P.S} (h0 : Starts P c s0) (h : Reach c G s0 s)
    {later earlier : List Ev} {pos len : Nat} {res : Res (List Byte)}
    (hl : s.log = later ++ .readRet pos len false res :: earlier) :
    (s.done = true ∧ ∃ m l, earlier = m ++ .released true :: l ∧ ∀ e ∈ m, e.isCall = false) ∨
    ∃ w m1 m2 m3 l, clamp c.contentLength (pos + len) ≤ w ∧
      earlier = m1 ++ .released false :: (m2 ++ .notified w ::
        (m3 ++ .request (clamp c.contentLength (pos + len)) :: l)) ∧
      ∀ e ∈ m1 ++ m2 ++ m3, e.isCall = false := by
  obtain ⟨PP⟩ := supported_positional hP
  have hpos := ((PosInv.reach PP h0 h).rule.split hl).1
  have hrule := (call_log hP h0 h).2.split hl
  subst hpos
  rcases hrule with hd | ⟨w, hw⟩
  · obtain ⟨m, l', h1, h2, -⟩ := callSt_byDone hd
    refine Or.inl ⟨?_, m, l', h1, h2⟩
    obtain ⟨-, st, -, rfl⟩ := h0
    exact released_done h (by rw [hl, h1]; simp)
  · obtain ⟨h1, m1, m2, m3, l', h2, h3⟩ := callSt_byTold_events hw
    exact Or.inr ⟨w, m1, m2, m3, l', h1, h2, h3⟩

/-- C12 for seeks. -/
theorem C12_released_seek_has_data {P : Provider} {c : Cfg} (hP : Supported c.contentLength P)
    {G : Sys P.S → Act → Prop} {s0 s : Sys P.S} (h0 : Starts P c s0) (h : Reach c G s0 s)
    {later earlier : List Ev} {t : Nat} {res : Res Nat}
    (hl : s.log = later ++ .seekRet t res :: earlier) :
    callSt earlier = .fresh ∨
    (s.done = true ∧ ∃ m l, earlier = m ++ .released true :: l ∧ ∀ e ∈ m, e.isCall = false) ∨
    ∃ w m1 m2 m3 l, t ≤ w ∧
      earlier = m1 ++ .released false :: (m2 ++ .notified w :: (m3 ++ .request t :: l)) ∧
      ∀ e ∈ m1 ++ m2 ++ m3, e.isCall = false := by
  have hrule := (call_log hP h0 h).2.split hl
  rcases hrule with hf | hd | ⟨w, hw⟩
  · exact Or.inl hf
  · obtain ⟨m, l', h1, h2, -⟩ := callSt_byDone hd
    refine Or.inr (Or.inl ⟨?_, m, l', h1, h2⟩)
    obtain ⟨-, st, -, rfl⟩ := h0
    exact released_done h (by rw [hl, h1]; simp)
  · obtain ⟨h1, m1, m2, m3, l', h2, h3⟩ := callSt_byTold_events hw
    exact Or.inr (Or.inr ⟨w, m1, m2, m3, l', h1, h2, h3⟩)

/-- Two reads in a row that have to wait; each is released by its own notification. -/
example : ∃ s0 s : Sys memStorage, Starts memProvider demoCfg s0 ∧ Reach demoCfg Any s0 s ∧
    ∃ l, s.log = [] ++ Ev.readRet 2 3 false (.ok [3, 4, 5]) :: l := by
  obtain ⟨s0, s, h1, h2, h3⟩ := exists_of_run (P := memProvider) (c := demoCfg)
    { buf := List.replicate 10 0, written := 0, rp := 0, wp := 0 }
    ([.read 2] ++ rdrs 3 ++ [.chunk 4] ++ srcs 8 ++ rdrs 5 ++ [.read 3] ++ rdrs 3 ++
      [.chunk 2] ++ srcs 8 ++ rdrs 3)
    (fun s => decide (s.log.head? = some (Ev.readRet 2 3 false (.ok [3, 4, 5]))))
    rfl rfl (by decide +kernel)
  refine ⟨s0, s, h1, h2, s.log.tail, ?_⟩
  have h4 := of_decide_eq_true h3
  cases hl : s.log with
  | nil => rw [hl] at h4; simp at h4
  | cons e l => rw [hl] at h4; simp at h4; simp [h4]

/-! ### C17: cancellation -/

/-- C17, first part: if cancellation is the reason the download stopped (`on_finish` was
called with outcome `Cancelled`), `Complete` was not and will not be reported, and once
the task is over the download is marked as failed, so that C10 and C11 apply. -/
theorem C17_cancelled_is_not_success {S : Storage} {c : Cfg} {G : Sys S → Act → Prop} {st : S.σ}
    {s : Sys S} (hk : c.KeepsErrors) (h : Reach c G (init c st) s) {r : Option Kind}
    (hcan : Ev.onFinish r .cancelled ∈ s.log) :
    (∀ pos range, Ev.progress pos range .complete ∉ s.log) ∧
      (s.spc = .ended → s.failed = true) := by
  have he := endLog_reach h
  have hf := finishOnce_reach h _ _ hcan
  have hov : s.spc.over = true := by
    cases hov : s.spc.over
    · have := he.notYet hov; rw [this] at hf; simp at hf
    · rfl
  obtain ⟨r', o', h1, h2, h3, h4, h5, h6⟩ := he.isOver hov
  rw [hf] at h1
  simp at h1
  obtain ⟨rfl, rfl⟩ := h1
  have hr : r ≠ none := by
    intro hr
    have := (h2 hr).2
    simp at this
  refine ⟨completes_zero.mp (h3 hr), ?_⟩
  intro hend
  cases r with
  | none => exact absurd rfl hr
  | some k => exact (h5 (by rw [hend]; simp)).mpr (hk k _)

/-- C17, second part: once the task is over, `cancel` changes nothing at all. -/
theorem C17_cancel_after_end {S : Storage} {c : Cfg} {G : Sys S → Act → Prop} {st : S.σ}
    {s : Sys S} (h : Reach c G (init c st) s) (hend : s.spc = .ended) :
    step c s .cancel = some s := by
  have : s.cancelled = true := by
    have : s.spc = .ended → s.cancelled = true := by
      refine Reach.inv (P := fun s => s.spc = .ended → s.cancelled = true) h (by simp [init]) ?_
      intro s s' a ih _ ht
      cases ht <;> simp_all [roundPc, startPc] <;> (intro hh; (repeat' split at hh) <;> simp at hh)
    exact this hend
  simp [step, ← this]

/-- C17, second part, continued: once `Complete` was reported, the download is never
marked as failed, whoever cancels whenever. -/
theorem C17_complete_is_final {S : Storage} {c : Cfg} {G : Sys S → Act → Prop} {st : S.σ}
    {s : Sys S} (hc : c.onFinish none .completed = none) (h : Reach c G (init c st) s)
    {pos : Nat} {range : Nat × Nat} (hcomp : Ev.progress pos range .complete ∈ s.log) :
    s.failed = false := by
  have he := endLog_reach h
  cases hov : s.spc.over
  · exact he.early hov
  · obtain ⟨r, o, h1, h2, h3, h4, h5, h6⟩ := he.isOver hov
    have hr : r = none := by
      by_contra hr
      exact completes_zero.mp (h3 hr) pos range hcomp
    subst hr
    obtain ⟨-, rfl⟩ := h2 rfl
    cases hf : s.failed
    · rfl
    · exact absurd hc ((h5 (fun hs => h4 hs hc)).mp hf)

example : ∃ s0 s : Sys memStorage, Starts memProvider demoCfg s0 ∧ Reach demoCfg Any s0 s ∧
    Ev.onFinish (some .interrupted) .cancelled ∈ s.log ∧ s.spc = .ended := by
  obtain ⟨s0, s, h1, h2, h3⟩ := exists_of_run (P := memProvider) (c := demoCfg)
    { buf := List.replicate 10 0, written := 0, rp := 0, wp := 0 }
    ([.chunk 2] ++ srcs 6 ++ [.cancel, .chunk 1] ++ srcs 6 ++ [.seeCancel] ++ srcs 4)
    (fun s => decide (Ev.onFinish (some .interrupted) .cancelled ∈ s.log ∧ s.spc = .ended))
    rfl rfl (by decide +kernel)
  exact ⟨s0, s, h1, h2, of_decide_eq_true h3⟩

/-- Cancelled between the completion and the end of the task. -/
example : ∃ s0 s : Sys memStorage, Starts memProvider demoCfg s0 ∧ Reach demoCfg Any s0 s ∧
    Ev.progress 10 (0, 10) .complete ∈ s.log ∧ s.cancelled = true ∧ s.spc = .onFin none .completed := by
  obtain ⟨s0, s, h1, h2, h3⟩ := exists_of_run (P := memProvider) (c := demoCfg)
    { buf := List.replicate 10 0, written := 0, rp := 0, wp := 0 }
    ([.chunk 10] ++ srcs 6 ++ [.eof] ++ srcs 3 ++ [.cancel])
    (fun s => decide (Ev.progress 10 (0, 10) .complete ∈ s.log ∧ s.cancelled = true ∧
      s.spc = .onFin none .completed))
    rfl rfl (by decide +kernel)
  exact ⟨s0, s, h1, h2, of_decide_eq_true h3⟩

/-! ### C19: wait_for_completion

`StreamHandle::wait_for_completion` (lib.rs 36-44) waits until the token is cancelled,
which is `cancelled` in the model. -/

/-- C19 fails: somebody who has called `cancel` (or has dropped the stream) and then
waits for completion is not made to wait for the task. -/
theorem C19_waits_for_the_task_violated :
    ∃ s0 s : Sys memStorage, Starts memProvider demoCfg s0 ∧ Reach demoCfg Any s0 s ∧
      s.cancelled = true ∧ s.spc ≠ .ended ∧ ∀ r o, Ev.onFinish r o ∉ s.log := by
  refine ⟨_, { init (S := memStorage) demoCfg ⟨List.replicate 10 0, 0, 0, 0⟩ with cancelled := true },
    ⟨rfl, _, rfl, rfl⟩, .step .refl trivial (a := .cancel) rfl, rfl, by simp [init], by simp [init]⟩

/-- C19 holds as long as nobody cancels, and the stream is not dropped with
`cancel_on_drop` set: then the wait ends only after the task has, including its
`on_finish` hook. -/
theorem C19_waits_for_the_task_partial {S : Storage} {c : Cfg} {st : S.σ} {s : Sys S}
    (h : Reach c (fun _ a => a ≠ .cancel ∧ (a = .drop → c.cancelOnDrop = false)) (init c st) s)
    (hw : s.cancelled = true) : s.spc = .ended ∧ ∃ r o, Ev.onFinish r o ∈ s.log := by
  have hend : s.spc = .ended := by
    revert hw
    refine Reach.inv (P := fun s => s.cancelled = true → s.spc = .ended) h (by simp [init]) ?_
    intro s s' a ih hg ht
    cases ht <;> simp_all <;> grind
  obtain ⟨r, o, h1, -⟩ := C10_failure_is_recorded h hend
  exact ⟨hend, r, o, h1⟩

example : ∃ s0 s : Sys memStorage, Starts memProvider demoCfg s0 ∧
    Reach demoCfg (fun _ a => a ≠ .cancel ∧ (a = .drop → demoCfg.cancelOnDrop = false)) s0 s ∧
    s.cancelled = true := by
  obtain ⟨s0, s, h1, h2, h3⟩ := exists_of_runG (P := memProvider) (c := demoCfg)
    (g := fun _ a => decide (a ≠ .cancel ∧ a ≠ .drop))
    (G := fun _ a => a ≠ .cancel ∧ (a = .drop → demoCfg.cancelOnDrop = false))
    (fun s a h => by
      have := of_decide_eq_true h
      exact ⟨this.1, fun hd => absurd hd this.2⟩)
    { buf := List.replicate 10 0, written := 0, rp := 0, wp := 0 }
    ([.chunk 10] ++ srcs 6 ++ [.eof] ++ srcs 6)
    (fun s => s.cancelled) rfl rfl (by decide +kernel)
  exact ⟨s0, s, h1, h2, h3⟩

end SD
