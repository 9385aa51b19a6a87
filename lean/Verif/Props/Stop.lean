import Verif.Proof.Sys.Stop
import Verif.Props.Wake

/-!
# Property C18: dropping the stream ends the download task
-/

set_option linter.unusedVariables false

namespace SD

/-- C18 fails with bounded storage: the buffer is full and the task sleeps until the
consumer reads; the consumer drops the stream; the cancellation is requested, but the
task never wakes up to see it. -/
theorem C18_drop_ends_task_violated :
    ∃ s0 s : Sys (bndStorage true memStorage), Starts (bndProvider true memProvider 4) cfgBounded s0 ∧
      Reach cfgBounded (fun s a => Honest s a ∧ NoSeek s a) s0 s ∧ cfgBounded.cancelOnDrop = true ∧
      s.rpc = .dropped ∧ s.cancelled = true ∧ s.spc ≠ .ended ∧ Forever cfgBounded s := by
  obtain ⟨s0, s, h1, h2, h3⟩ := exists_of_runG (P := bndProvider true memProvider 4) (c := cfgBounded)
    (g := fun s a => honestB s a && noSeekB s a) (G := fun s a => Honest s a ∧ NoSeek s a)
    (fun s a h => by
      rw [Bool.and_eq_true] at h; exact ⟨honest_of h.1, noSeek_of h.2⟩) demoBnd4
    ([.chunk 4] ++ srcs 3 ++ [.chunk 2] ++ srcs 4 ++ [.drop])
    (fun s => decide (s.spc = .wWait 4 2 [5, 6] ∧ s.permit = false ∧ s.rpc = .dropped ∧ s.cancelled = true))
    rfl rfl (by decide +kernel)
  obtain ⟨h4, h5, h6, h7⟩ := of_decide_eq_true h3
  refine ⟨s0, s, h1, h2, rfl, h6, h7, by rw [h4]; simp, ?_⟩
  intro s' hs
  obtain ⟨e1, e2, e3⟩ := Deadlock.forever ⟨⟨_, _, _, h4⟩, h5, .inl h6⟩ hs
  exact ⟨e2, e1, e3⟩

/-- C18 for every storage of the crate: after a drop there is a bound on the number of
steps that can follow, if the `select!` of the task picks the cancellation; and until it
has ended, the task can go on, unless it waits for the source to answer a request, has
panicked (C39), or sleeps because the buffer is full. -/
theorem C18_drop_ends_task_partial {P : Provider} {c : Cfg} (hP : Supported c.contentLength P)
    (hcd : c.cancelOnDrop = true) {s0 s : Sys P.S} (h0 : Starts P c s0) (h : Reach c Any s0 s)
    (hd : s.rpc = .dropped) :
    ∃ N, ∀ n s', Within c Prompt s n s' → n ≤ N ∧
      (s'.spc = .ended ∨ AwaitsSource s' ∨ TaskCanGo c s' ∨ s'.spc = .panicked ∨ Paused c s') := by
  obtain ⟨PP⟩ := supported_positional hP
  have hc : s.cancelled = true := by
    obtain ⟨-, st, -, rfl⟩ := h0
    exact dropped_cancelled hcd h hd
  refine ⟨leftOf s, fun n s' hw => ?_⟩
  obtain ⟨h1, h2, h3, h4, -⟩ := within_left PP h0 h hd hc hw
  refine ⟨by omega, ?_⟩
  rcases can_go (Q := PP.pos) (c := c) h3 with h | h | h | h | h <;> simp [h]

/-- C18 for storage that keeps everything, if no empty chunk was received (C39): the task
ends as soon as the source has answered. -/
theorem C18_drop_ends_task_unbounded_partial {P : Provider} {c : Cfg} (hP : Unbounded c.contentLength P)
    (hb : c.batchSize ≠ 0) (hcd : c.cancelOnDrop = true) {s0 s : Sys P.S} (h0 : Starts P c s0)
    (h : Reach c NonEmpty s0 s) (hd : s.rpc = .dropped) :
    ∃ N, ∀ n s', Within c Prompt s n s' → n ≤ N ∧
      (s'.spc = .ended ∨ AwaitsSource s' ∨ TaskCanGo c s') := by
  obtain ⟨PP⟩ := supported_positional (P := P) (.inl hP)
  have hc : s.cancelled = true := by
    obtain ⟨-, st, -, rfl⟩ := h0
    exact dropped_cancelled hcd h hd
  refine ⟨leftOf s, fun n s' hw => ?_⟩
  obtain ⟨h1, h2, h3, h4, h5⟩ := within_left PP h0 h hd hc hw
  refine ⟨by omega, ?_⟩
  rcases can_go (Q := PP.pos) (c := c) h3 with h | h | h | h | h
  · simp [h]
  · refine absurd h (C39_no_panic_unbounded_partial hP hb h0 (h5 NonEmpty (fun _ _ h => h) ?_ ?_))
    · rintro s a - (rfl | rfl) <;> simp [NonEmpty]
    · intro s a _ h; exact h
  · simp [h]
  · exact absurd h (C14_unbounded_never_pauses hP hb h0 h4)
  · simp [h]

/-- C18: without `cancel_on_drop`, a drop does nothing to the download. -/
theorem C18_drop_without_cancel {P : Provider} {c : Cfg} (hcd : c.cancelOnDrop = false)
    {s s' : Sys P.S} (h : step c s .drop = some s') : s' = { s with rpc := .dropped } := by
  have ht := tr_of_step h
  generalize ha : Act.drop = a at ht
  cases ht <;> simp_all

/-- A drop while a chunk is being written; the task then ends. -/
example : ∃ s0 s : Sys memStorage, Starts memProvider demoCfg s0 ∧ Reach demoCfg NonEmpty s0 s ∧
    s.rpc = .dropped ∧ s.spc = .wWrite 0 4 [1, 2, 3, 4] 0 := by
  obtain ⟨s0, s, h1, h2, h3⟩ := exists_of_runG (P := memProvider) (c := demoCfg)
    (g := fun s a => decide (a ≠ .chunk 0)) (G := NonEmpty) (fun s a h => of_decide_eq_true (p := a ≠ .chunk 0) h)
    demoMem10 ([.chunk 4] ++ srcs 1 ++ [.drop])
    (fun s => decide (s.rpc = .dropped ∧ s.spc = .wWrite 0 4 [1, 2, 3, 4] 0)) rfl rfl (by decide +kernel)
  obtain ⟨h4, h5⟩ := of_decide_eq_true h3
  exact ⟨s0, s, h1, h2, h4, h5⟩

example : ∃ s0 s : Sys memStorage, Starts memProvider demoCfg s0 ∧ Reach demoCfg Any s0 s ∧
    s.rpc = .dropped ∧ s.spc = .ended := by
  obtain ⟨s0, s, h1, h2, h3⟩ := exists_of_run (P := memProvider) (c := demoCfg)
    demoMem10 ([.chunk 4] ++ srcs 1 ++ [.drop] ++ srcs 5 ++ [.seeCancel] ++ srcs 4)
    (fun s => decide (s.rpc = .dropped ∧ s.spc = .ended)) rfl rfl (by decide +kernel)
  obtain ⟨h4, h5⟩ := of_decide_eq_true h3
  exact ⟨s0, s, h1, h2, h4, h5⟩

end SD
