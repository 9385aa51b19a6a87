import Verif.Proof.Abort
import Verif.Props.Reads
import Verif.Props.Wake

/-!
# Property C74: the runtime is shut down during the download

The results of calls stay right, and what has been downloaded can still be read.
A call that has to wait never returns, and neither does `wait_for_completion`.
-/

set_option linter.unusedVariables false

namespace SD

/-! ### Restrictions that do not look at the task -/

section
variable {S : Storage}

theorem independent_any : Independent (Any (S := S)) := fun _ _ _ _ _ => trivial

theorem Independent.and {G G' : Sys S → Act → Prop} (h : Independent G) (h' : Independent G') :
    Independent (fun s a => G s a ∧ G' s a) :=
  fun s a p ha hg => ⟨h s a p ha hg.1, h' s a p ha hg.2⟩

theorem independent_honest : Independent (Honest (S := S)) := by
  intro s a p ha h
  refine ⟨fun _ _ _ e => ?_, fun _ _ e => ?_⟩ <;> (intros; subst_vars; cases ha)

theorem independent_noSeek : Independent (NoSeek (S := S)) := fun s a p ha h => h

theorem independent_delivers (c : Cfg) : Independent (Delivers (S := S) c) := by
  intro s a p ha h e
  subst e; cases ha

theorem independent_clean : Independent (CleanReconnect (S := S)) := by
  intro s a p ha h pos e
  subst e; cases ha

end

/-! ### What still holds -/

/-- C74: whatever happens before and after a shutdown of the runtime, there is a history
without a shutdown after which everything but the place of the task is the same: the
results of all calls, the storage, what is recorded as downloaded, and where in a call
the consumer is. -/
theorem C74_same_results {S : Storage} {c : Cfg} {G : Sys S → Act → Prop} (hG : Independent G) {s0 s : Sys S}
    (h : BReach c G s0 s) : ∃ s1, Reach c G s0 s1 ∧ { s1 with spc := s.spc } = s := by
  rcases breach_sim hG h with h | ⟨e, p, h⟩
  · exact ⟨s, h, rfl⟩
  · exact ⟨_, h, rfl⟩

/-- C74: with a shutdown at any moment, reading in sequence returns exactly the remote bytes
(C01). -/
theorem C74_sequential_unbounded {P : Provider} {c : Cfg} (hP : Unbounded c.contentLength P)
    (hb : c.batchSize ≠ 0) (hlen : c.LengthHonest) (hk : c.KeepsErrors) {s0 s : Sys P.S} (h0 : Starts P c s0)
    (h : BReach c (fun s a => Honest s a ∧ NoSeek s a ∧ Delivers c s a) s0 s) :
    delivered s.log = slice c.remote 0 (delivered s.log).length := by
  obtain ⟨s1, h1, e⟩ := C74_same_results (independent_honest.and (independent_noSeek.and (independent_delivers c))) h
  have e1 : s1.log = s.log := by rw [← e]
  rw [← e1]
  exact C01_sequential_unbounded_partial hP hb hlen hk h0 h1

/-- C74: the same with bounded storage. -/
theorem C74_sequential_bounded {P : Provider} {c : Cfg} (hP : Windowed c.contentLength P)
    {s0 s : Sys P.S} (h0 : Starts P c s0)
    (h : BReach c (fun s a => Honest s a ∧ NoSeek s a ∧ CleanReconnect s a) s0 s) :
    delivered s.log = slice c.remote 0 (delivered s.log).length := by
  obtain ⟨s1, h1, e⟩ := C74_same_results (independent_honest.and (independent_noSeek.and independent_clean)) h
  have e1 : s1.log = s.log := by rw [← e]
  rw [← e1]
  exact C01_sequential_bounded hP h0 h1

/-- C74: with a shutdown at any moment, a read of bytes that have all been downloaded does not
wait: it returns in two steps of its own, with exactly these bytes. -/
theorem C74_downloaded_can_be_read {P : Provider} {c : Cfg} (hP : Unbounded c.contentLength P)
    (hb : c.batchSize ≠ 0) (hlen : c.LengthHonest) {s0 s : Sys P.S} (h0 : Starts P c s0)
    (h : BReach c Honest s0 s) {n : Nat} (hr : s.rpc = .rDecide n)
    (hov : (P.S.tell s.st).1 + n < two64) (hpos : RSet.Mem s.dl (P.S.tell s.st).1)
    (hall : ∀ q, (P.S.tell s.st).1 ≤ q → q < c.normalize ((P.S.tell s.st).1 + n) → RSet.Mem s.dl q) :
    ∃ s1 s2 pos, bstep c s (.act .rdr) = some s1 ∧ bstep c s1 (.act .rdr) = some s2 ∧
      s2.log = .readRet pos n true (.ok (slice c.remote pos (c.normalize (pos + n) - pos))) :: s.log := by
  obtain ⟨t, h1, e⟩ := C74_same_results independent_honest h
  have ht : t.sp s.spc = s := e
  have e1 : t.rpc = s.rpc := by rw [← ht]; rfl
  have e2 : t.st = s.st := by rw [← ht]; rfl
  have e3 : t.dl = s.dl := by rw [← ht]; rfl
  have e4 : t.log = s.log := by rw [← ht]; rfl
  rw [← e1] at hr
  rw [← e2] at hov
  rw [← e2, ← e3] at hpos hall
  have hstep : ∃ t1, step c t .rdr = some t1 := by
    simp only [step, rdrStep, hr]
    repeat' split
    all_goals exact ⟨_, rfl⟩
  obtain ⟨t1, hs1⟩ := hstep
  have hr1 := C02_recorded_range_does_not_wait hP hb hlen h0 h1 hr hov hpos hall hs1
  have hl1 : t1.log = t.log := by
    have := tr_of_step hs1
    cases this <;> simp_all
  have h2 := h1.step (a := .rdr) ⟨fun _ _ _ _ e => (nomatch e), fun _ _ _ e => (nomatch e)⟩ hs1
  have hstep : ∃ t2 res, step c t1 .rdr = some t2 ∧
      t2.log = .readRet (P.S.tell t1.st).1 n true res :: t1.log := by
    simp only [step, rdrStep, hr1]
    split
    all_goals exact ⟨_, _, rfl, rfl⟩
  obtain ⟨t2, res, hs2, hl2⟩ := hstep
  have h3 := h2.step (a := .rdr) ⟨fun _ _ _ _ e => (nomatch e), fun _ _ _ e => (nomatch e)⟩ hs2
  have hres := C02_unblocked_read_exact hP hb hlen h0 h3 (pos := (P.S.tell t1.st).1) (len := n) (res := res)
    (by rw [hl2]; exact List.mem_cons_self)
  refine ⟨t1.sp s.spc, t2.sp s.spc, (P.S.tell t1.st).1, ?_, ?_, ?_⟩
  · rw [← ht]
    show step c (t.sp s.spc) .rdr = _
    rw [sp_user rfl, hs1]; rfl
  · show step c (t1.sp s.spc) .rdr = _
    rw [sp_user rfl, hs2]; rfl
  · show t2.log = _
    rw [hl2, hres, hl1, e4]

/-! ### What does not -/

theorem dropped_stays {S : Storage} {c : Cfg} {G : Sys S → Act → Prop} {s s' : Sys S} (h : BReach c G s s')
    (hs : s.spc = .panicked) : s'.spc = .panicked := by
  induction h with
  | refl => exact hs
  | act _ _ hst ih =>
    have hu := gone_user ih hst
    rename_i s1 s2 a _ _
    have h3 : s1.sp .panicked = s1 := by rw [← ih]; rfl
    have h2 := sp_user (c := c) (s := s1) hu .panicked
    rw [h3, show step c s1 a = some s2 from hst] at h2
    simp only [Option.map_some, Option.some.injEq] at h2
    rw [h2]; rfl
  | shutdown _ hst ih => simp [bstep, ih, SrcPc.suspended] at hst

/-- C74: once the runtime is shut down, a call that waits never returns. -/
theorem C74_waits_for_ever {S : Storage} {c : Cfg} {s s1 s2 : Sys S} (hs : bstep c s .shutdown = some s1)
    (h : BReach c Any s1 s2) (hw : (∃ n, BlockedRead c s2 n) ∨ ∃ p, BlockedSeek c s2 p) : NeverReturns c s2 := by
  have hp : s1.spc = .panicked := by
    simp only [bstep] at hs
    split at hs
    · simp only [Option.some.injEq] at hs; subst hs; rfl
    · cases hs
  have h2 := dropped_stays h hp
  intro s3 h3
  have key : (((∃ n r, s3.rpc = .rWait n r) ∨ ∃ p, s3.rpc = .sWait p) ∧ s3.done = false ∧ s3.reached = false) ∧
      s3.rpc = s2.rpc ∧ s3.log = s2.log := by
    induction h3 with
    | refl =>
      refine ⟨?_, rfl, rfl⟩
      rcases hw with ⟨n, hw⟩ | ⟨p, hw⟩
      · obtain ⟨⟨r, e⟩, e1, e2⟩ := blockedRead_iff.mp hw; exact ⟨.inl ⟨_, _, e⟩, e1, e2⟩
      · obtain ⟨e, e1, e2⟩ := blockedSeek_iff.mp hw; exact ⟨.inr ⟨_, e⟩, e1, e2⟩
    | act hr _ hst ih =>
      obtain ⟨⟨h4, h5, h6⟩, h7, h8⟩ := ih
      have h9 := dropped_stays hr h2
      have ht := tr_of_step hst
      cases ht <;> first | (exfalso; grind) | exact ⟨⟨h4, h5, h6⟩, h7, h8⟩
    | shutdown hr hst ih =>
      have h9 := dropped_stays hr h2
      simp [bstep, h9, SrcPc.suspended] at hst
  exact key.2

/-- C74: the shutdown does not release a call that waits, so it never returns. -/
theorem C74_not_released {S : Storage} {c : Cfg} {s s1 : Sys S} (hs : bstep c s .shutdown = some s1)
    (hw : (∃ n, BlockedRead c s n) ∨ ∃ p, BlockedSeek c s p) :
    ((∃ n, BlockedRead c s1 n) ∨ ∃ p, BlockedSeek c s1 p) ∧ NeverReturns c s1 := by
  have h1 : (∃ n, BlockedRead c s1 n) ∨ ∃ p, BlockedSeek c s1 p := by
    simp only [bstep] at hs
    split at hs
    · simp only [Option.some.injEq] at hs
      subst hs
      simp only [blockedRead_iff, blockedSeek_iff] at hw ⊢
      exact hw
    · cases hs
  exact ⟨h1, C74_waits_for_ever hs .refl h1⟩

/-- C74: once the runtime is shut down and nobody has cancelled, `wait_for_completion` (which
waits until the token is cancelled) never returns unless somebody cancels. -/
theorem C74_completion_not_reported {S : Storage} {c : Cfg} {s s1 s2 : Sys S} (hs : bstep c s .shutdown = some s1)
    (hc : s.cancelled = false)
    (h : BReach c (fun _ a => a ≠ .cancel ∧ (a = .drop → c.cancelOnDrop = false)) s1 s2) : s2.cancelled = false := by
  have hp : s1.spc = .panicked ∧ s1.cancelled = false := by
    simp only [bstep] at hs
    split at hs
    · simp only [Option.some.injEq] at hs; subst hs; exact ⟨rfl, hc⟩
    · cases hs
  induction h with
  | refl => exact hp.2
  | act hr hg hst ih =>
    have h9 := dropped_stays hr hp.1
    have ht := tr_of_step hst
    cases ht <;> first | (exfalso; grind) | simp_all
  | shutdown hr hst ih =>
    simp [bstep, dropped_stays hr hp.1, SrcPc.suspended] at hst

/-- Actions of the system. -/
def bacts (as : List Act) : List BAct := as.map .act

/-- Run a list of actions. -/
def brun {S : Storage} (g : Sys S → Act → Bool) (c : Cfg) : Sys S → List BAct → Option (Sys S)
  | s, [] => some s
  | s, .shutdown :: as =>
    match bstep c s .shutdown with
    | some s' => brun g c s' as
    | none => none
  | s, .act a :: as =>
    if g s a then
      match bstep c s (.act a) with
      | some s' => brun g c s' as
      | none => none
    else none

theorem breach_brun {S : Storage} {g : Sys S → Act → Bool} {G : Sys S → Act → Prop} {c : Cfg}
    (hg : ∀ s a, g s a = true → G s a) {as : List BAct} {s0 s1 s : Sys S} (h1 : BReach c G s0 s1)
    (h : brun g c s1 as = some s) : BReach c G s0 s := by
  induction as generalizing s1 with
  | nil => simp only [brun, Option.some.injEq] at h; subst h; exact h1
  | cons a as ih =>
    cases a with
    | shutdown =>
      simp only [brun] at h
      split at h
      · next t2 e => exact ih (h1.shutdown e) h
      · cases h
    | act a =>
      simp only [brun] at h
      split at h
      · next hga =>
        split at h
        · next t2 e => exact ih (h1.act (hg _ _ hga) e) h
        · cases h
      · cases h

/-- C74 fails: with an honest source, a consumer that waits for the rest of the file when the
runtime is shut down sleeps for ever, and `wait_for_completion` never returns; a second
call, `seek`, made after the shutdown, sleeps for ever as well. -/
theorem C74_waiting_call_returns_violated :
    (∃ s0 s s1 : Sys memStorage, Starts memProvider demoCfg s0 ∧ Reach demoCfg Honest s0 s ∧
      bstep demoCfg s .shutdown = some s1 ∧ BlockedRead demoCfg s1 8 ∧ NeverReturns demoCfg s1 ∧
      s1.cancelled = false ∧ delivered s1.log = []) ∧
    (∃ s0 s s1 s2 : Sys memStorage, Starts memProvider demoCfg s0 ∧ Reach demoCfg Honest s0 s ∧
      bstep demoCfg s .shutdown = some s1 ∧ BReach demoCfg Honest s1 s2 ∧ BlockedSeek demoCfg s2 6 ∧
      NeverReturns demoCfg s2 ∧ delivered s2.log = [1, 2, 3, 4]) := by
  constructor
  · obtain ⟨s0, s, h1, h2, h3⟩ := exists_of_runG (P := memProvider) (c := demoCfg) (g := fun s a => honestB s a)
      (G := Honest) (fun s a h => honest_of h) demoMem10 ([.read 8] ++ rdrs 3 ++ [.chunk 4] ++ srcs 6)
      (fun s => decide (s.rpc = .rWait 8 8 ∧ s.done = false ∧ s.reached = false ∧ s.cancelled = false ∧
        delivered s.log = [] ∧ s.spc = .sel)) rfl rfl (by decide +kernel)
    obtain ⟨a1, a2, a3, a4, a5, a6⟩ := of_decide_eq_true h3
    have hs : bstep demoCfg s .shutdown = some { s with spc := .panicked } := by simp [bstep, a6, SrcPc.suspended]
    have hb : BlockedRead demoCfg { s with spc := .panicked } 8 := blockedRead_iff.mpr ⟨⟨_, a1⟩, a2, a3⟩
    exact ⟨s0, s, _, h1, h2, hs, hb, C74_waits_for_ever hs .refl (.inl ⟨_, hb⟩), a4, a5⟩
  · have h := exists_of_runG (P := memProvider) (c := demoCfg) (g := fun s a => honestB s a)
      (G := Honest) (fun s a h => honest_of h) demoMem10 ([.chunk 4] ++ srcs 6)
      (fun s => (bstep demoCfg s .shutdown).any fun s1 =>
        (brun (fun s a => honestB s a) demoCfg s1
          (bacts ([.read 4] ++ rdrs 4 ++ [.seek (.start 6)] ++ rdrs 3))).any fun s2 =>
          decide (s2.rpc = .sWait 6 ∧ s2.done = false ∧ s2.reached = false ∧ delivered s2.log = [1, 2, 3, 4]))
      rfl rfl (by decide +kernel)
    obtain ⟨s0, s, h1, h2, h3⟩ := h
    obtain ⟨s1, b1, h4⟩ := of_any h3
    obtain ⟨s2, b2, h5⟩ := of_any h4
    obtain ⟨a1, a2, a3, a4⟩ := of_decide_eq_true h5
    have hr : BReach demoCfg Honest s1 s2 := breach_brun (fun s a h => honest_of h) .refl b2
    have hb : BlockedSeek demoCfg s2 6 := blockedSeek_iff.mpr ⟨a1, a2, a3⟩
    exact ⟨s0, s, s1, s2, h1, h2, b1, hr, hb,
      C74_waits_for_ever b1 (breach_brun (fun _ _ _ => trivial) .refl b2) (.inr ⟨_, hb⟩), a4⟩

/-- The hypotheses of the positive theorems: a shutdown while the task waits for a chunk, and
reads of what has been downloaded afterwards. -/
example : ∃ s0 s : Sys memStorage, Starts memProvider demoCfg s0 ∧
    BReach demoCfg (fun s a => Honest s a ∧ NoSeek s a ∧ Delivers demoCfg s a) s0 s ∧ s.spc = .panicked ∧
    s.rpc = .rDecide 3 ∧ s.dl = [(0, 6)] ∧ (memStorage.tell s.st).1 = 3 ∧ delivered s.log = [1, 2, 3] := by
  obtain ⟨s, h1, h2⟩ := of_any (o := brun (fun s a => honestB s a && (noSeekB s a && deliversB demoCfg s a)) demoCfg
      (init (S := memStorage) demoCfg demoMem10)
      (bacts ([.chunk 6] ++ srcs 6) ++ [.shutdown] ++ bacts ([.read 3] ++ rdrs 4 ++ [.read 3])))
    (p := fun s => decide (s.spc = .panicked ∧ s.rpc = .rDecide 3 ∧ s.dl = [(0, 6)] ∧
      (memStorage.tell s.st).1 = 3 ∧ delivered s.log = [1, 2, 3])) (by decide +kernel)
  refine ⟨_, s, ⟨rfl, _, rfl, rfl⟩, breach_brun (fun s a h => ?_) .refl h1, of_decide_eq_true h2⟩
  rw [Bool.and_eq_true, Bool.and_eq_true] at h
  exact ⟨honest_of h.1, noSeek_of h.2.1, delivers_of h.2.2⟩

end SD
