import Verif.Spec.Wait
import Verif.Proof.Sys.Wake
import Verif.Props.Panic

/-!
# Properties C14, C15, C16, C26: back-pressure
-/

set_option linter.unusedVariables false

namespace SD

theorem paused_iff {S : Storage} {c : Cfg} {s : Sys S} :
    Paused c s ↔ (∃ p l t, s.spc = .wWait p l t) ∧ s.permit = false := by
  constructor
  · rintro ⟨⟨p, l, t, h1⟩, h2⟩
    refine ⟨⟨p, l, t, h1⟩, ?_⟩
    by_contra h3
    simp [step, srcStep, h1, h3] at h2
  · rintro ⟨⟨p, l, t, h1⟩, h2⟩
    exact ⟨⟨p, l, t, h1⟩, by simp [step, srcStep, h1, h2]⟩

theorem blockedRead_iff {S : Storage} {c : Cfg} {s : Sys S} {n : Nat} :
    BlockedRead c s n ↔ (∃ r, s.rpc = .rWait n r) ∧ s.done = false ∧ s.reached = false := by
  constructor
  · rintro ⟨⟨r, h1⟩, h2⟩
    refine ⟨⟨r, h1⟩, ?_⟩
    cases h3 : s.done <;> cases h4 : s.reached <;> simp [step, rdrStep, h1, h3, h4] at h2 ⊢
  · rintro ⟨⟨r, h1⟩, h2, h3⟩
    exact ⟨⟨r, h1⟩, by simp [step, rdrStep, h1, h2, h3]⟩

theorem blockedSeek_iff {S : Storage} {c : Cfg} {s : Sys S} {p : Nat} :
    BlockedSeek c s p ↔ s.rpc = .sWait p ∧ s.done = false ∧ s.reached = false := by
  constructor
  · rintro ⟨h1, h2⟩
    refine ⟨h1, ?_⟩
    cases h3 : s.done <;> cases h4 : s.reached <;> simp [step, rdrStep, h1, h3, h4] at h2 ⊢
  · rintro ⟨h1, h2, h3⟩
    exact ⟨h1, by simp [step, rdrStep, h1, h2, h3]⟩

/-! ### C14 -/

/-- C14, for every storage and every history: if the task sleeps when a `read` ends or
goes to sleep, the task is woken. -/
theorem C14_read_wakes_task {P : Provider} {c : Cfg} {s0 s s' : Sys P.S} (h0 : Starts P c s0)
    (h : Reach c Any s0 s) (hs : step c s .rdr = some s')
    (hr : (s.rpc = .rSwap ∨ s.rpc = .rWake) ∧ s'.rpc = .idle ∨ ∃ n r, s'.rpc = .rWait n r) :
    ¬ Paused c s' := by
  rw [paused_iff]
  rintro ⟨⟨p, l, t, h1⟩, h2⟩
  obtain ⟨-, st, -, rfl⟩ := h0
  have ha := asked_reach h
  have ht := tr_of_step hs
  cases ht <;> grind [SrcPc.inRound]

/-- C14, without seeks: if the consumer is between two calls and the task sleeps, the
storage is full: nothing can be written. -/
theorem C14_paused_means_full {P : Provider} {c : Cfg} (hP : Windowed c.contentLength P)
    (hb : c.batchSize ≠ 0) {s0 s : Sys P.S} (h0 : Starts P c s0) (h : Reach c NoSeek s0 s)
    (hi : s.rpc = .idle) (hp : Paused c s) : Takes0 s := by
  obtain ⟨RP⟩ := windowed_ring hP
  have hf := FullPause.reach hb RP h0 h
  obtain ⟨⟨p, l, t, h1⟩, h2⟩ := paused_iff.mp hp
  have h3 := hf (by rw [h1]; rfl)
  simp only [hi, h2] at h3
  intro bs k st' hw
  have := (RP.ring.write (ring_reach RP h0 h).1 hw).2.1
  rcases h3 with h3 | h3 | h3 | h3
  · omega
  · simp at h3
  · simp at h3
  · simp at h3

theorem keeps_never_pauses {eager : Bool} {P : Provider} {c : Cfg} (hP : Keeps eager false c.contentLength P)
    (hb : c.batchSize ≠ 0) {s0 s : Sys P.S} (h0 : Starts P c s0) (h : Reach c Any s0 s) :
    ¬ Paused c s := by
  rintro ⟨⟨p, l, t, h1⟩, -⟩
  obtain ⟨LP, -, -⟩ := keeps_lawful hP
  have := (Keep.reach hb LP h0 h).ok
  simp [h1, SrcPc.fullOk] at this

/-- Storage that keeps everything never makes the task sleep. -/
theorem C14_unbounded_never_pauses {P : Provider} {c : Cfg} (hP : Unbounded c.contentLength P)
    (hb : c.batchSize ≠ 0) {s0 s : Sys P.S} (h0 : Starts P c s0) (h : Reach c Any s0 s) :
    ¬ Paused c s :=
  keeps_never_pauses hP hb h0 h

/-! ### C15 -/

theorem no_mutual_wait {b : Bool} {P : Provider} {c : Cfg} (RP : RingProvider P c.contentLength b)
    (hb : c.batchSize ≠ 0) (hbs : RP.bufferSize ≠ 0) {s0 s : Sys P.S} (h0 : Starts P c s0)
    (h : Reach c Any s0 s) {n : Nat} (hn : c.excessiveRead n = false → n ≤ RP.bufferSize)
    (hmax : c.normalize ((P.S.tell s.st).1 + n) ≠ two64 - 1)
    (hr : BlockedRead c s n) (hw : Paused c s) : False := by
  obtain ⟨⟨p, l, t, h1⟩, h2⟩ := paused_iff.mp hw
  obtain ⟨⟨r, h3⟩, h4, h5⟩ := blockedRead_iff.mp hr
  obtain ⟨⟨hok, hsz⟩, hW⟩ := Wake.reach hb RP h0 h
  obtain ⟨e1, e2⟩ := hW.rd n r (by rw [h3]; rfl)
  have e3 := hW.zero (by rw [h1]; rfl)
  have et := (RP.ring.tell hok).1
  rw [et] at hmax
  have e4 := hW.last n r p l t h3 h1 h2 h5 h4 (by rw [e1]; exact hmax)
  have e5 := hn e2
  rw [hsz] at e3
  simp only [h2, h3] at e3
  have e6 : Bnd.sizeFor RP.bufferSize c.contentLength ≤ P.S.wtell s.st - RP.ring.rp s.st := by
    rcases e3 with e3 | e3 | e3 | ⟨-, e3⟩
    · exact e3
    · simp at e3
    · simp at e3
    · exact absurd rfl (e3 n r)
  rw [e1] at e4
  unfold Cfg.normalize at e4
  cases hc : c.contentLength with
  | none => simp only [hc, Bnd.sizeFor] at e4 e6; omega
  | some N => simp only [hc, Bnd.sizeFor] at e4 e6; omega

/-- C15 for bounded storage, in every history (with any seeks): a read that is accepted
and sleeps, and a sleeping download task, do not wait for each other.  The buffer size
is not zero in the code; the end of the read is not the last `u64`, which the code uses
as a marker. -/
theorem C15_no_mutual_wait_bounded {F : Provider} {checks : Bool} {bufferSize : Nat} {c : Cfg}
    (hF : Sparing (some (Bnd.sizeFor bufferSize c.contentLength)) F)
    (hb : c.batchSize ≠ 0) (hbs : bufferSize ≠ 0)
    {s0 s : Sys (bndStorage checks F.S)} (h0 : Starts (bndProvider checks F bufferSize) c s0)
    (h : Reach c Any s0 s) {n : Nat}
    (hmax : c.normalize (((bndStorage checks F.S).tell s.st).1 + n) ≠ two64 - 1) :
    ¬ (BlockedRead c s n ∧ Paused c s) := by
  rintro ⟨h1, h2⟩
  obtain ⟨LF, TF, -⟩ := keeps_lawful hF
  refine no_mutual_wait (bndRingProvider checks bufferSize c.contentLength LF TF (keeps_read_le hF))
    hb hbs h0 h ?_ hmax h1 h2
  intro he
  have := h0.1
  simp only [Cfg.excessiveRead, this] at he
  exact Nat.le_of_not_lt (of_decide_eq_false he)

theorem adaptive_ring {F V : Provider} {bufferSize : Nat} (checks : Bool) (hF : Sparing (some bufferSize) F) :
    ∃ RP : RingProvider (adpProvider checks F V bufferSize) none false, RP.bufferSize = bufferSize := by
  obtain ⟨LF, TF, -⟩ := keeps_lawful hF
  let R := adpRing checks V.S (bndRing checks LF.law TF (keeps_read_le hF))
  refine ⟨⟨{ R with wseek_safe := by simp }, bufferSize, fun n h => by simp at h, ?_⟩, rfl⟩
  intro s h
  simp only [Adp.mk?] at h
  split at h <;> try (simp at h; done)
  next t ht =>
  simp only [Res.ok.injEq] at h; subst h
  simp only [Bnd.mk?] at ht
  split at ht <;> try (simp at ht; done)
  next i hc =>
  simp only [Res.ok.injEq] at ht; subst ht
  exact ⟨⟨_, (LF.create_ok hc).1⟩, rfl, rfl, rfl⟩

/-- C15 for adaptive storage and unknown length, for reads that fit the buffer (larger
ones are not rejected: C26). -/
theorem C15_no_mutual_wait_adaptive {F V : Provider} {checks : Bool} {bufferSize : Nat} {c : Cfg}
    (hF : Sparing (some bufferSize) F) (hcl : c.contentLength = none)
    (hb : c.batchSize ≠ 0) (hbs : bufferSize ≠ 0)
    {s0 s : Sys (adpStorage checks F.S V.S)} (h0 : Starts (adpProvider checks F V bufferSize) c s0)
    (h : Reach c Any s0 s) {n : Nat} (hn : n ≤ bufferSize)
    (hmax : ((adpStorage checks F.S V.S).tell s.st).1 + n ≠ two64 - 1) :
    ¬ (BlockedRead c s n ∧ Paused c s) := by
  rintro ⟨h1, h2⟩
  obtain ⟨RP, e⟩ : ∃ RP : RingProvider (adpProvider checks F V bufferSize) c.contentLength false,
      RP.bufferSize = bufferSize := by rw [hcl]; exact adaptive_ring checks hF
  refine no_mutual_wait RP hb (by omega) h0 h (fun _ => by omega) ?_ h1 h2
  simpa [Cfg.normalize, hcl] using hmax

/-- C15 for storage that keeps everything, in every history. -/
theorem C15_no_mutual_wait_unbounded {P : Provider} {c : Cfg} (hP : Unbounded c.contentLength P)
    (hb : c.batchSize ≠ 0) {s0 s : Sys P.S} (h0 : Starts P c s0) (h : Reach c Any s0 s) (n : Nat) :
    ¬ (BlockedRead c s n ∧ Paused c s) :=
  fun ⟨_, h2⟩ => C14_unbounded_never_pauses hP hb h0 h h2

/-- Histories of these theorems in which the task sleeps: one in which the buffer is full,
and one, with a seek, in which a read that was blocked has just woken the task. -/
example : ∃ s0 s : Sys (bndStorage true memStorage), Starts (bndProvider true memProvider 4) cfgBounded s0 ∧
    Reach cfgBounded NoSeek s0 s ∧ s.rpc = .idle ∧ Paused cfgBounded s := by
  obtain ⟨s0, s, h1, h2, h3⟩ := exists_of_runG (P := bndProvider true memProvider 4) (c := cfgBounded)
    (g := fun s a => noSeekB s a) (G := NoSeek) (fun s a h => noSeek_of h) demoBnd4
    ([.chunk 4] ++ srcs 3 ++ [.read 4] ++ rdrs 3 ++ [.chunk 6] ++ srcs 9)
    (fun s => decide (s.spc = .wWait 4 6 [9, 10] ∧ s.permit = false ∧ s.rpc = .idle)) rfl rfl (by decide +kernel)
  obtain ⟨h4, h5, h6⟩ := of_decide_eq_true h3
  exact ⟨s0, s, h1, h2, h6, paused_iff.mpr ⟨⟨_, _, _, h4⟩, h5⟩⟩

example : ∃ s0 s : Sys (bndStorage true memStorage), Starts (bndProvider true memProvider 4) cfgBounded s0 ∧
    Reach cfgBounded Any s0 s ∧ (∃ p l t, s.spc = .wWait p l t) ∧ BlockedRead cfgBounded s 4 := by
  obtain ⟨s0, s, h1, h2, h3⟩ := exists_of_run (P := bndProvider true memProvider 4) (c := cfgBounded)
    demoBnd4 ([.chunk 4] ++ srcs 3 ++ [.chunk 2] ++ srcs 4 ++ [.seek (.start 3)] ++ rdrs 2 ++ [.read 4] ++ rdrs 4)
    (fun s => decide (s.spc = .wWait 4 2 [5, 6] ∧ s.rpc = .rWait 4 7 ∧ s.done = false ∧ s.reached = false))
    rfl rfl (by decide +kernel)
  obtain ⟨h4, h5, h6, h7⟩ := of_decide_eq_true h3
  exact ⟨s0, s, h1, h2, ⟨_, _, _, h4⟩, blockedRead_iff.mpr ⟨⟨_, h5⟩, h6, h7⟩⟩

/-! ### C16 -/

/-- C16 fails: with bounded storage, the buffer is full and the task sleeps; the consumer
seeks, within the capacity, to the first position that is not downloaded; this does not
wake the task, and neither moves again. -/
theorem C16_no_mutual_wait_violated :
    ∃ s0 s : Sys (bndStorage true memStorage), Starts (bndProvider true memProvider 4) cfgBounded s0 ∧
      Reach cfgBounded Honest s0 s ∧ BlockedSeek cfgBounded s 4 ∧ Paused cfgBounded s ∧
      Forever cfgBounded s := by
  obtain ⟨s0, s, h1, h2, h3⟩ := exists_of_runG (P := bndProvider true memProvider 4) (c := cfgBounded)
    (g := fun s a => honestB s a) (G := Honest) (fun s a h => honest_of h) demoBnd4
    ([.chunk 4] ++ srcs 3 ++ [.chunk 2] ++ srcs 4 ++ [.seek (.start 4)] ++ rdrs 3)
    (fun s => decide (s.spc = .wWait 4 2 [5, 6] ∧ s.permit = false ∧ s.rpc = .sWait 4 ∧ s.done = false ∧
      s.reached = false)) rfl rfl (by decide +kernel)
  obtain ⟨h4, h5, h6, h7, h8⟩ := of_decide_eq_true h3
  refine ⟨s0, s, h1, h2, blockedSeek_iff.mpr ⟨h6, h7, h8⟩, paused_iff.mpr ⟨⟨_, _, _, h4⟩, h5⟩, ?_⟩
  intro s' hs
  obtain ⟨e1, e2, e3⟩ := Deadlock.forever ⟨⟨_, _, _, h4⟩, h5, .inr ⟨.inr ⟨_, h6⟩, h8, h7⟩⟩ hs
  exact ⟨e2, e1, e3⟩

/-- C16 for storage that keeps everything, in every history. -/
theorem C16_no_mutual_wait_unbounded_partial {P : Provider} {c : Cfg} (hP : Unbounded c.contentLength P)
    (hb : c.batchSize ≠ 0) {s0 s : Sys P.S} (h0 : Starts P c s0) (h : Reach c Any s0 s) (p : Nat) :
    ¬ (BlockedSeek c s p ∧ Paused c s) :=
  fun ⟨_, h2⟩ => C14_unbounded_never_pauses hP hb h0 h h2

/-! ### C26 -/

/-- Unknown length, no prefetch. -/
def cfgUnknown : Cfg := { demoCfg with contentLength := none, supportsSeek := false }

/-- Adaptive storage with a buffer of 4 over memory, as it is created for an unknown length. -/
def demoAdp4 : Adp memStorage memStorage := .bounded demoBnd4

/-- C26 fails: adaptive storage has no declared capacity, so a read of 5 bytes is accepted
although the buffer it picked holds 4; the reader waits for the fifth byte, the task for
the reader, and neither moves again. -/
theorem C26_oversized_read_violated :
    ∃ s0 s : Sys (adpStorage true memStorage memStorage),
      Starts (adpProvider true memProvider memProvider 4) cfgUnknown s0 ∧
      Reach cfgUnknown (fun s a => Honest s a ∧ NoSeek s a) s0 s ∧ BlockedRead cfgUnknown s 5 ∧
      Paused cfgUnknown s ∧ Forever cfgUnknown s := by
  obtain ⟨s0, s, h1, h2, h3⟩ := exists_of_runG (P := adpProvider true memProvider memProvider 4) (c := cfgUnknown)
    (g := fun s a => honestB s a && noSeekB s a) (G := fun s a => Honest s a ∧ NoSeek s a)
    (fun s a h => by
      rw [Bool.and_eq_true] at h; exact ⟨honest_of h.1, noSeek_of h.2⟩) demoAdp4
    ([.read 5] ++ rdrs 3 ++ [.chunk 6] ++ srcs 9)
    (fun s => decide (s.spc = .wWait 0 6 [5, 6] ∧ s.permit = false ∧ s.rpc = .rWait 5 5 ∧ s.done = false ∧
      s.reached = false)) rfl rfl (by decide +kernel)
  obtain ⟨h4, h5, h6, h7, h8⟩ := of_decide_eq_true h3
  refine ⟨s0, s, h1, h2, blockedRead_iff.mpr ⟨⟨_, h6⟩, h7, h8⟩, paused_iff.mpr ⟨⟨_, _, _, h4⟩, h5⟩, ?_⟩
  intro s' hs
  obtain ⟨e1, e2, e3⟩ := Deadlock.forever ⟨⟨_, _, _, h4⟩, h5, .inr ⟨.inl ⟨_, _, h6⟩, h8, h7⟩⟩ hs
  exact ⟨e2, e1, e3⟩

/-- C26 for known lengths: adaptive storage then keeps everything, no read is too large
for it, and no read and download task wait for each other. -/
theorem C26_known_length_partial {F V : Provider} {checks : Bool} {bufferSize N : Nat} {c : Cfg}
    (hcl : c.contentLength = some N) (hF : Unbounded (some N) F) (hV : Unbounded (some N) V)
    (hb : c.batchSize ≠ 0) {s0 s : Sys (adpStorage checks F.S V.S)}
    (h0 : Starts (adpProvider checks F V bufferSize) c s0) (h : Reach c Any s0 s) (n : Nat) :
    ¬ (BlockedRead c s n ∧ Paused c s) := by
  refine C15_no_mutual_wait_unbounded (P := adpProvider checks F V bufferSize) ?_ hb h0 h n
  rw [hcl]
  exact .adaptive checks F V bufferSize N hF hV

end SD
