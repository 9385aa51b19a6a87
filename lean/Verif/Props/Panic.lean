import Verif.Props.Task

/-!
# Property C39: the download task does not panic
-/

set_option linter.unusedVariables false

namespace SD

/-- C39 fails for an empty chunk that arrives before anything is stored (no prefetch
configured): the progress report computes `position - 1` at position 0. -/
theorem C39_no_panic_violated_empty_chunk :
    ∃ s0 s : Sys memStorage, Starts memProvider demoCfg s0 ∧ Reach demoCfg Honest s0 s ∧
      s.spc = .panicked := by
  obtain ⟨s0, s, h1, h2, h3⟩ := exists_of_runG (P := memProvider) (c := demoCfg)
    (g := fun s a => honestB s a) (G := Honest) (fun s a h => honest_of h) demoMem10
    [.chunk 0, .src] (fun s => decide (s.spc = .panicked)) rfl rfl (by decide +kernel)
  exact ⟨s0, s, h1, h2, of_decide_eq_true h3⟩

/-- The reader is then left waiting: it is blocked, the download is not marked as over,
and nothing but a call to cancel is possible any more. -/
theorem C39_panic_leaves_reader_blocked :
    ∃ s0 s : Sys memStorage, Starts memProvider demoCfg s0 ∧ Reach demoCfg Honest s0 s ∧
      s.spc = .panicked ∧ (∃ n r, s.rpc = .rWait n r) ∧
      ∀ a s', step demoCfg s a = some s' → a = .cancel := by
  obtain ⟨s0, s, h1, h2, h3⟩ := exists_of_runG (P := memProvider) (c := demoCfg)
    (g := fun s a => honestB s a) (G := Honest) (fun s a h => honest_of h) demoMem10
    ([.read 4] ++ rdrs 3 ++ [.chunk 0, .src])
    (fun s => decide (s.spc = .panicked ∧ s.rpc = .rWait 4 4 ∧ s.done = false ∧ s.reached = false))
    rfl rfl (by decide +kernel)
  obtain ⟨h4, h5, h6, h7⟩ := of_decide_eq_true h3
  refine ⟨s0, s, h1, h2, h4, ⟨_, _, h5⟩, ?_⟩
  intro a s' hs
  have ht := tr_of_step hs
  cases ht <;> simp_all

/-- 20 bytes, seekable, through a bounded storage of 10. -/
def cfgB20 : Cfg := { demoCfg with contentLength := some 20, remoteLen := some 20, capacity := some 10 }

/-- Bounded storage of size 10 over memory. -/
def demoBnd10 : Bnd memStorage :=
  { inner := { buf := List.replicate 10 0, written := 0, rp := 0, wp := 0 }
    read := 0, written := 0, rp := 0, wp := 0, size := 10 }

/-- C39 also fails without empty chunks: bounded storage, a forward seek within the
capacity, and a gap to fill before it; the writer's own count of written bytes
underflows (a panic in builds with overflow checks). -/
theorem C39_no_panic_violated_writer_seek :
    ∃ s0 s : Sys (bndStorage true memStorage), Starts (bndProvider true memProvider 10) cfgB20 s0 ∧
      Reach cfgB20 (fun s a => Honest s a ∧ NonEmpty s a) s0 s ∧ s.spc = .panicked := by
  obtain ⟨s0, s, h1, h2, h3⟩ := exists_of_runG (P := bndProvider true memProvider 10) (c := cfgB20)
    (g := fun s a => honestB s a && decide (a ≠ .chunk 0))
    (G := fun s a => Honest s a ∧ NonEmpty s a)
    (fun s a h => by
      rw [Bool.and_eq_true] at h; exact ⟨honest_of h.1, of_decide_eq_true (p := a ≠ .chunk 0) h.2⟩) demoBnd10
    ([.chunk 1] ++ srcs 6 ++ [.seek (.start 8)] ++ rdrs 3 ++ [.recvSeek, .src, .seekOk 8, .chunk 1] ++
      srcs 3 ++ [.eof, .src, .seekOk 1])
    (fun s => decide (s.spc = .panicked)) rfl rfl (by decide +kernel)
  exact ⟨s0, s, h1, h2, of_decide_eq_true h3⟩

theorem no_panic {P : Provider} {c : Cfg} (PP : PositionalProvider P c.contentLength)
    {G : Sys P.S → Act → Prop} (hG : ∀ s a, G s a → NonEmpty s a) {s0 s : Sys P.S}
    (h0 : Starts P c s0) (h : Reach c G s0 s)
    (hw : ∀ s bs, Reach c G s0 s → P.S.write s.st bs ≠ .panic)
    (hsk : ∀ s start stop, Reach c G s0 s → s.spc = .seeking start stop → P.S.wseek s.st start ≠ .panic) :
    s.spc ≠ .panicked := by
  induction h with
  | refl => obtain ⟨-, st, -, rfl⟩ := h0; simp [init]
  | @step s s' a hr hg hs ih =>
    intro hp
    rcases tr_panic (tr_of_step hs) ih hp with ⟨bs, h1⟩ | ⟨start, stop, h1, h2⟩ | ⟨l, h1, h2⟩
    · exact hw s bs hr h1
    · exact hsk s start stop hr h1 h2
    · obtain ⟨h3, h4⟩ := (RepOk.reach PP hG h0 hr).rep l h1
      rcases h2 with h2 | h2
      · exact h3 h2
      · exact RSet.get_none_iff.mp h2 h4

theorem keeps_no_panic {eager : Bool} {P : Provider} {c : Cfg} (hP : Keeps eager false c.contentLength P)
    (hb : c.batchSize ≠ 0) {s0 s : Sys P.S} (h0 : Starts P c s0) (h : Reach c NonEmpty s0 s) :
    s.spc ≠ .panicked := by
  obtain ⟨LP, hTot, -⟩ := keeps_lawful hP
  obtain ⟨PP⟩ := keeps_positional hP
  refine no_panic PP (fun _ _ h => h) h0 h ?_ ?_
  · intro s bs hr hp
    obtain ⟨W, hi⟩ := (Keep.reach hb LP h0 hr).inv
    obtain ⟨r, h1⟩ := hTot.write_total (bs := bs) hi
    rw [h1] at hp; simp at hp
  · intro s start stop hr _ hp
    obtain ⟨W, hi⟩ := (Keep.reach hb LP h0 hr).inv
    obtain ⟨r, h1⟩ := hTot.wseek_total (p := start) hi
    rw [h1] at hp; simp at hp

/-- C39 for storage that keeps everything: in every history without empty chunks, the
task does not panic.  Missing: empty chunks. -/
theorem C39_no_panic_unbounded_partial {P : Provider} {c : Cfg} (hP : Unbounded c.contentLength P)
    (hb : c.batchSize ≠ 0) {s0 s : Sys P.S} (h0 : Starts P c s0) (h : Reach c NonEmpty s0 s) :
    s.spc ≠ .panicked :=
  keeps_no_panic hP hb h0 h

theorem unseekable_src {S : Storage} {c : Cfg} (hss : c.supportsSeek = false) {G : Sys S → Act → Prop}
    {st : S.σ} {s : Sys S} (h : Reach c G (init c st) s) : ∀ start stop, s.spc ≠ .seeking start stop := by
  refine Reach.inv (P := fun s => ∀ start stop, s.spc ≠ .seeking start stop) h (by simp [init]) ?_
  intro s s' a h1 _ ht
  cases ht <;> grind [shouldSeek, roundPc, startPc]

/-- C39 for storage that keeps a window and sources that cannot seek: in every history
without empty chunks, with arbitrary seeks of the consumer, the task does not panic. -/
theorem C39_no_panic_windowed_partial {P : Provider} {c : Cfg} (hP : Windowed c.contentLength P)
    (hss : c.supportsSeek = false) {s0 s : Sys P.S} (h0 : Starts P c s0) (h : Reach c NonEmpty s0 s) :
    s.spc ≠ .panicked := by
  obtain ⟨RP⟩ := windowed_ring hP
  obtain ⟨PP⟩ := windowed_positional hP
  refine no_panic PP (fun _ _ h => h) h0 h ?_ ?_
  · intro s bs hr hp
    exact RP.ring.write_safe (bs := bs) (ring_reach RP h0 hr).1 hp
  · intro s start stop hr h1
    obtain ⟨-, st, -, rfl⟩ := h0
    exact absurd h1 (unseekable_src hss hr start stop)

/-- C39 for storage that keeps a window and consumers that do not seek. -/
theorem C39_no_panic_windowed_sequential_partial {P : Provider} {c : Cfg}
    (hP : Windowed c.contentLength P) {s0 s : Sys P.S} (h0 : Starts P c s0)
    (h : Reach c (fun s a => NonEmpty s a ∧ Honest s a ∧ NoSeek s a ∧ CleanReconnect s a) s0 s) :
    s.spc ≠ .panicked := by
  obtain ⟨RP⟩ := windowed_ring hP
  obtain ⟨PP⟩ := windowed_positional hP
  obtain ⟨LP⟩ := windowed_lawful hP
  refine no_panic PP (fun _ _ h => h.1) h0 h ?_ ?_
  · intro s bs hr hp
    exact RP.ring.write_safe (bs := bs) (ring_reach RP h0 hr).1 hp
  · intro s start stop hr h1 hp
    obtain ⟨W, hW⟩ := Win.reach LP (fun s a hg => ⟨hg.2.1, hg.2.2.2, fun _ => hg.2.2.1⟩) h0 hr
    obtain ⟨e, -⟩ := hW.seq.seekAt start stop h1
    have h2 := RP.ring.wseek_here (ring_reach RP h0 hr).1
    rw [← e] at h2
    exact h2 hp

/-- C39 for bounded storage in builds without overflow checks: in every history without
empty chunks, including seeks on seekable sources, the task does not panic. -/
theorem C39_no_panic_unchecked_partial {F : Provider} {bufferSize : Nat} {c : Cfg}
    (hF : Sparing (some (Bnd.sizeFor bufferSize c.contentLength)) F)
    {s0 s : Sys (bndStorage false F.S)} (h0 : Starts (bndProvider false F bufferSize) c s0)
    (h : Reach c NonEmpty s0 s) : s.spc ≠ .panicked := by
  obtain ⟨LF, TF, -⟩ := keeps_lawful hF
  let RP := bndRingProvider false bufferSize c.contentLength LF TF (keeps_read_le hF)
  obtain ⟨PP⟩ := windowed_positional (.bounded c.contentLength false F bufferSize hF)
  refine no_panic PP (fun _ _ h => h) h0 h ?_ ?_
  · intro s bs hr hp
    exact RP.ring.write_safe (bs := bs) (ring_reach RP h0 hr).1 hp
  · intro s start stop hr _ hp
    exact RP.ring.wseek_safe rfl (p := start) (ring_reach RP h0 hr).1 hp

/-- A history for the theorems above that goes through every part of the task. -/
example : ∃ s0 s : Sys memStorage, Starts memProvider cfg20 s0 ∧ Reach cfg20 NonEmpty s0 s ∧
    s.spc = .seeking 15 (some 8) := by
  obtain ⟨s0, s, h1, h2, h3⟩ := exists_of_runG (P := memProvider) (c := cfg20)
    (g := fun s a => decide (a ≠ .chunk 0)) (G := NonEmpty) (fun s a h => of_decide_eq_true (p := a ≠ .chunk 0) h) demoMem20
    threeSeeks (fun s => decide (s.spc = .seeking 15 (some 8))) rfl rfl (by decide +kernel)
  exact ⟨s0, s, h1, h2, of_decide_eq_true h3⟩

/-- And one for bounded storage, with a full buffer. -/
example : ∃ s0 s : Sys (bndStorage true memStorage), Starts (bndProvider true memProvider 4) cfgBounded s0 ∧
    Reach cfgBounded (fun s a => NonEmpty s a ∧ Honest s a ∧ NoSeek s a ∧ CleanReconnect s a) s0 s ∧
    s.spc = .wWait 4 4 [5, 6, 7, 8] := by
  obtain ⟨s0, s, h1, h2, h3⟩ := exists_of_runG (P := bndProvider true memProvider 4) (c := cfgBounded)
    (g := fun s a => decide (a ≠ .chunk 0) && honestB s a && noSeekB s a && cleanB s a)
    (G := fun s a => NonEmpty s a ∧ Honest s a ∧ NoSeek s a ∧ CleanReconnect s a)
    (fun s a h => by
      simp only [Bool.and_eq_true] at h
      exact ⟨of_decide_eq_true (p := a ≠ .chunk 0) h.1.1.1, honest_of h.1.1.2, noSeek_of h.1.2, clean_of h.2⟩)
    demoBnd4
    ([.chunk 6] ++ srcs 3 ++ [.chunk 2] ++ srcs 4)
    (fun s => decide (s.spc = .wWait 4 4 [5, 6, 7, 8])) rfl rfl (by decide +kernel)
  exact ⟨s0, s, h1, h2, of_decide_eq_true h3⟩

end SD
