import Verif.Proof.Sys.ReaderPanic
import Verif.Props.ShortAny
import Verif.Props.Panic
import Verif.Props.Wake

/-!
# Property C91: `read` and `seek` do not panic

C39 is about the download task and C29 about the memory storage alone.  Here the calls of the consumer are looked at:
a panic there unwinds the thread that reads.  In Rust no buffer has 2^63 bytes or more, so the hypotheses on buffer
lengths always hold; the ones on the number of bytes read keep positions below 2^64.
-/

namespace SD

/-! ### Disagreements -/

/-- C91 fails for memory storage: the consumer seeks beyond the end of a stream of unknown length, which the library
accepts, and reads. -/
theorem C91_read_panics_violated :
    ∃ s0 s : Sys memStorage, Starts memProvider cfgUnknown s0 ∧
      Reach cfgUnknown (fun s a => Honest s a ∧ NonEmpty s a) s0 s ∧ Ev.seekRet 12 (.ok 12) ∈ s.log ∧
      s.log.head? = some (Ev.readRet 12 4 false .panic) ∧ s.rpc = .panicked := by
  obtain ⟨s0, s, h1, h2, h3⟩ := exists_of_runG (P := memProvider) (c := cfgUnknown)
    (g := fun s a => honestB s a && decide (a ≠ .chunk 0)) (G := fun s a => Honest s a ∧ NonEmpty s a)
    (fun s a h => by
      rw [Bool.and_eq_true] at h; exact ⟨honest_of h.1, of_decide_eq_true (p := a ≠ .chunk 0) h.2⟩) demoMem0
    ([.chunk 10] ++ srcs 6 ++ [.seek (.start 12)] ++ rdrs 3 ++ [.eof] ++ srcs 2 ++ rdrs 3 ++ [.read 4] ++ rdrs 7)
    (fun s => decide (Ev.seekRet 12 (.ok 12) ∈ s.log ∧ s.log.head? = some (Ev.readRet 12 4 false .panic) ∧
      s.rpc = .panicked)) rfl rfl (by decide +kernel)
  exact ⟨s0, s, h1, h2, of_decide_eq_true h3⟩

/-- C91 fails for bounded storage in builds with overflow checks: a seek forward within what is stored, and one back. -/
theorem C91_seek_back_panics_violated :
    ∃ s0 s : Sys (bndStorage true memStorage), Starts (bndProvider true memProvider 10) cfgB20 s0 ∧
      Reach cfgB20 (fun s a => Honest s a ∧ NonEmpty s a) s0 s ∧ RSet.get s.dl 1 = some (0, 4) ∧
      s.log.head? = some (Ev.seekRet 1 .panic) ∧ s.rpc = .panicked := by
  obtain ⟨s0, s, h1, h2, h3⟩ := exists_of_runG (P := bndProvider true memProvider 10) (c := cfgB20)
    (g := fun s a => honestB s a && decide (a ≠ .chunk 0)) (G := fun s a => Honest s a ∧ NonEmpty s a)
    (fun s a h => by
      rw [Bool.and_eq_true] at h; exact ⟨honest_of h.1, of_decide_eq_true (p := a ≠ .chunk 0) h.2⟩) demoBnd10
    ([.chunk 4] ++ srcs 6 ++ [.seek (.start 3)] ++ rdrs 2 ++ [.seek (.start 1)] ++ rdrs 2)
    (fun s => decide (RSet.get s.dl 1 = some (0, 4) ∧ s.log.head? = some (Ev.seekRet 1 .panic) ∧
      s.rpc = .panicked)) rfl rfl (by decide +kernel)
  exact ⟨s0, s, h1, h2, of_decide_eq_true h3⟩

/-- C91 fails for any storage in builds with overflow checks: a relative seek whose target is not a position at all,
where an error is to be expected. -/
theorem C91_seek_overflow_panics_violated :
    ∃ s0 s s' : Sys tmpStorage, Starts tmpProvider demoCfg s0 ∧
      Reach demoCfg (fun s a => Honest s a ∧ NonEmpty s a) s0 s ∧ delivered s.log = [1] ∧
      step demoCfg s (.seek (.current (two63 - 1))) = some s' ∧ s'.rpc = .panicked := by
  obtain ⟨s0, s, h1, h2, h3⟩ := exists_of_runG (P := tmpProvider) (c := demoCfg)
    (g := fun s a => honestB s a && decide (a ≠ .chunk 0)) (G := fun s a => Honest s a ∧ NonEmpty s a)
    (fun s a h => by
      rw [Bool.and_eq_true] at h; exact ⟨honest_of h.1, of_decide_eq_true (p := a ≠ .chunk 0) h.2⟩) emptyTmp
    ([.chunk 4] ++ srcs 6 ++ [.read 1] ++ rdrs 4)
    (fun s => decide (delivered s.log = [1]) &&
      (step demoCfg s (.seek (.current (two63 - 1)))).any fun (s' : Sys tmpStorage) => decide (s'.rpc = .panicked)) rfl rfl
    (by decide +kernel)
  rw [Bool.and_eq_true] at h3
  obtain ⟨s', h4, h5⟩ := of_any h3.2
  exact ⟨s0, s, s', h1, h2, of_decide_eq_true h3.1, h4, of_decide_eq_true h5⟩

/-! ### What holds -/

variable {P : Provider} {c : Cfg}

/-- **C91** for consumers that do not seek: with every storage of the library, whatever the transport does, no `read`
panics. -/
theorem C91_reads_do_not_panic_partial (hP : Supported c.contentLength P) {s0 s : Sys P.S} (h0 : Starts P c s0)
    (h : Reach c (fun s a => NoSeek s a ∧ ∀ n, a = .read n → n < two63) s0 s)
    (hfew : (delivered s.log).length < two63) : s.rpc ≠ .panicked := by
  obtain ⟨GP⟩ := supported_gentle hP
  obtain ⟨PP⟩ := supported_positional hP
  have := (reader_calm (B := two63) GP PP (fun s a (hg : NoSeek s a ∧ ∀ n, a = .read n → n < two63) =>
    ⟨fun _ => hg.1, fun n hn => Nat.le_of_lt (hg.2 n hn), fun f _ hf => absurd hf (hg.1 f),
      fun f hf => absurd hf (hg.1 f)⟩) h0 h).calm
  intro hp
  have := this hp
  simp only [two63, two64] at *
  omega

/-- **C91** for known lengths and storage that keeps everything: whatever the transport does and wherever the consumer
seeks, no `read` and no `seek` panics, if the additions in `seek` do not overflow or the build does not check for
that. -/
theorem C91_known_length_partial (hP : Unbounded c.contentLength P) {N : Nat} (hN : c.contentLength = some N)
    {s0 s : Sys P.S} (h0 : Starts P c s0)
    (h : Reach c (fun s a => (∀ n, a = .read n → n < two63) ∧
      ∀ f, a = .seek f → c.checks = false ∨ c.absolute (P.S.tell s.st).1 f ≠ .panic) s0 s)
    (hfew : N + (delivered s.log).length < two63) : s.rpc ≠ .panicked := by
  obtain ⟨GP⟩ := keeps_gentle hP
  obtain ⟨PP⟩ := keeps_positional hP
  have := (reader_calm (B := two63) GP PP (fun s a (hg : (∀ n, a = .read n → n < two63) ∧
      ∀ f, a = .seek f → c.checks = false ∨ c.absolute (P.S.tell s.st).1 f ≠ .panic) =>
    ⟨fun h => by simp at h, fun n hn => Nat.le_of_lt (hg.1 n hn),
      fun f p _ _ => by rw [hN]; exact normalize_le_length hN p,
      fun f hf => (hg.2 f hf).elim (fun hc => absolute_unchecked hc _ f) id⟩) h0 h).calm
  intro hp
  have := this hp
  rw [hN] at this
  simp only [two63, two64, Option.getD_some] at *
  omega

/-- **C91** for bounded storage in builds without overflow checks, with known and with unknown lengths: reads and
seeks (to positions up to some `N`) do not panic, whatever the transport does. -/
theorem C91_bounded_unchecked_partial {F : Provider} {bufferSize N : Nat}
    (hF : Sparing (some (Bnd.sizeFor bufferSize c.contentLength)) F) (hc : c.checks = false)
    {s0 s : Sys (bndStorage false F.S)} (h0 : Starts (bndProvider false F bufferSize) c s0)
    (h : Reach c (fun (s : Sys (bndStorage false F.S)) a => (∀ n, a = .read n → n < two63) ∧
      ∀ f p, a = .seek f → c.absolute ((bndStorage false F.S).tell s.st).1 f = .ok p → c.normalize p ≤ N) s0 s)
    (hfew : N + (delivered s.log).length < two63) : s.rpc ≠ .panicked := by
  obtain ⟨Q, hQ⟩ := bnd_gentle false bufferSize c.contentLength N hF
  obtain ⟨PP⟩ := windowed_positional (.bounded c.contentLength false F bufferSize hF)
  have := (reader_calm (P := bndProvider false F bufferSize) (B := two63) ⟨Q, fun h => hQ h⟩ PP
    (fun s a (hg : (∀ n, a = .read n → n < two63) ∧
      ∀ f p, a = .seek f → c.absolute ((bndStorage false F.S).tell s.st).1 f = .ok p → c.normalize p ≤ N) =>
    ⟨fun h => by simp at h, fun n hn => Nat.le_of_lt (hg.1 n hn), fun f p hf hp => hg.2 f p hf hp,
      fun f hf => absolute_unchecked hc _ f⟩) h0 h).calm
  intro hp
  have := this hp
  simp only [two63, two64] at *
  omega

/-- **C91** for temp files, with known and with unknown lengths: reads and seeks (to positions up to some `N`) do not
panic, whatever the transport does, if the additions in `seek` do not overflow or the build does not check for that. -/
theorem C91_temp_file_partial {N : Nat} {s0 s : Sys tmpStorage} (h0 : Starts tmpProvider c s0)
    (h : Reach c (fun (s : Sys tmpStorage) a => (∀ n, a = .read n → n < two63) ∧ ∀ f, a = .seek f →
      (c.checks = false ∨ c.absolute (tmpStorage.tell s.st).1 f ≠ .panic) ∧
      ∀ p, c.absolute (tmpStorage.tell s.st).1 f = .ok p → c.normalize p ≤ N) s0 s)
    (hfew : N + (delivered s.log).length < two63) : s.rpc ≠ .panicked := by
  obtain ⟨PP⟩ := keeps_positional (eager := true) (blank := false) (.temp c.contentLength)
  have := (reader_calm (P := tmpProvider) (B := two63) ⟨tmpGentle N, fun _ => trivial⟩ PP
    (fun s a (hg : (∀ n, a = .read n → n < two63) ∧ ∀ f, a = .seek f →
      (c.checks = false ∨ c.absolute (tmpStorage.tell s.st).1 f ≠ .panic) ∧
      ∀ p, c.absolute (tmpStorage.tell s.st).1 f = .ok p → c.normalize p ≤ N) =>
    ⟨fun h => by simp at h, fun n hn => Nat.le_of_lt (hg.1 n hn), fun f p hf hp => (hg.2 f hf).2 p hp,
      fun f hf => ((hg.2 f hf).1).elim (fun hc => absolute_unchecked hc _ f) id⟩) h0 h).calm
  intro hp
  have := this hp
  simp only [two63, two64] at *
  omega

/-- **C91** for HTTP: whatever the server answers, the reads of a consumer that does not seek do not panic. -/
theorem C91_any_server_partial (hP : Supported c.contentLength P)
    {mime : Text → Option (Text × Text)} {answer : Answer} {w0 w : HSys P.S} (h0 : HStarts P c mime answer w0)
    (h : HReach c (fun _ => True) (fun w a => HNoSeek w a ∧ ∀ n, a = .sys (.read n) → n < two63) w0 w)
    (hfew : (delivered w.sys.log).length < two63) : w.sys.rpc ≠ .panicked := by
  obtain ⟨ρ, t, h1, h2⟩ := any_server_reach h0 h
  refine C91_reads_do_not_panic_partial (c := c.tape ρ) (s := w.sys.tape t) hP h1 (Reach.mono (fun s x hx => ?_) h2) hfew
  obtain ⟨-, w, a, ha, hax⟩ := hx
  refine ⟨fun f e => ?_, fun n e => ?_⟩
  · subst e; cases hax; exact ha.1 f rfl
  · subst e; cases hax; exact ha.2 n rfl

variable {R : Source}

/-- **C90, C91.** Whatever the source does, the reads of a consumer that does not seek do not panic. -/
theorem C90_reads_do_not_panic (hP : Supported c.contentLength P) {w0 w : XSys R P.S}
    (h0 : Starts P c w0.sys) {h : List (XSys R P.S × XAct R)} (hh : Hist (xstep R c) w0 h w)
    (hp : ∀ x ∈ h, Polite x.1 x.2) (hs : ∀ x ∈ h, XNoSeek x.1 x.2) (hn : ∀ x ∈ h, ∀ n, x.2 = .sys (.read n) → n < two63)
    (hfew : (delivered w.sys.log).length < two63) : w.sys.rpc ≠ .panicked := by
  obtain ⟨ρ, t, -, h1, -, -, -, h2⟩ := any_source_hist h0 hh hp
  refine C91_reads_do_not_panic_partial (c := c.tape ρ) (s := w.sys.tape t) hP h1 (Reach.mono (fun s x hx => ?_) h2) hfew
  obtain ⟨-, w, a, ha, hax⟩ := hx
  refine ⟨fun f e => ?_, fun n e => ?_⟩
  · subst e; cases hax; exact hs _ ha f rfl
  · subst e; cases hax; exact hn _ ha n rfl

/-- **C90, C91.** If the length is known, the storage keeps everything and the build does not check for overflows, no
`read` and no `seek` panics, whatever the source does and wherever the consumer seeks. -/
theorem C90_seeks_do_not_panic_partial (hP : Unbounded c.contentLength P) {N : Nat} (hN : c.contentLength = some N)
    (hc : c.checks = false) {w0 w : XSys R P.S} (h0 : Starts P c w0.sys) {h : List (XSys R P.S × XAct R)}
    (hh : Hist (xstep R c) w0 h w) (hp : ∀ x ∈ h, Polite x.1 x.2) (hn : ∀ x ∈ h, ∀ n, x.2 = .sys (.read n) → n < two63)
    (hfew : N + (delivered w.sys.log).length < two63) : w.sys.rpc ≠ .panicked := by
  obtain ⟨ρ, t, -, h1, -, -, -, h2⟩ := any_source_hist h0 hh hp
  refine C91_known_length_partial (c := c.tape ρ) (s := w.sys.tape t) hP hN h1
    (Reach.mono (fun s x hx => ⟨fun n e => ?_, fun _ _ => .inl hc⟩) h2) hfew
  obtain ⟨-, w, a, ha, hax⟩ := hx
  subst e; cases hax; exact hn _ ha n rfl

/-! ### Histories that meet the hypotheses -/

def smallB (_ : Sys S) (a : Act) : Bool := match a with | .read n => decide (n < two63) | _ => true

theorem small_of {s : Sys S} {a : Act} (h : smallB s a = true) : ∀ n, a = .read n → n < two63 := by
  intro n e
  subst e
  exact of_decide_eq_true h

/-- Reads up to the end of the file and beyond it, with memory storage of unknown length. -/
example : ∃ s0 s : Sys memStorage, Supported cfgUnknown.contentLength memProvider ∧ Starts memProvider cfgUnknown s0 ∧
    Reach cfgUnknown (fun s a => NoSeek s a ∧ ∀ n, a = .read n → n < two63) s0 s ∧
    (delivered s.log).length < two63 ∧ Ev.readRet 0 8 false (.ok [1, 2, 3]) ∈ s.log ∧
    s.log.head? = some (Ev.readRet 3 4 false (.ok [])) := by
  obtain ⟨s0, s, h1, h2, h3⟩ := exists_of_runG (P := memProvider) (c := cfgUnknown)
    (g := fun s a => noSeekB s a && smallB s a) (G := fun s a => NoSeek s a ∧ ∀ n, a = .read n → n < two63)
    (fun s a h => by rw [Bool.and_eq_true] at h; exact ⟨noSeek_of h.1, small_of h.2⟩) demoMem0
    ([.chunk 3] ++ srcs 6 ++ [.eof] ++ srcs 2 ++ [.read 8] ++ rdrs 9 ++ [.read 4] ++ rdrs 6)
    (fun s => decide ((delivered s.log).length < two63 ∧ Ev.readRet 0 8 false (.ok [1, 2, 3]) ∈ s.log ∧
      s.log.head? = some (Ev.readRet 3 4 false (.ok [])))) rfl rfl (by decide +kernel)
  exact ⟨s0, s, .inl (.memory _ (by simp)), h1, h2, of_decide_eq_true h3⟩

/-- A seek to the end and reads there, with memory storage of known length. -/
example : ∃ s0 s : Sys memStorage, Unbounded demoCfg.contentLength memProvider ∧ Starts memProvider demoCfg s0 ∧
    Reach demoCfg (fun s a => (∀ n, a = .read n → n < two63) ∧
      ∀ f, a = .seek f → demoCfg.checks = false ∨ demoCfg.absolute (memStorage.tell s.st).1 f ≠ .panic) s0 s ∧
    10 + (delivered s.log).length < two63 ∧ Ev.seekRet 10 (.ok 10) ∈ s.log ∧
    s.log.head? = some (Ev.readRet 10 4 false (.ok [])) := by
  obtain ⟨s0, s, h1, h2, h3⟩ := exists_of_runG (P := memProvider) (c := demoCfg)
    (g := fun s a => smallB s a && match a with
      | .seek f => decide (demoCfg.absolute (memStorage.tell s.st).1 f ≠ .panic) | _ => true)
    (G := fun s a => (∀ n, a = .read n → n < two63) ∧
      ∀ f, a = .seek f → demoCfg.checks = false ∨ demoCfg.absolute (memStorage.tell s.st).1 f ≠ .panic)
    (fun s a h => by
      rw [Bool.and_eq_true] at h
      refine ⟨small_of h.1, fun f e => .inr ?_⟩
      subst e
      exact of_decide_eq_true h.2) demoMem10
    ([.chunk 10] ++ srcs 6 ++ [.eof] ++ srcs 2 ++ [.seek (.fromEnd 0)] ++ rdrs 6 ++ [.read 4] ++ rdrs 7)
    (fun s => decide (10 + (delivered s.log).length < two63 ∧ Ev.seekRet 10 (.ok 10) ∈ s.log ∧
      s.log.head? = some (Ev.readRet 10 4 false (.ok [])))) rfl rfl (by decide +kernel)
  exact ⟨s0, s, .memory _ (by simp), h1, h2, of_decide_eq_true h3⟩

/-- Bounded storage in a build without overflow checks: the seeks of `C91_seek_back_panics_violated`. -/
example : ∃ s0 s : Sys (bndStorage false memStorage), Sparing (some (Bnd.sizeFor 10 (some 20))) memProvider ∧
    Starts (bndProvider false memProvider 10) { cfgB20 with checks := false } s0 ∧
    Reach { cfgB20 with checks := false } (fun (s : Sys (bndStorage false memStorage)) a =>
      (∀ n, a = .read n → n < two63) ∧ ∀ f p, a = .seek f →
        ({ cfgB20 with checks := false } : Cfg).absolute ((bndStorage false memStorage).tell s.st).1 f = .ok p →
        ({ cfgB20 with checks := false } : Cfg).normalize p ≤ 20) s0 s ∧
    20 + (delivered s.log).length < two63 ∧ s.log.head? = some (Ev.seekRet 1 (.ok 1)) := by
  obtain ⟨s0, s, h1, h2, h3⟩ := exists_of_runG (P := bndProvider false memProvider 10)
    (c := { cfgB20 with checks := false }) (g := smallB)
    (G := fun (s : Sys (bndStorage false memStorage)) a => (∀ n, a = .read n → n < two63) ∧ ∀ f p, a = .seek f →
        ({ cfgB20 with checks := false } : Cfg).absolute ((bndStorage false memStorage).tell s.st).1 f = .ok p →
        ({ cfgB20 with checks := false } : Cfg).normalize p ≤ 20)
    (fun s a h => ⟨small_of h, fun f p _ _ => normalize_le_length rfl p⟩) demoBnd10
    ([.chunk 4] ++ srcs 6 ++ [.seek (.start 3)] ++ rdrs 2 ++ [.seek (.start 1)] ++ rdrs 2)
    (fun s => decide (20 + (delivered s.log).length < two63 ∧ s.log.head? = some (Ev.seekRet 1 (.ok 1)))) rfl rfl
    (by decide +kernel)
  exact ⟨s0, s, .memory _ (by simp), h1, h2, of_decide_eq_true h3⟩

/-- Temp file of unknown length: the seek of `C91_read_panics_violated`, and a read there. -/
example : ∃ s0 s : Sys tmpStorage, Starts tmpProvider cfgUnknown s0 ∧
    Reach cfgUnknown (fun (s : Sys tmpStorage) a => (∀ n, a = .read n → n < two63) ∧ ∀ f, a = .seek f →
      (cfgUnknown.checks = false ∨ cfgUnknown.absolute (tmpStorage.tell s.st).1 f ≠ .panic) ∧
      ∀ p, cfgUnknown.absolute (tmpStorage.tell s.st).1 f = .ok p → cfgUnknown.normalize p ≤ 12) s0 s ∧
    12 + (delivered s.log).length < two63 ∧ Ev.seekRet 12 (.ok 12) ∈ s.log ∧
    s.log.head? = some (Ev.readRet 12 4 false (.ok [])) := by
  obtain ⟨s0, s, h1, h2, h3⟩ := exists_of_runG (P := tmpProvider) (c := cfgUnknown)
    (g := fun s a => smallB s a && match a with | .seek f => decide (f = .start 12) | _ => true)
    (G := fun (s : Sys tmpStorage) a => (∀ n, a = .read n → n < two63) ∧ ∀ f, a = .seek f →
      (cfgUnknown.checks = false ∨ cfgUnknown.absolute (tmpStorage.tell s.st).1 f ≠ .panic) ∧
      ∀ p, cfgUnknown.absolute (tmpStorage.tell s.st).1 f = .ok p → cfgUnknown.normalize p ≤ 12)
    (fun s a h => by
      rw [Bool.and_eq_true] at h
      refine ⟨small_of h.1, fun f e => ?_⟩
      subst e
      have := of_decide_eq_true h.2
      subst this
      refine ⟨.inr (by simp [Cfg.absolute]), fun p hp => ?_⟩
      simp only [Cfg.absolute, Res.ok.injEq] at hp
      subst hp
      decide) emptyTmp
    ([.chunk 10] ++ srcs 6 ++ [.seek (.start 12)] ++ rdrs 3 ++ [.eof] ++ srcs 2 ++ rdrs 3 ++ [.read 4] ++ rdrs 7)
    (fun s => decide (12 + (delivered s.log).length < two63 ∧ Ev.seekRet 12 (.ok 12) ∈ s.log ∧
      s.log.head? = some (Ev.readRet 12 4 false (.ok [])))) rfl rfl (by decide +kernel)
  exact ⟨s0, s, h1, h2, of_decide_eq_true h3⟩

/-- The server that lies. -/
example : ∃ w0 w : HSys tmpStorage, HStarts tmpProvider cfg20 (fun _ => none) liar w0 ∧
    HReach cfg20 (fun _ => True) (fun w a => HNoSeek w a ∧ ∀ n, a = .sys (.read n) → n < two63) w0 w ∧
    (delivered w.sys.log).length = 20 := by
  let w0 : HSys tmpStorage := { sys := init (S := tmpStorage) cfg20 emptyTmp, http := stream20 headers20 (some 20) }
  obtain ⟨w, h1, h2⟩ := of_any (o := hrun (fun w a => hguardB w a && smallB w.sys a) cfg20 liar w0
      (liarHist ++ [.read 30] ++ rdrs 2))
    (p := fun w : HSys tmpStorage => decide ((delivered w.sys.log).length = 20)) (by decide +kernel)
  refine ⟨w0, w, ⟨liar_new, rfl, rfl, rfl, emptyTmp, rfl, rfl⟩,
    hreach_hrun trivial (fun w a (h : (hguardB w a && smallB w.sys a) = true) => ?_) _ .refl h1, of_decide_eq_true h2⟩
  rw [Bool.and_eq_true] at h
  exact ⟨(hguard_of h.1).1, fun n e => small_of h.2 n (by cases a <;> first | (cases e; rfl) | cases e)⟩

def xSmallB (x : XSys R S × XAct R) : Bool := match x.2 with | .sys (.read n) => decide (n < two63) | _ => true

theorem xSmall_of {x : XSys R S × XAct R} (h : xSmallB x = true) : ∀ n, x.2 = .sys (.read n) → n < two63 := by
  intro n e
  simp only [xSmallB, e] at h
  exact of_decide_eq_true h

/-- The hypotheses of `C90_reads_do_not_panic`. -/
example : ∃ (w0 w : XSys puppet tmpStorage) (h : List (XSys puppet tmpStorage × XAct puppet)),
    Starts tmpProvider { cfg20 with contentLength := none } w0.sys ∧
      Hist (xstep puppet { cfg20 with contentLength := none }) w0 h w ∧ (∀ x ∈ h, Polite x.1 x.2) ∧
      (∀ x ∈ h, XNoSeek x.1 x.2) ∧ (∀ x ∈ h, ∀ n, x.2 = .sys (.read n) → n < two63) ∧
      delivered w.sys.log = [9, 9, 5, 4, 3] := by
  let w0 : XSys puppet tmpStorage :=
    { sys := init (S := tmpStorage) { cfg20 with contentLength := none } emptyTmp, src := () }
  obtain ⟨h, w, h1, -, h2⟩ := exists_hist' (f := xstep puppet { cfg20 with contentLength := none }) (w0 := w0) shortActs
    (fun h w => h.all (fun x => politeB x.1 x.2 && xSmallB x) && decide (xSeekCalls h = 0 ∧
      delivered w.sys.log = [9, 9, 5, 4, 3])) (by decide +kernel)
  simp only [Bool.and_eq_true, List.all_eq_true, decide_eq_true_eq] at h2
  obtain ⟨h3, h4, h5⟩ := h2
  refine ⟨w0, w, h, ⟨rfl, emptyTmp, rfl, rfl⟩, h1, fun x hx => polite_of (h3 x hx).1, fun x hx f e => ?_,
    fun x hx => xSmall_of (h3 x hx).2, h5⟩
  simp only [xSeekCalls, List.countP_eq_zero] at h4
  have := h4 x hx
  rw [e] at this
  exact this rfl

/-- The hypotheses of `C90_seeks_do_not_panic_partial`: two bytes arrive, and the consumer seeks to the second one, reads
it and asks for a position that does not exist, which wraps around. -/
example : ∃ (w0 w : XSys puppet tmpStorage) (h : List (XSys puppet tmpStorage × XAct puppet)),
    Starts tmpProvider { cfg20 with checks := false } w0.sys ∧
      Hist (xstep puppet { cfg20 with checks := false }) w0 h w ∧ (∀ x ∈ h, Polite x.1 x.2) ∧
      (∀ x ∈ h, ∀ n, x.2 = .sys (.read n) → n < two63) ∧ Ev.readRet 1 1 true (.ok [8]) ∈ w.sys.log ∧
      w.sys.rpc ≠ .idle := by
  let w0 : XSys puppet tmpStorage :=
    { sys := init (S := tmpStorage) { cfg20 with checks := false } emptyTmp, src := () }
  obtain ⟨h, w, h1, -, h2⟩ := exists_hist' (f := xstep puppet { cfg20 with checks := false }) (w0 := w0)
    ([.poll (.chunk [9, 8])] ++ asys (srcs 6 ++ [.seek (.start 1)] ++ rdrs 2 ++ [.read 1] ++ rdrs 4 ++
      [.seek (.current (two63 - 1))]))
    (fun h w => h.all (fun x => politeB x.1 x.2 && xSmallB x) && decide (Ev.readRet 1 1 true (.ok [8]) ∈ w.sys.log ∧
      w.sys.rpc ≠ .idle)) (by decide +kernel)
  simp only [Bool.and_eq_true, List.all_eq_true, decide_eq_true_eq] at h2
  obtain ⟨h3, h4, h5⟩ := h2
  exact ⟨w0, w, h, ⟨rfl, emptyTmp, rfl, rfl⟩, h1, fun x hx => polite_of (h3 x hx).1,
    fun x hx => xSmall_of (h3 x hx).2, h4, h5⟩

end SD
