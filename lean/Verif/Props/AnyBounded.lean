import Verif.Props.AnySource

/-!
# Properties C88 and C90 for bounded storage, and all that is known of transports
-/

namespace SD

variable {P : Provider} {c : Cfg} {R : Source}

/-- **C90.** Whatever the source does, the history is one of the system, with some resource and a transport that
resumes anywhere: the log, the storage and both parties are the same. -/
theorem C90_any_source_is_a_transport {w0 w : XSys R P.S} (h0 : Starts P c w0.sys)
    {h : List (XSys R P.S × XAct R)} (hh : Hist (xstep R c) w0 h w) (hp : ∀ x ∈ h, Polite x.1 x.2) :
    ∃ (remote : Nat → Byte) (s : Sys P.S),
      Starts P { c with remote := remote, remoteLen := none } w0.sys ∧
      Reach { c with remote := remote, remoteLen := none } NonEmpty w0.sys s ∧
      s.log = w.sys.log ∧ s.st = w.sys.st ∧ s.spc = w.sys.spc ∧ s.rpc = w.sys.rpc := by
  obtain ⟨ρ, t, -, h1, -, -, -, h2⟩ := any_source_hist h0 hh hp
  exact ⟨ρ, _, h1, Reach.mono (fun _ _ h => h.1) h2, rfl, rfl, rfl, rfl⟩

/-- A run with a source, as one of the system. -/
theorem source_exec {w0 : XSys R P.S} (h0 : Starts P c w0.sys) {r : Nat → XSys R P.S} {act : Nat → Option (XAct R)}
    (h : Run (xstep R c) w0 r act) (hp : ∀ i a, act i = some a → Polite (r i) a) :
    ∃ (ρ : Nat → Byte) (act' : Nat → Option Act) (t : Nat → Nat), Starts P (c.tape ρ) w0.sys ∧
      Exec (c.tape ρ) w0.sys (fun i => (r i).sys.tape (t i)) act' ∧
      (∀ x : Act, x.ofSource = false → FairFor (xstep R c) r act (.sys x) →
        Fair (c.tape ρ) (fun i => (r i).sys.tape (t i)) act' x) ∧
      (StronglyFair (xstep R c) r act (.sys .seeCancel) →
        StronglyFair (step (c.tape ρ)) (fun i => (r i).sys.tape (t i)) act' .seeCancel) ∧
      (∀ (x : Act) j, act j = some (.sys x) → act' j = some x) ∧
      (XKeepsDelivering r act → KeepsDelivering (fun i => (r i).sys.tape (t i)) act') := by
  obtain ⟨ρ, act', t, h1, h2, h3⟩ := any_source h hp
  obtain ⟨k1, k2, -⟩ := starts_tape (ρ := ρ) h0
  rw [k2] at h1
  obtain ⟨hen, hact⟩ := any_source_fair (c := c) (ρ := ρ) (t := t) h3
  refine ⟨ρ, act', t, k1, h1, ?_, ?_, hact, ?_⟩
  · intro x hx hf i h
    obtain ⟨j, hj, ha⟩ := hf i (fun j hj => hen x hx j (h j hj))
    exact ⟨j, hj, hact x j ha⟩
  · intro hsc hinf i
    obtain ⟨j, hj, ha⟩ := hsc (fun i => by
      obtain ⟨j, hj, h⟩ := hinf i
      exact ⟨j, hj, hen _ rfl j h⟩) i
    exact ⟨j, hj, hact _ j ha⟩
  · intro hk hw i
    obtain ⟨j, hj, e, bs, ha, hr⟩ := hk hw i
    obtain ⟨x, h4, h5⟩ := h3 j _ ha
    cases h5 with
    | chunk _ bs' hr' =>
      rw [hr] at hr'
      cases hr'
      exact ⟨j, bs.length, hj, List.length_pos_iff.mpr (hp j _ ha bs hr).1, h4⟩
    | chunkErr _ hr' => rw [hr] at hr'; cases hr'
    | eof _ hr' => rw [hr] at hr'; cases hr'

/-- A run with a server, as one of the system. -/
theorem server_exec {mime : Text → Option (Text × Text)} {answer : Answer} {w0 : HSys P.S}
    (h0 : HStarts P c mime answer w0) {r : Nat → HSys P.S} {act : Nat → Option HAct} (h : Run (hstep c) w0 r act) :
    ∃ (ρ : Nat → Byte) (act' : Nat → Option Act) (t : Nat → Nat), Starts P (c.tape ρ) w0.sys ∧
      Exec (c.tape ρ) w0.sys (fun i => (r i).sys.tape (t i)) act' ∧
      (∀ x : Act, x.ofTransport = false → FairFor (hstep c) r act (.sys x) →
        Fair (c.tape ρ) (fun i => (r i).sys.tape (t i)) act' x) ∧
      (StronglyFair (hstep c) r act (.sys .seeCancel) →
        StronglyFair (step (c.tape ρ)) (fun i => (r i).sys.tape (t i)) act' .seeCancel) ∧
      (∀ (x : Act) j, act j = some (.sys x) → act' j = some x) ∧
      (HKeepsDelivering r act → KeepsDelivering (fun i => (r i).sys.tape (t i)) act') := by
  obtain ⟨ρ, act', t, h1, h2, h3⟩ := any_server (starts_tape (ρ := fun _ => 0) h0.2.2.2).2.2 h
  obtain ⟨k1, k2, -⟩ := starts_tape (ρ := ρ) h0.2.2.2
  rw [k2] at h1
  obtain ⟨hen, hact⟩ := any_server_fair (ρ := ρ) (t := t) h h3
  refine ⟨ρ, act', t, k1, h1, ?_, ?_, hact, ?_⟩
  · intro x hx hf i h
    obtain ⟨j, hj, ha⟩ := hf i (fun j hj => hen x hx j (h j hj))
    exact ⟨j, hj, hact x j ha⟩
  · intro hsc hinf i
    obtain ⟨j, hj, ha⟩ := hsc (fun i => by
      obtain ⟨j, hj, h⟩ := hinf i
      exact ⟨j, hj, hen _ rfl j h⟩) i
    exact ⟨j, hj, hact _ j ha⟩
  · intro hk hw i
    obtain ⟨j, hj, n, ha⟩ := hk hw i
    refine ⟨j, n, hj, ?_, ?_⟩
    · have := h.next j _ ha
      simp only [hstep] at this
      split at this
      · next e => exact e.2.2.1
      · cases this
    · obtain ⟨x, h4, h5⟩ := h3 j _ ha
      cases h5
      exact h4

section
variable {F : Provider} {checks : Bool} {bufferSize : Nat}

/-- C88 for reads on bounded storage, if the task does not panic (`C88_no_panic_unchecked_partial`, C39).
Missing: `seek` calls, which need not return (C63). -/
theorem C88_reads_return_bounded_partial (hF : Sparing (some (Bnd.sizeFor bufferSize c.contentLength)) F)
    (hb : c.batchSize ≠ 0) (hbs : bufferSize ≠ 0) {mime : Text → Option (Text × Text)} {answer : Answer}
    {w0 : HSys (bndStorage checks F.S)} (h0 : HStarts (bndProvider checks F bufferSize) c mime answer w0)
    {r : Nat → HSys (bndStorage checks F.S)} {act : Nat → Option HAct} (h : HRun c (fun _ => True) w0 r act)
    (hk : HKeepsDelivering r act) (hpan : ∀ j, (r j).sys.spc ≠ .panicked)
    (hmax : ∀ j, Ev.request (two64 - 1) ∉ (r j).sys.log) {i : Nat} (hc : (r i).sys.rpc.inReadCall = true) :
    ∃ j, i ≤ j ∧ ((r j).sys.rpc = .idle ∨ (r j).sys.rpc = .panicked) := by
  obtain ⟨ρ, act', t, k1, h1, hfair, -, -, hkd⟩ := server_exec (P := bndProvider checks F bufferSize) h0 h.run
  exact C63_reads_return_bounded_partial (c := c.tape ρ) hF hb hbs k1 h1 (hfair _ rfl h.task) (hfair _ rfl h.consumer)
    (hkd hk) hpan hmax hc

/-- C90 for reads on bounded storage, if the task does not panic (`C90_no_panic_unchecked_partial`, C39).
Missing: `seek` calls, which need not return (C63). -/
theorem C90_reads_return_bounded_partial (hF : Sparing (some (Bnd.sizeFor bufferSize c.contentLength)) F)
    (hb : c.batchSize ≠ 0) (hbs : bufferSize ≠ 0)
    {w0 : XSys R (bndStorage checks F.S)} (h0 : Starts (bndProvider checks F bufferSize) c w0.sys) {W : World R}
    {r : Nat → XSys R (bndStorage checks F.S)} {act : Nat → Option (XAct R)} (h : XRun c W w0 r act)
    (hp : ∀ i a, act i = some a → Polite (r i) a)
    (hk : XKeepsDelivering r act) (hpan : ∀ j, (r j).sys.spc ≠ .panicked)
    (hmax : ∀ j, Ev.request (two64 - 1) ∉ (r j).sys.log) {i : Nat} (hc : (r i).sys.rpc.inReadCall = true) :
    ∃ j, i ≤ j ∧ ((r j).sys.rpc = .idle ∨ (r j).sys.rpc = .panicked) := by
  obtain ⟨ρ, act', t, k1, h1, hfair, -, -, hkd⟩ := source_exec (P := bndProvider checks F bufferSize) h0 h.run hp
  exact C63_reads_return_bounded_partial (c := c.tape ρ) hF hb hbs k1 h1 (hfair _ rfl h.task) (hfair _ rfl h.consumer)
    (hkd hk) hpan hmax hc

end

/-- C88 for every storage: a download that is cancelled ends (or panics, C39), or the task waits for room again and
again (C18). -/
theorem C88_cancel_ends_or_waits_for_room_partial (hP : Supported c.contentLength P)
    {mime : Text → Option (Text × Text)} {answer : Answer} {w0 : HSys P.S} (h0 : HStarts P c mime answer w0)
    {r : Nat → HSys P.S} {act : Nat → Option HAct} (h : HRun c (fun _ => True) w0 r act)
    (ht : FairFor (hstep c) r act (.sys .reconnTimeout)) (hsc : StronglyFair (hstep c) r act (.sys .seeCancel))
    (hs : AnswersSeeks fun i => (r i).sys) {i : Nat} {a : Act} (ha : act i = some (.sys a)) (hc : Cancels c a) :
    (∃ j, i < j ∧ ((r j).sys.spc = .ended ∨ (r j).sys.spc = .panicked)) ∨
      ∀ k, ∃ j, k ≤ j ∧ (r j).sys.spc.needsRoom = true := by
  obtain ⟨ρ, act', t, k1, h1, hfair, hsel, hact, -⟩ := server_exec h0 h.run
  exact C75_cancel_ends_or_waits_for_room_partial (c := c.tape ρ) hP k1 h1 (hfair _ rfl h.task) (hfair _ rfl ht)
    (hsel hsc) hs (hact _ _ ha) hc

/-- C90 for every storage: a download that is cancelled ends (or panics, C39), or the task waits for room again and
again (C18). -/
theorem C90_cancel_ends_or_waits_for_room_partial (hP : Supported c.contentLength P) {w0 : XSys R P.S}
    (h0 : Starts P c w0.sys) {W : World R} {r : Nat → XSys R P.S} {act : Nat → Option (XAct R)} (h : XRun c W w0 r act)
    (hp : ∀ i a, act i = some a → Polite (r i) a)
    (ht : FairFor (xstep R c) r act (.sys .reconnTimeout)) (hsc : StronglyFair (xstep R c) r act (.sys .seeCancel))
    (hs : AnswersSeeks fun i => (r i).sys) {i : Nat} {a : Act} (ha : act i = some (.sys a)) (hc : Cancels c a) :
    (∃ j, i < j ∧ ((r j).sys.spc = .ended ∨ (r j).sys.spc = .panicked)) ∨
      ∀ k, ∃ j, k ≤ j ∧ (r j).sys.spc.needsRoom = true := by
  obtain ⟨ρ, act', t, k1, h1, hfair, hsel, hact, -⟩ := source_exec h0 h.run hp
  exact C75_cancel_ends_or_waits_for_room_partial (c := c.tape ρ) hP k1 h1 (hfair _ rfl h.task) (hfair _ rfl ht)
    (hsel hsc) hs (hact _ _ ha) hc

/-! ### The hypotheses are met -/

theorem all_trace {W A B : Type} {st : W → A → Option W} {g : W → B → Bool} {f : W → B → A} {w0 : W} {bs : List B}
    {p : W → Bool} (h : ((List.range (bs.length + 1)).all fun i => p (trace st g f w0 bs i)) = true) (j : Nat) :
    p (trace st g f w0 bs j) = true := by
  rw [List.all_eq_true] at h
  by_cases hj : j ≤ bs.length
  · exact h j (by simp; omega)
  · rw [trace_end (by omega)]
    exact h _ (by simp)

/-- Bounded storage of 10 bytes. -/
def cfgTen : Cfg := { cfg20 with capacity := some 10 }

/-- A read sleeps until it has 4 bytes; later the download is cancelled. -/
def puppetTen : List (XAct puppet) :=
  [.poll (.chunk [9, 9])] ++ asys (srcs 6 ++ [.read 4] ++ rdrs 4) ++ [.poll .err, .poll (.chunk [5, 4])] ++
    asys (srcs 8 ++ rdrs 9 ++ [.cancel, .seeCancel] ++ srcs 4)

/-- The hypotheses of `C90_reads_return_bounded_partial` and `C90_cancel_ends_or_waits_for_room_partial`. -/
example : ∃ (w0 : XSys puppet (bndStorage true memStorage)) (r : Nat → XSys puppet (bndStorage true memStorage))
    (act : Nat → Option (XAct puppet)), Starts (bndProvider true memProvider 10) cfgTen w0.sys ∧
      XRun cfgTen puppetWorld w0 r act ∧ (∀ i a, act i = some a → Polite (r i) a) ∧ XKeepsDelivering r act ∧
      (∀ j, (r j).sys.spc ≠ .panicked) ∧ (∀ j, Ev.request (two64 - 1) ∉ (r j).sys.log) ∧
      FairFor (xstep puppet cfgTen) r act (.sys .reconnTimeout) ∧ StronglyFair (xstep puppet cfgTen) r act (.sys .seeCancel) ∧
      (AnswersSeeks fun i => (r i).sys) ∧ act 31 = some (.sys .cancel) ∧ (r 12).sys.rpc = .rWait 4 4 ∧
      delivered (r 100).sys.log = [9, 9, 5, 4] ∧ (r 100).sys.spc = .ended := by
  let w0 : XSys puppet (bndStorage true memStorage) := { sys := init cfgTen demoBnd10, src := () }
  obtain ⟨h1, h2⟩ := puppet_trace (c := cfgTen) (w0 := w0) (bs := puppetTen) (by decide +kernel)
  have hall := all_trace (st := xstep puppet cfgTen) (g := politeB) (f := fun _ a => a) (w0 := w0) (bs := puppetTen)
    (p := fun w => decide (w.sys.spc ≠ .panicked ∧ Ev.request (two64 - 1) ∉ w.sys.log)) (by decide +kernel)
  exact ⟨w0, _, _, ⟨rfl, demoBnd10, rfl, rfl⟩, h1, h2, working_trace (by decide +kernel),
    fun j => (of_decide_eq_true (hall j)).1, fun j => (of_decide_eq_true (hall j)).2, fair_trace (by decide +kernel),
    strong_trace (by decide +kernel), answers_trace (sys := XSys.sys) (by decide +kernel),
    trace_at (b := XAct.sys Act.cancel) rfl (by decide +kernel), by decide +kernel, by decide +kernel, by decide +kernel⟩

/-- The same with the server that lies. -/
def liarTen : List Act :=
  [.chunk 2] ++ srcs 6 ++ [.read 4] ++ rdrs 4 ++ liarBody ++ rdrs 9 ++ [.cancel, .seeCancel] ++ srcs 4

/-- The hypotheses of `C88_reads_return_bounded_partial` and `C88_cancel_ends_or_waits_for_room_partial`. -/
example : ∃ (w0 : HSys (bndStorage true memStorage)) (r : Nat → HSys (bndStorage true memStorage))
    (act : Nat → Option HAct), HStarts (bndProvider true memProvider 10) cfgTen (fun _ => none) liar w0 ∧
      HRun cfgTen (fun _ => True) w0 r act ∧ HKeepsDelivering r act ∧
      (∀ j, (r j).sys.spc ≠ .panicked) ∧ (∀ j, Ev.request (two64 - 1) ∉ (r j).sys.log) ∧
      FairFor (hstep cfgTen) r act (.sys .reconnTimeout) ∧ StronglyFair (hstep cfgTen) r act (.sys .seeCancel) ∧
      (AnswersSeeks fun i => (r i).sys) ∧ act 36 = some (.sys .cancel) ∧ (r 12).sys.rpc = .rWait 4 4 ∧
      delivered (r 100).sys.log = [1, 2, 7, 7] ∧ (r 100).sys.spc = .ended := by
  let w0 : HSys (bndStorage true memStorage) :=
    { sys := init cfgTen demoBnd10, http := stream20 headers20 (some 20) }
  have hall := all_trace (st := hstep cfgTen) (g := fun _ _ => true) (f := fun _ => toHAct liar) (w0 := w0)
    (bs := liarTen) (p := fun w => decide (w.sys.spc ≠ .panicked ∧ Ev.request (two64 - 1) ∉ w.sys.log)) (by decide +kernel)
  exact ⟨w0, _, _, ⟨liar_new, rfl, rfl, rfl, demoBnd10, rfl, rfl⟩,
    ⟨run_trace _ _, fun _ _ _ _ _ => trivial, fair_trace (by decide +kernel), fair_trace (by decide +kernel)⟩,
    working_trace (by decide +kernel),
    fun j => (of_decide_eq_true (hall j)).1, fun j => (of_decide_eq_true (hall j)).2, fair_trace (by decide +kernel),
    strong_trace (by decide +kernel), answers_trace (sys := HSys.sys) (by decide +kernel),
    trace_at (b := Act.cancel) rfl (by decide +kernel), by decide +kernel, by decide +kernel, by decide +kernel⟩

end SD
