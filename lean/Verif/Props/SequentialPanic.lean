import Verif.Props.ReturnValue
import Verif.Proof.Sys.Line

/-!
# Properties C39, C63 and C90: bounded storage, in builds with overflow checks

A consumer that does not seek, or a source that cannot seek, never makes the writer of bounded storage go back, whatever
the transport delivers.  So the task does not panic, and reads return.
-/

set_option linter.unusedVariables false

namespace SD

variable {P : Provider} {c : Cfg}

theorem line_reach {full : Bool} (LP : LawfulProvider P full c.contentLength)
    {G : Sys P.S → Act → Prop} (hG : ∀ s a, G s a → c.supportsSeek = true → NoSeek s a)
    {s0 s : Sys P.S} (h0 : Starts P c s0) (h : Reach c G s0 s) : Seq c s := by
  obtain ⟨W, hW⟩ := Reach.inv (P := fun s => ∃ W, Line _ c LP.law W s) h ⟨∅, Line.init LP h0⟩
    (fun s s' a ⟨W, hW⟩ hg ht => hW.step (hG _ _ hg) ht)
  exact hW.seq

/-- C39 for every storage and every transport, which may end early, deliver other bytes or resume elsewhere: without
empty chunks the task does not panic, if the consumer does not seek or the source cannot. -/
theorem C39_no_panic_any_transport_partial (hP : Supported c.contentLength P) (hb : c.batchSize ≠ 0)
    {s0 s : Sys P.S} (h0 : Starts P c s0)
    (h : Reach c (fun s a => NonEmpty s a ∧ (c.supportsSeek = true → NoSeek s a)) s0 s) : s.spc ≠ .panicked := by
  rcases hP with hP | hP
  · exact C39_no_panic_unbounded_partial hP hb h0 (Reach.mono (fun _ _ h => h.1) h)
  · obtain ⟨RP⟩ := windowed_ring hP
    obtain ⟨PP⟩ := windowed_positional hP
    obtain ⟨LP⟩ := windowed_lawful hP
    refine no_panic PP (fun _ _ h => h.1) h0 h ?_ ?_
    · intro s bs hr hp
      exact RP.ring.write_safe (bs := bs) (ring_reach RP h0 hr).1 hp
    · intro s start stop hr h1 hp
      obtain ⟨e, -⟩ := (line_reach LP (fun _ _ hg => hg.2) h0 hr).seekAt start stop h1
      have h2 := RP.ring.wseek_here (ring_reach RP h0 hr).1
      rw [← e] at h2
      exact h2 hp

/-- C88 for every storage: whatever the server answers, the task does not panic, if the consumer does not seek or the
source cannot. -/
theorem C88_no_panic_supported_partial (hP : Supported c.contentLength P) (hb : c.batchSize ≠ 0)
    {mime : Text → Option (Text × Text)} {answer : Answer} {w0 w : HSys P.S} (h0 : HStarts P c mime answer w0)
    (h : HReach c (fun _ => True) (fun w a => c.supportsSeek = true → HNoSeek w a) w0 w) :
    w.sys.spc ≠ .panicked := by
  obtain ⟨ρ, t, h1, h2⟩ := any_server_reach h0 h
  refine C39_no_panic_any_transport_partial (c := c.tape ρ) (s := w.sys.tape t) hP hb h1
    (Reach.mono (fun s x hx => ⟨hx.1, fun hss => ?_⟩) h2)
  obtain ⟨-, w, a, ha, hax⟩ := hx
  intro f e
  subst e
  cases hax
  exact ha hss f rfl

variable {R : Source}

/-- C90 for every storage: whatever the source does, the task does not panic, if the consumer does not seek or the
source cannot. -/
theorem C90_no_panic_supported_partial (hP : Supported c.contentLength P) (hb : c.batchSize ≠ 0) {w0 w : XSys R P.S}
    (h0 : Starts P c w0.sys) {h : List (XSys R P.S × XAct R)} (hh : Hist (xstep R c) w0 h w)
    (hp : ∀ x ∈ h, Polite x.1 x.2) (hs : c.supportsSeek = true → ∀ x ∈ h, XNoSeek x.1 x.2) :
    w.sys.spc ≠ .panicked := by
  obtain ⟨ρ, t, -, h1, -, -, -, h2⟩ := any_source_hist h0 hh hp
  refine C39_no_panic_any_transport_partial (c := c.tape ρ) (s := w.sys.tape t) hP hb h1
    (Reach.mono (fun s x hx => ⟨hx.1, fun hss => ?_⟩) h2)
  obtain ⟨-, w, a, ha, hax⟩ := hx
  intro f e
  subst e
  cases hax
  exact hs hss _ ha f rfl

variable {F : Provider} {checks : Bool} {bufferSize : Nat}

/-- **C63** for bounded storage and consumers that do not seek: as long as the transport delivers, every `read` returns
a value or an error. -/
theorem C63_reads_return_value_bounded (hF : Sparing (some (Bnd.sizeFor bufferSize c.contentLength)) F)
    (hb : c.batchSize ≠ 0) (hbs : bufferSize ≠ 0) {s0 : Sys (bndStorage checks F.S)}
    (h0 : Starts (bndProvider checks F bufferSize) c s0) {r : Nat → Sys (bndStorage checks F.S)}
    {act : Nat → Option Act} (he : Exec c s0 r act) (hfs : Fair c r act .src) (hfr : Fair c r act .rdr)
    (hk : KeepsDelivering r act) (hne : ∀ j, act j ≠ some (.chunk 0)) (hs : ∀ j f, act j ≠ some (.seek f))
    (hn : ∀ j n, act j = some (.read n) → n < two63) (hfew : ∀ j, (delivered (r j).log).length < two63) {i : Nat}
    (hc : (r i).rpc.inReadCall = true) : ∃ j, i ≤ j ∧ (r j).rpc = .idle := by
  have hP : Supported c.contentLength (bndProvider checks F bufferSize) := .inr (.bounded _ checks F bufferSize hF)
  have h1 := fun j => calm_no_seek hP h0 (he.reachG (fun i a ha =>
    ⟨fun f e => hs i f (by rw [ha, e]), fun n e => hn i n (by rw [ha, e])⟩) j) (hfew j)
  have h2 := fun j => C39_no_panic_any_transport_partial hP hb h0 (he.reachG (fun i a ha =>
    ⟨fun e => hne i (by rw [ha, e]), fun _ f e => hs i f (by rw [ha, e])⟩) j)
  obtain ⟨j, hj, h3⟩ := C63_reads_return_bounded_partial hF hb hbs h0 he hfs hfr hk h2 (fun j => (h1 j).2) hc
  exact ⟨j, hj, h3.resolve_right (h1 j).1⟩

/-- C63 for adaptive storage, streams of unknown length and consumers that do not seek: as long as the transport
delivers, every `read` returns a value or an error.  Missing: buffers longer than the storage, for which it fails (C26). -/
theorem C63_reads_return_value_adaptive_partial {V : Provider} (hF : Sparing (some bufferSize) F)
    (hV : Sparing (some bufferSize) V) (hcl : c.contentLength = none) (hb : c.batchSize ≠ 0) (hbs : bufferSize ≠ 0)
    (hsz : bufferSize < two63) {s0 : Sys (adpStorage checks F.S V.S)}
    (h0 : Starts (adpProvider checks F V bufferSize) c s0) {r : Nat → Sys (adpStorage checks F.S V.S)}
    {act : Nat → Option Act} (he : Exec c s0 r act) (hfs : Fair c r act .src) (hfr : Fair c r act .rdr)
    (hk : KeepsDelivering r act) (hne : ∀ j, act j ≠ some (.chunk 0)) (hs : ∀ j f, act j ≠ some (.seek f))
    (hn : ∀ j n, act j = some (.read n) → n ≤ bufferSize) (hfew : ∀ j, (delivered (r j).log).length < two63) {i : Nat}
    (hc : (r i).rpc.inReadCall = true) : ∃ j, i ≤ j ∧ (r j).rpc = .idle := by
  have hP : Supported c.contentLength (adpProvider checks F V bufferSize) := by
    rw [hcl]; exact .inr (.adaptive checks F V bufferSize hF hV)
  have h1 := fun j => calm_no_seek hP h0 (he.reachG (fun i a ha =>
    ⟨fun f e => hs i f (by rw [ha, e]), fun n e => Nat.lt_of_le_of_lt (hn i n (by rw [ha, e])) hsz⟩) j) (hfew j)
  have h2 := fun j => C39_no_panic_any_transport_partial hP hb h0 (he.reachG (fun i a ha =>
    ⟨fun e => hne i (by rw [ha, e]), fun _ f e => hs i f (by rw [ha, e])⟩) j)
  obtain ⟨j, hj, h3⟩ := C63_reads_return_adaptive_partial hF hV hcl hb hbs h0 he hfs hfr hk h2 (fun j => (h1 j).2) hn hc
  exact ⟨j, hj, h3.resolve_right (h1 j).1⟩

/-- **C88** for bounded storage and consumers that do not seek: whatever the server answers, as long as it delivers bytes
every `read` returns a value or an error. -/
theorem C88_reads_return_value_bounded (hF : Sparing (some (Bnd.sizeFor bufferSize c.contentLength)) F)
    (hb : c.batchSize ≠ 0) (hbs : bufferSize ≠ 0) {mime : Text → Option (Text × Text)} {answer : Answer}
    {w0 : HSys (bndStorage checks F.S)} (h0 : HStarts (bndProvider checks F bufferSize) c mime answer w0)
    {r : Nat → HSys (bndStorage checks F.S)} {act : Nat → Option HAct} (h : HRun c (fun _ => True) w0 r act)
    (hk : HKeepsDelivering r act) (hs : ∀ j f, act j ≠ some (.sys (.seek f)))
    (hn : ∀ j n, act j = some (.sys (.read n)) → n < two63) (hfew : ∀ j, (delivered (r j).sys.log).length < two63)
    {i : Nat} (hc : (r i).sys.rpc.inReadCall = true) : ∃ j, i ≤ j ∧ (r j).sys.rpc = .idle := by
  have hP : Supported c.contentLength (bndProvider checks F bufferSize) := .inr (.bounded _ checks F bufferSize hF)
  obtain ⟨ρ, act', t, h1, h2, -⟩ := any_server
    (starts_tape (P := bndProvider checks F bufferSize) (ρ := fun _ => 0) h0.2.2.2).2.2 h.run
  obtain ⟨k1, k2, -⟩ := starts_tape (P := bndProvider checks F bufferSize) (ρ := ρ) h0.2.2.2
  rw [k2] at h1
  have hs' : ∀ i f, act' i ≠ some (.seek f) := by
    intro i f e
    obtain ⟨a, ha, hax⟩ := h2 i _ e
    cases hax
    exact hs i f ha
  have h3 : ∀ j, (r j).sys.rpc ≠ .panicked ∧ Ev.request (two64 - 1) ∉ (r j).sys.log := by
    intro j
    refine calm_no_seek (c := c.tape ρ) (s := (r j).sys.tape (t j)) hP k1
      (h1.reachG (fun i x hx => ⟨fun f e => hs' i f (by rw [hx, e]), fun n e => ?_⟩) j) (hfew j)
    obtain ⟨a, ha, hax⟩ := h2 i x hx
    subst e; cases hax; exact hn i n ha
  have h4 : ∀ j, (r j).sys.spc ≠ .panicked := by
    intro j
    exact C39_no_panic_any_transport_partial (c := c.tape ρ) (s := (r j).sys.tape (t j)) hP hb k1
      (h1.reachG (fun i x hx => ⟨fun e => nonEmpty_seen h.run h2 i (by rw [hx, e]),
        fun _ f e => hs' i f (by rw [hx, e])⟩) j)
  obtain ⟨j, hj, h5⟩ := C88_reads_return_bounded_partial hF hb hbs h0 h hk h4 (fun j => (h3 j).2) hc
  exact ⟨j, hj, h5.resolve_right (h3 j).1⟩

/-- **C90** for bounded storage and consumers that do not seek: whatever the source does, as long as it delivers bytes
every `read` returns a value or an error. -/
theorem C90_reads_return_value_bounded (hF : Sparing (some (Bnd.sizeFor bufferSize c.contentLength)) F)
    (hb : c.batchSize ≠ 0) (hbs : bufferSize ≠ 0)
    {w0 : XSys R (bndStorage checks F.S)} (h0 : Starts (bndProvider checks F bufferSize) c w0.sys) {W : World R}
    {r : Nat → XSys R (bndStorage checks F.S)} {act : Nat → Option (XAct R)} (h : XRun c W w0 r act)
    (hp : ∀ i a, act i = some a → Polite (r i) a) (hk : XKeepsDelivering r act)
    (hs : ∀ j f, act j ≠ some (.sys (.seek f))) (hn : ∀ j n, act j = some (.sys (.read n)) → n < two63)
    (hfew : ∀ j, (delivered (r j).sys.log).length < two63) {i : Nat} (hc : (r i).sys.rpc.inReadCall = true) :
    ∃ j, i ≤ j ∧ (r j).sys.rpc = .idle := by
  have hP : Supported c.contentLength (bndProvider checks F bufferSize) := .inr (.bounded _ checks F bufferSize hF)
  obtain ⟨ρ, act', t, h1, h2, -⟩ := any_source h.run hp
  obtain ⟨k1, k2, -⟩ := starts_tape (P := bndProvider checks F bufferSize) (ρ := ρ) h0
  rw [k2] at h1
  have hs' : ∀ i f, act' i ≠ some (.seek f) := by
    intro i f e
    obtain ⟨a, ha, hax⟩ := h2 i _ e
    cases hax
    exact hs i f ha
  have h3 : ∀ j, (r j).sys.rpc ≠ .panicked ∧ Ev.request (two64 - 1) ∉ (r j).sys.log := by
    intro j
    refine calm_no_seek (c := c.tape ρ) (s := (r j).sys.tape (t j)) hP k1
      (h1.reachG (fun i x hx => ⟨fun f e => hs' i f (by rw [hx, e]), fun n e => ?_⟩) j) (hfew j)
    obtain ⟨a, ha, hax⟩ := h2 i x hx
    subst e; cases hax; exact hn i n ha
  have h4 : ∀ j, (r j).sys.spc ≠ .panicked := by
    intro j
    exact C39_no_panic_any_transport_partial (c := c.tape ρ) (s := (r j).sys.tape (t j)) hP hb k1
      (h1.reachG (fun i x hx => ⟨fun e => polite_nonEmpty hp h2 i (by rw [hx, e]),
        fun _ f e => hs' i f (by rw [hx, e])⟩) j)
  obtain ⟨j, hj, h5⟩ := C90_reads_return_bounded_partial hF hb hbs h0 h hp hk h4 (fun j => (h3 j).2) hc
  exact ⟨j, hj, h5.resolve_right (h3 j).1⟩

/-! ### Histories that meet the hypotheses -/

/-- The hypotheses of `C39_no_panic_any_transport_partial`: overflow checks, the stream ends early and resumes elsewhere. -/
example : ∃ s0 s : Sys (bndStorage true memStorage), Starts (bndProvider true memProvider 10) cfgB20 s0 ∧
    Reach cfgB20 (fun s a => NonEmpty s a ∧ (cfgB20.supportsSeek = true → NoSeek s a)) s0 s ∧
      cfgB20.supportsSeek = true ∧ (accepted s.log).length = 5 ∧ rangeRequests s.log = 1 := by
  obtain ⟨s0, s, h1, h2, h3⟩ := exists_of_runG (P := bndProvider true memProvider 10) (c := cfgB20)
    (g := fun s a => decide (a ≠ .chunk 0) && !a.isSeek)
    (G := fun s a => NonEmpty s a ∧ (cfgB20.supportsSeek = true → NoSeek s a))
    (fun s a h => by
      rw [Bool.and_eq_true] at h
      exact ⟨of_decide_eq_true (p := a ≠ .chunk 0) h.1, fun _ f e => by subst e; exact absurd h.2 (by simp [Act.isSeek])⟩)
    demoBnd10
    ([.chunk 2] ++ srcs 6 ++ [.timeout, .reconnOk 7, .chunk 1] ++ srcs 6 ++ [.eof, .src, .seekOk 9, .chunk 2] ++ srcs 6)
    (fun s => decide ((accepted s.log).length = 5 ∧ rangeRequests s.log = 1)) rfl rfl (by decide +kernel)
  exact ⟨s0, s, h1, h2, rfl, of_decide_eq_true h3⟩

/-- The hypotheses of `C90_no_panic_supported_partial`. -/
example : ∃ (w0 w : XSys puppet (bndStorage true memStorage))
    (h : List (XSys puppet (bndStorage true memStorage) × XAct puppet)),
    Starts (bndProvider true memProvider 10) cfgTen w0.sys ∧
      Hist (xstep puppet cfgTen) w0 h w ∧ (∀ x ∈ h, Polite x.1 x.2) ∧ (∀ x ∈ h, XNoSeek x.1 x.2) ∧
      received w.sys.log = [9, 9, 5, 4, 3, 1] ∧ delivered w.sys.log = [9, 9, 5, 4] := by
  let w0 : XSys puppet (bndStorage true memStorage) := { sys := init cfgTen demoBnd10, src := () }
  obtain ⟨h, w, h1, -, h2⟩ := exists_hist' (f := xstep puppet cfgTen) (w0 := w0) puppetActs
    (fun h w => h.all (fun x => politeB x.1 x.2) && decide (received w.sys.log = [9, 9, 5, 4, 3, 1] ∧
      delivered w.sys.log = [9, 9, 5, 4] ∧ xSeekCalls h = 0)) (by decide +kernel)
  simp only [Bool.and_eq_true, List.all_eq_true, decide_eq_true_eq] at h2
  refine ⟨w0, w, h, ⟨rfl, demoBnd10, rfl, rfl⟩, h1, fun x hx => polite_of (h2.1 x hx), fun x hx f e => ?_, h2.2.1, h2.2.2.1⟩
  have h7 := h2.2.2.2
  simp only [xSeekCalls, List.countP_eq_zero] at h7
  have := h7 x hx
  rw [e] at this
  simp [Act.isSeek] at this

/-- The hypotheses of `C63_reads_return_value_bounded`. -/
example : ∃ (s0 : Sys (bndStorage true memStorage)) (r : Nat → Sys (bndStorage true memStorage))
    (act : Nat → Option Act), Starts (bndProvider true memProvider 10) cfgTen s0 ∧ Exec cfgTen s0 r act ∧
      Fair cfgTen r act .src ∧ Fair cfgTen r act .rdr ∧ KeepsDelivering r act ∧ (∀ j, act j ≠ some (.chunk 0)) ∧
      (∀ j f, act j ≠ some (.seek f)) ∧ (∀ j n, act j = some (.read n) → n < two63) ∧
      (∀ j, (delivered (r j).log).length < two63) ∧ (r 4).rpc = .rWait 4 4 := by
  let as : List Act := [.read 4] ++ rdrs 3 ++ [.chunkErr, .timeout, .reconnOk 0, .chunk 2] ++ srcs 6 ++
      [.timeout, .reconnOk 2, .chunk 2] ++ srcs 8 ++ rdrs 5 ++ [.cancel, .seeCancel] ++ srcs 4
  obtain ⟨h1, h2, h3, h4, h5, -, -⟩ := assumed_of_run (P := bndProvider true memProvider 10) (c := cfgTen)
    (g := fun _ _ => true) demoBnd10 as rfl rfl (by decide +kernel) (by decide +kernel)
  refine ⟨_, _, _, h1, h2, h3, h4, h5, fun j e => ?_, fun j f e => ?_, tinyReads_of (by decide +kernel), fun j => ?_, ?_⟩
  · exact absurd (List.mem_of_getElem? e) (by decide +kernel)
  · have := List.all_eq_true.mp (show (as.all fun a => !a.isSeek) = true by decide +kernel) _ (List.mem_of_getElem? e)
    simp [Act.isSeek] at this
  · exact of_decide_eq_true (after_all
      (p := fun s : Sys (bndStorage true memStorage) => decide ((delivered s.log).length < two63)) (by decide +kernel) j)
  · decide +kernel

/-- The hypotheses of `C63_reads_return_value_adaptive_partial`: a read sleeps while the task waits for room. -/
example : ∃ (s0 : Sys (adpStorage true memStorage memStorage))
    (r : Nat → Sys (adpStorage true memStorage memStorage)) (act : Nat → Option Act),
      Starts (adpProvider true memProvider memProvider 4) cfgUnknown s0 ∧
      Exec cfgUnknown s0 r act ∧ Fair cfgUnknown r act .src ∧ Fair cfgUnknown r act .rdr ∧
      KeepsDelivering r act ∧ (∀ j, act j ≠ some (.chunk 0)) ∧ (∀ j f, act j ≠ some (.seek f)) ∧
      (∀ j n, act j = some (.read n) → n ≤ 4) ∧ (∀ j, (delivered (r j).log).length < two63) ∧
      (r 21).rpc = .rWait 4 7 := by
  let as : List Act := [.chunk 4] ++ srcs 6 ++ [.chunk 6] ++ srcs 4 ++ [.read 3] ++ rdrs 4 ++ [.read 4] ++ rdrs 3 ++
      srcs 12 ++ rdrs 5 ++ srcs 7 ++ [.read 4] ++ rdrs 4 ++ [.eof] ++ srcs 6 ++ rdrs 5
  obtain ⟨h1, h2, h3, h4, h5, -, -⟩ := assumed_of_run (P := adpProvider true memProvider memProvider 4) (c := cfgUnknown)
    (g := fun _ _ => true) demoAdp4 as rfl rfl (by decide +kernel) (by decide +kernel)
  refine ⟨_, _, _, h1, h2, h3, h4, h5, fun j e => ?_, fun j f e => ?_, fun j n e => ?_, fun j => ?_, ?_⟩
  · exact absurd (List.mem_of_getElem? e) (by decide +kernel)
  · have := List.all_eq_true.mp (show (as.all fun a => !a.isSeek) = true by decide +kernel) _ (List.mem_of_getElem? e)
    simp [Act.isSeek] at this
  · have := List.mem_of_getElem? e
    simp [as, srcs, rdrs, List.mem_replicate] at this
    omega
  · exact of_decide_eq_true (after_all
      (p := fun s : Sys (adpStorage true memStorage memStorage) => decide ((delivered s.log).length < two63))
      (by decide +kernel) j)
  · decide +kernel

/-- The hypotheses of `C88_no_panic_supported_partial` and `C88_reads_return_value_bounded`: overflow checks, and the
server that lies.  Every state of this run is one that is reached without seeks. -/
example : ∃ (w0 : HSys (bndStorage true memStorage)) (r : Nat → HSys (bndStorage true memStorage))
    (act : Nat → Option HAct), HStarts (bndProvider true memProvider 10) cfgTen (fun _ => none) liar w0 ∧
      HRun cfgTen (fun _ => True) w0 r act ∧ HKeepsDelivering r act ∧ (∀ j f, act j ≠ some (.sys (.seek f))) ∧
      (∀ j n, act j = some (.sys (.read n)) → n < two63) ∧ (∀ j, (delivered (r j).sys.log).length < two63) ∧
      (r 12).sys.rpc = .rWait 4 4 ∧ delivered (r 100).sys.log = [1, 2, 7, 7] := by
  let w0 : HSys (bndStorage true memStorage) :=
    { sys := init cfgTen demoBnd10, http := stream20 headers20 (some 20) }
  refine ⟨w0, trace (hstep cfgTen) (fun _ _ => true) (fun _ => toHAct liar) w0 liarTen,
    traceAct (hstep cfgTen) (fun _ _ => true) (fun _ => toHAct liar) w0 liarTen,
    ⟨liar_new, rfl, rfl, rfl, demoBnd10, rfl, rfl⟩,
    ⟨run_trace _ _, fun _ _ _ _ _ => trivial, fair_trace (by decide +kernel), fair_trace (by decide +kernel)⟩,
    working_trace (by decide +kernel), fun j f e => ?_, fun j n e => ?_, fun j => ?_, by decide +kernel, by decide +kernel⟩
  · exact seekless_trace (ev := some) (fun _ b k => toHAct_seek b k) (by decide +kernel) j f e
  · obtain ⟨b, h1, -, h2, -⟩ := traceAct_some e
    have h3 := tinyReads_of (as := liarTen) (by decide +kernel) j n
    cases b <;> simp [toHAct] at h2
    subst h2
    exact h3 h1
  · exact of_decide_eq_true (trace_all
      (p := fun w : HSys (bndStorage true memStorage) => decide ((delivered w.sys.log).length < two63))
      (by decide +kernel) j)

/-- The hypotheses of `C90_reads_return_value_bounded`. -/
example : ∃ (w0 : XSys puppet (bndStorage true memStorage)) (r : Nat → XSys puppet (bndStorage true memStorage))
    (act : Nat → Option (XAct puppet)), Starts (bndProvider true memProvider 10) cfgTen w0.sys ∧
      XRun cfgTen puppetWorld w0 r act ∧ (∀ i a, act i = some a → Polite (r i) a) ∧ XKeepsDelivering r act ∧
      (∀ j f, act j ≠ some (.sys (.seek f))) ∧ (∀ j n, act j = some (.sys (.read n)) → n < two63) ∧
      (∀ j, (delivered (r j).sys.log).length < two63) ∧ (r 12).sys.rpc = .rWait 4 4 := by
  let w0 : XSys puppet (bndStorage true memStorage) := { sys := init cfgTen demoBnd10, src := () }
  obtain ⟨h1, h2⟩ := puppet_trace (c := cfgTen) (w0 := w0) (bs := puppetTen) (by decide +kernel)
  refine ⟨w0, _, _, ⟨rfl, demoBnd10, rfl, rfl⟩, h1, h2, working_trace (by decide +kernel), fun j f e => ?_,
    fun j n e => ?_, fun j => ?_, by decide +kernel⟩
  · obtain ⟨b, h3, -, h4, -⟩ := traceAct_some e
    have := List.all_eq_true.mp (show (puppetTen.all fun a => match a with | .sys (.seek _) => false | _ => true) = true by
      decide +kernel) _ (List.mem_of_getElem? h3)
    rw [← h4] at this
    cases this
  · obtain ⟨b, h3, -, h4, -⟩ := traceAct_some e
    have := List.all_eq_true.mp (show xTinyReads puppetTen = true by decide +kernel) _ (List.mem_of_getElem? h3)
    rw [← h4] at this
    exact of_decide_eq_true this
  · exact of_decide_eq_true (trace_all
      (p := fun w : XSys puppet (bndStorage true memStorage) => decide ((delivered w.sys.log).length < two63))
      (by decide +kernel) j)

end SD
