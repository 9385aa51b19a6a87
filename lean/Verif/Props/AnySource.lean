import Verif.Proof.WildSource
import Verif.Props.Received

/-!
# Property C90: no source can make the stream panic, hang or mix up bytes

The source is any implementation of `SourceStream`, of which nothing is known but that it is `Polite`.
-/

set_option linter.unusedVariables false

namespace SD

variable {P : Provider} {c : Cfg} {R : Source}

theorem polite_nonEmpty {S : Storage} {r : Nat → XSys R S} {act : Nat → Option (XAct R)}
    (hp : ∀ i a, act i = some a → Polite (r i) a) {act' : Nat → Option Act}
    (h2 : ∀ i x, act' i = some x → ∃ a, act i = some a ∧ a.Seen (r i) x) (j : Nat) : act' j ≠ some (.chunk 0) := by
  intro hj
  obtain ⟨a, ha, hx⟩ := h2 j _ hj
  generalize he : Act.chunk 0 = x at hx
  cases hx with
  | sys a hf => subst he; simp [Act.ofSource] at hf
  | chunk e bs hr =>
    simp only [Act.chunk.injEq] at he
    exact (hp j _ ha bs hr).1 (List.length_eq_zero_iff.mp he.symm)
  | _ => cases he

/-- The history as one of the system with the tape. -/
theorem any_source_hist {w0 w : XSys R P.S} (h0 : Starts P c w0.sys) {h : List (XSys R P.S × XAct R)}
    (hh : Hist (xstep R c) w0 h w) (hp : ∀ x ∈ h, Polite x.1 x.2) :
    ∃ (ρ : Nat → Byte) (t : Nat) (h' : List (Sys P.S × Act)), Starts P (c.tape ρ) w0.sys ∧
      Hist (step (c.tape ρ)) w0.sys h' (w.sys.tape t) ∧ seekCalls h' = xSeekCalls h ∧
      h'.countP (fun x => x.2.isEof) = xEnds h ∧
      Reach (c.tape ρ) (fun s x => NonEmpty s x ∧ ∃ w a, (w, a) ∈ h ∧ a.Seen w x) w0.sys (w.sys.tape t) := by
  obtain ⟨r, act, hr, he, hn, hg⟩ := hh.run
  have hmem : ∀ i a, act i = some a → (r i, a) ∈ h := by
    intro i a ha
    by_cases hi : i < h.length
    · have := hg i hi
      rw [ha] at this
      simp only [Prod.mk.injEq, Option.some.injEq] at this
      rw [this.1, this.2]
      exact List.getElem_mem _
    · rw [hn i (by omega)] at ha; cases ha
  have hp' : ∀ i a, act i = some a → Polite (r i) a := fun i a ha => hp _ (hmem i a ha)
  obtain ⟨ρ, act', t, h1, h2, h3⟩ := any_source hr hp'
  obtain ⟨k1, k2, -⟩ := starts_tape (ρ := ρ) h0
  rw [k2] at h1
  have key : ∀ k, k ≤ h.length → ∃ h', Hist (step (c.tape ρ)) w0.sys h' ((r k).sys.tape (t k)) ∧
      seekCalls h' = xSeekCalls (h.drop (h.length - k)) ∧
      h'.countP (fun x => x.2.isEof) = xEnds (h.drop (h.length - k)) := by
    intro k
    induction k with
    | zero =>
      intro _
      have e : (r 0).sys.tape (t 0) = w0.sys := h1.start
      rw [e]
      exact ⟨[], .nil, by simp [seekCalls, xSeekCalls], by simp [xEnds]⟩
    | succ k ih =>
      intro hk
      obtain ⟨h', i1, i2, i3⟩ := ih (by omega)
      have hgk := hg k (by omega)
      simp only [Prod.mk.injEq] at hgk
      obtain ⟨x, hx, his⟩ := h3 k _ hgk.2
      refine ⟨_, .cons i1 (h1.next k x hx), ?_, ?_⟩
      all_goals
        have e : h.length - (k + 1) = h.length - 1 - k := by omega
        have e2 : h.length - 1 - k + 1 = h.length - k := by omega
        rw [e, List.drop_eq_getElem_cons (by omega), e2]
        have hy := hgk.1
        generalize (h[h.length - 1 - k]'(by omega)) = y at his hy
        obtain ⟨y1, y2⟩ := y
        simp only [seekCalls, xSeekCalls, xEnds, List.countP_cons] at i2 i3 ⊢
        simp only at his hy
        subst hy
      · rw [i2]
        cases his <;> simp [Act.isSeek]
      · rw [i3]
        cases his with
        | sys _ hf =>
          have : x.isEof = false := by cases x <;> first | rfl | simp [Act.ofSource] at hf
          simp [this]
        | chunk e bs hr => simp [Act.isEof, hr]
        | chunkErr e hr => simp [Act.isEof, hr]
        | eof e hr => simp [Act.isEof, hr]
        | _ => simp [Act.isEof]
  obtain ⟨h', j1, j2, j3⟩ := key h.length (Nat.le_refl _)
  simp only [Nat.sub_self, List.drop_zero] at j2 j3
  have := h1.reachG (G := fun s x => NonEmpty s x ∧ ∃ w a, (w, a) ∈ h ∧ a.Seen w x) (fun i x hx => by
    refine ⟨fun e => polite_nonEmpty hp' h2 i (by rw [hx, e]), ?_⟩
    obtain ⟨a, ha, hax⟩ := h2 i x hx
    exact ⟨_, a, hmem i a ha, hax⟩) h.length
  rw [he] at this j1
  exact ⟨ρ, _, h', k1, j1, j2, j3, this⟩

/-- **C90.** The task does not panic, with storage that keeps everything. -/
theorem C90_no_panic (hP : Unbounded c.contentLength P) (hb : c.batchSize ≠ 0) {w0 w : XSys R P.S}
    (h0 : Starts P c w0.sys) {h : List (XSys R P.S × XAct R)} (hh : Hist (xstep R c) w0 h w)
    (hp : ∀ x ∈ h, Polite x.1 x.2) : w.sys.spc ≠ .panicked := by
  obtain ⟨ρ, t, -, h1, -, -, -, h2⟩ := any_source_hist h0 hh hp
  exact C39_no_panic_unbounded_partial (c := c.tape ρ) (s := w.sys.tape t) hP hb h1 (Reach.mono (fun _ _ h => h.1) h2)

/-- C90 with bounded storage, in builds without overflow checks.  With overflow checks see C39. -/
theorem C90_no_panic_unchecked_partial {F : Provider} {bufferSize : Nat}
    (hF : Sparing (some (Bnd.sizeFor bufferSize c.contentLength)) F) {w0 w : XSys R (bndStorage false F.S)}
    (h0 : Starts (bndProvider false F bufferSize) c w0.sys) {h : List (XSys R (bndStorage false F.S) × XAct R)}
    (hh : Hist (xstep R c) w0 h w) (hp : ∀ x ∈ h, Polite x.1 x.2) : w.sys.spc ≠ .panicked := by
  obtain ⟨ρ, t, -, h1, -, -, -, h2⟩ := any_source_hist (P := bndProvider false F bufferSize) h0 hh hp
  exact C39_no_panic_unchecked_partial (c := c.tape ρ) (s := w.sys.tape t) hF h1 (Reach.mono (fun _ _ h => h.1) h2)

/-- **C90.** What is stored is what was received, in the order in which it was received, and when the download is
complete it is all of it; with storage that keeps everything. -/
theorem C90_stored_as_received (hP : Unbounded c.contentLength P) (hb : c.batchSize ≠ 0) {w0 w : XSys R P.S}
    (h0 : Starts P c w0.sys) {h : List (XSys R P.S × XAct R)} (hh : Hist (xstep R c) w0 h w)
    (hp : ∀ x ∈ h, Polite x.1 x.2) :
    accepted w.sys.log <+: received w.sys.log ∧
      ∀ pos r, Ev.progress pos r .complete ∈ w.sys.log → accepted w.sys.log = received w.sys.log := by
  obtain ⟨ρ, t, -, h1, -, -, -, h2⟩ := any_source_hist h0 hh hp
  obtain ⟨k1, -, k2, -⟩ := C41_chunks_stored_unbounded_partial (c := c.tape ρ) (s := w.sys.tape t) hP hb h1
    (Reach.mono (fun _ _ _ => trivial) h2)
  exact ⟨k1, k2⟩

/-- **C90.** The source is asked for a range at most once for each seek and each time it says that it is at its end. -/
theorem C90_requests_have_a_cause {w0 w : XSys R P.S} (h0 : Starts P c w0.sys) {h : List (XSys R P.S × XAct R)}
    (hh : Hist (xstep R c) w0 h w) (hp : ∀ x ∈ h, Polite x.1 x.2) :
    rangeRequests w.sys.log ≤ xSeekCalls h + xEnds h := by
  obtain ⟨ρ, t, h', h1, h2, h3, h4, -⟩ := any_source_hist h0 hh hp
  have := C83_requests_have_a_cause h1 h2
  rw [h3, h4] at this
  exact this

/-- **C90.** A consumer that does not seek has read the first bytes that were received, in order. -/
theorem C90_delivered_as_received (hP : ReadsOnlyWritten c.contentLength P) (hb : c.batchSize ≠ 0) {w0 w : XSys R P.S}
    (h0 : Starts P c w0.sys) {h : List (XSys R P.S × XAct R)} (hh : Hist (xstep R c) w0 h w)
    (hp : ∀ x ∈ h, Polite x.1 x.2) (hs : ∀ x ∈ h, XNoSeek x.1 x.2) :
    delivered w.sys.log <+: received w.sys.log := by
  obtain ⟨ρ, t, -, h1, -, -, -, h2⟩ := any_source_hist h0 hh hp
  refine C89_delivered_as_received (c := c.tape ρ) (s := w.sys.tape t) hP hb h1 (Reach.mono (fun s x hx => ?_) h2)
  obtain ⟨-, w, a, ha, hax⟩ := hx
  intro f e
  subst e
  cases hax
  exact hs _ ha f rfl

/-- **C90** for sources that cannot seek: however the consumer seeks, a read at `pos` returns the bytes that were
received after the first `pos` ones. -/
theorem C90_reads_received_unseekable (hP : ReadsOnlyWritten c.contentLength P) (hb : c.batchSize ≠ 0)
    (hs : c.supportsSeek = false) {w0 w : XSys R P.S} (h0 : Starts P c w0.sys) {h : List (XSys R P.S × XAct R)}
    (hh : Hist (xstep R c) w0 h w) (hp : ∀ x ∈ h, Polite x.1 x.2) {pos len : Nat} {fast : Bool} {bs : List Byte}
    (hr : Ev.readRet pos len fast (.ok bs) ∈ w.sys.log) : bs <+: (received w.sys.log).drop pos := by
  obtain ⟨ρ, t, -, h1, -, -, -, h2⟩ := any_source_hist h0 hh hp
  exact C89_reads_received_unseekable (c := c.tape ρ) (s := w.sys.tape t) hP hb hs h1
    (Reach.mono (fun _ _ _ => trivial) h2) hr

theorem any_source_fair {S : Storage} {r : Nat → XSys R S} {act : Nat → Option (XAct R)} {ρ : Nat → Byte}
    {act' : Nat → Option Act} {t : Nat → Nat}
    (h3 : ∀ i a, act i = some a → ∃ x, act' i = some x ∧ a.Seen (r i) x) :
    (∀ x : Act, x.ofSource = false → ∀ j, step (c.tape ρ) ((r j).sys.tape (t j)) x ≠ none →
      xstep R c (r j) (.sys x) ≠ none) ∧
    ∀ (x : Act) j, act j = some (.sys x) → act' j = some x := by
  constructor
  · intro x hx j hen hn
    rw [tape_step ρ (ofTransport_of_source hx)] at hen
    simp only [xstep, hx, Bool.false_eq_true, if_false] at hn
    split at hn
    · cases hn
    · next e => rw [e] at hen; exact hen rfl
  · intro x j ha
    obtain ⟨x', h4, h5⟩ := h3 j _ ha
    cases h5
    exact h4

/-- **C90.** As long as the source delivers bytes, every `read` and `seek` returns. -/
theorem C90_calls_return (hP : Unbounded c.contentLength P) (hb : c.batchSize ≠ 0) {w0 : XSys R P.S}
    (h0 : Starts P c w0.sys) {W : World R} {r : Nat → XSys R P.S} {act : Nat → Option (XAct R)} (h : XRun c W w0 r act)
    (hp : ∀ i a, act i = some a → Polite (r i) a) (hk : XKeepsDelivering r act)
    (hmax : ∀ j, Ev.request (two64 - 1) ∉ (r j).sys.log) {i : Nat} (hc : (r i).sys.rpc.inCall = true) :
    ∃ j, i ≤ j ∧ ((r j).sys.rpc = .idle ∨ (r j).sys.rpc = .panicked) := by
  obtain ⟨ρ, act', t, h1, h2, h3⟩ := any_source h.run hp
  obtain ⟨k1, k2, -⟩ := starts_tape (ρ := ρ) h0
  rw [k2] at h1
  obtain ⟨hen, hact⟩ := any_source_fair (c := c) (ρ := ρ) (t := t) h3
  have hfair : ∀ x : Act, x.ofSource = false → FairFor (xstep R c) r act (.sys x) →
      Fair (c.tape ρ) (fun i => (r i).sys.tape (t i)) act' x := by
    intro x hx hf i h
    obtain ⟨j, hj, ha⟩ := hf i (fun j hj => hen x hx j (h j hj))
    exact ⟨j, hj, hact x j ha⟩
  refine C63_calls_return_unbounded (c := c.tape ρ) hP hb k1 h1 (hfair _ rfl h.task) (hfair _ rfl h.consumer) ?_
    (polite_nonEmpty hp h2) hmax hc
  intro hw i
  obtain ⟨j, hj, e, bs, ha, hr⟩ := hk hw i
  obtain ⟨x, h4, h5⟩ := h3 j _ ha
  cases h5 with
  | chunk _ bs' hr' =>
    rw [hr] at hr'
    cases hr'
    exact ⟨j, bs.length, hj, List.length_pos_iff.mpr (hp j _ ha bs hr).1, h4⟩
  | chunkErr _ hr' => rw [hr] at hr'; cases hr'
  | eof _ hr' => rw [hr] at hr'; cases hr'

/-- **C90.** A cancelled download ends and every call returns, if every request for a range is answered somehow or
fails. -/
theorem C90_cancel_ends_download (hP : Unbounded c.contentLength P) (hb : c.batchSize ≠ 0) {w0 : XSys R P.S}
    (h0 : Starts P c w0.sys) {W : World R} {r : Nat → XSys R P.S} {act : Nat → Option (XAct R)} (h : XRun c W w0 r act)
    (hp : ∀ i a, act i = some a → Polite (r i) a)
    (ht : FairFor (xstep R c) r act (.sys .reconnTimeout)) (hsc : StronglyFair (xstep R c) r act (.sys .seeCancel))
    (hs : AnswersSeeks fun i => (r i).sys) {i : Nat} {a : Act} (ha : act i = some (.sys a)) (hc : Cancels c a) :
    (∃ j, i < j ∧ (r j).sys.spc = .ended) ∧
      ∀ k, (r k).sys.rpc.inCall = true → ∃ l, k ≤ l ∧ ((r l).sys.rpc = .idle ∨ (r l).sys.rpc = .panicked) := by
  obtain ⟨ρ, act', t, h1, h2, h3⟩ := any_source h.run hp
  obtain ⟨k1, k2, -⟩ := starts_tape (ρ := ρ) h0
  rw [k2] at h1
  obtain ⟨hen, hact⟩ := any_source_fair (c := c) (ρ := ρ) (t := t) h3
  have hfair : ∀ x : Act, x.ofSource = false → FairFor (xstep R c) r act (.sys x) →
      Fair (c.tape ρ) (fun i => (r i).sys.tape (t i)) act' x := by
    intro x hx hf i h
    obtain ⟨j, hj, ha⟩ := hf i (fun j hj => hen x hx j (h j hj))
    exact ⟨j, hj, hact x j ha⟩
  have hsel : StronglyFair (step (c.tape ρ)) (fun i => (r i).sys.tape (t i)) act' .seeCancel := by
    intro hinf i
    obtain ⟨j, hj, ha⟩ := hsc (fun i => by
      obtain ⟨j, hj, h⟩ := hinf i
      exact ⟨j, hj, hen _ rfl j h⟩) i
    exact ⟨j, hj, hact _ j ha⟩
  have hne := polite_nonEmpty hp h2
  refine ⟨C75_cancel_ends_download_unbounded_partial (c := c.tape ρ) hP hb k1 h1 (hfair _ rfl h.task)
    (hfair _ rfl h.consumer) (hfair _ rfl ht) hsel hs hne (hact _ _ ha) hc, fun k hk => ?_⟩
  exact C75_calls_return_unbounded_partial (c := c.tape ρ) hP hb k1 h1 (hfair _ rfl h.task)
    (hfair _ rfl h.consumer) (hfair _ rfl ht) hsel hs hne (hact _ _ ha) hc hk

/-! ### The hypotheses are met by a source that does anything at all -/

/-- A source that does whatever the outside world tells it to. -/
abbrev puppet : Source where
  τ := Unit
  PollEnv := PollAns
  SeekEnv := Res Unit
  poll _ e := (e, ())
  seekRange _ e _ _ := (e, ())
  reconnect _ e _ := (e, ())

/-- A test for `Polite`. -/
def politeB {S : Storage} (w : XSys puppet S) : XAct puppet → Bool
  | .sys _ => true
  | .poll (.chunk bs) => !bs.isEmpty && !w.sys.tend
  | .poll _ => true
  | .seekRange e => e != .panic
  | .reconnect e => e != .panic

theorem polite_of {S : Storage} {w : XSys puppet S} {a : XAct puppet} (h : politeB w a = true) : Polite w a := by
  cases a with
  | sys => trivial
  | poll e =>
    intro bs hr
    simp only at hr
    subst hr
    simpa [politeB] using h
  | seekRange e => intro _ _ _; simpa [politeB] using h
  | reconnect e => intro _ _; simpa [politeB] using h

/-- The actions of the system that do not concern the source. -/
def asys (l : List Act) : List (XAct puppet) := l.map .sys

/-- A stall, a reconnect that fails and one that goes on with other bytes; then the end of the stream, and a new range
with one byte. -/
def puppetActs : List (XAct puppet) :=
  [.poll (.chunk [9, 9])] ++ asys (srcs 6) ++ [.poll .err, .sys .timeout, .reconnect (.err .other), .sys .timeout,
    .reconnect (.ok ()), .poll (.chunk [5, 4, 3])] ++ asys (srcs 6) ++ [.poll .done] ++ asys (srcs 1) ++
    [.seekRange (.ok ()), .poll (.chunk [1])] ++ asys (srcs 6) ++ asys ([.read 4] ++ rdrs 4)

/-- The hypotheses of `C90_no_panic`, `C90_stored_as_received`, `C90_requests_have_a_cause` and `C90_delivered_as_received`. -/
example : ∃ (w0 w : XSys puppet tmpStorage) (h : List (XSys puppet tmpStorage × XAct puppet)),
    Starts tmpProvider cfg20 w0.sys ∧ Hist (xstep puppet cfg20) w0 h w ∧ (∀ x ∈ h, Polite x.1 x.2) ∧
      (∀ x ∈ h, XNoSeek x.1 x.2) ∧ received w.sys.log = [9, 9, 5, 4, 3, 1] ∧ delivered w.sys.log = [9, 9, 5, 4] ∧
      rangeRequests w.sys.log = 1 ∧ xSeekCalls h = 0 ∧ xEnds h = 1 := by
  let w0 : XSys puppet tmpStorage := { sys := init (S := tmpStorage) cfg20 emptyTmp, src := () }
  obtain ⟨h, w, h1, -, h2⟩ := exists_hist' (f := xstep puppet cfg20) (w0 := w0) puppetActs
    (fun h w => h.all (fun x => politeB x.1 x.2) && decide (received w.sys.log = [9, 9, 5, 4, 3, 1] ∧
      delivered w.sys.log = [9, 9, 5, 4] ∧ rangeRequests w.sys.log = 1 ∧ xSeekCalls h = 0 ∧ xEnds h = 1))
    (by decide +kernel)
  simp only [Bool.and_eq_true, List.all_eq_true, decide_eq_true_eq] at h2
  obtain ⟨h3, h4, h5, h6, h7, h8⟩ := h2
  refine ⟨w0, w, h, ⟨rfl, emptyTmp, rfl, rfl⟩, h1, fun x hx => polite_of (h3 x hx), fun x hx f e => ?_, h4, h5, h6, h7, h8⟩
  simp only [xSeekCalls, List.countP_eq_zero] at h7
  have := h7 x hx
  rw [e] at this
  exact this rfl

/-- The hypotheses of `C90_reads_received_unseekable`: the consumer seeks to 2. -/
example : ∃ (w0 w : XSys puppet tmpStorage) (h : List (XSys puppet tmpStorage × XAct puppet)),
    Starts tmpProvider cfgUnseekable w0.sys ∧ Hist (xstep puppet cfgUnseekable) w0 h w ∧ (∀ x ∈ h, Polite x.1 x.2) ∧
      received w.sys.log = [9, 9, 5, 4, 3] ∧ Ev.readRet 2 3 true (.ok [5, 4, 3]) ∈ w.sys.log := by
  let w0 : XSys puppet tmpStorage := { sys := init (S := tmpStorage) cfgUnseekable emptyTmp, src := () }
  obtain ⟨h, w, h1, -, h2⟩ := exists_hist' (f := xstep puppet cfgUnseekable) (w0 := w0)
    ([.poll (.chunk [9, 9])] ++ asys (srcs 6) ++ [.poll .err, .poll (.chunk [5, 4, 3])] ++ asys (srcs 6) ++
      asys ([.seek (.start 2)] ++ rdrs 2 ++ [.read 3] ++ rdrs 4))
    (fun h w => h.all (fun x => politeB x.1 x.2) && decide (received w.sys.log = [9, 9, 5, 4, 3] ∧
      Ev.readRet 2 3 true (.ok [5, 4, 3]) ∈ w.sys.log)) (by decide +kernel)
  simp only [Bool.and_eq_true, List.all_eq_true, decide_eq_true_eq] at h2
  exact ⟨w0, w, h, ⟨rfl, emptyTmp, rfl, rfl⟩, h1, fun x hx => polite_of (h2.1 x hx), h2.2.1, h2.2.2⟩

/-- The hypotheses of `C90_no_panic_unchecked_partial`. -/
example : ∃ (w0 w : XSys puppet (bndStorage false memStorage))
    (h : List (XSys puppet (bndStorage false memStorage) × XAct puppet)),
    Starts (bndProvider false memProvider 10) { cfg20 with capacity := some 10 } w0.sys ∧
      Hist (xstep puppet { cfg20 with capacity := some 10 }) w0 h w ∧ (∀ x ∈ h, Polite x.1 x.2) ∧
      received w.sys.log = [9, 9, 5, 4, 3, 1] ∧ delivered w.sys.log = [9, 9, 5, 4] := by
  let w0 : XSys puppet (bndStorage false memStorage) := { sys := init { cfg20 with capacity := some 10 } demoBnd10, src := () }
  obtain ⟨h, w, h1, -, h2⟩ := exists_hist' (f := xstep puppet { cfg20 with capacity := some 10 }) (w0 := w0) puppetActs
    (fun h w => h.all (fun x => politeB x.1 x.2) && decide (received w.sys.log = [9, 9, 5, 4, 3, 1] ∧
      delivered w.sys.log = [9, 9, 5, 4])) (by decide +kernel)
  simp only [Bool.and_eq_true, List.all_eq_true, decide_eq_true_eq] at h2
  exact ⟨w0, w, h, ⟨rfl, demoBnd10, rfl, rfl⟩, h1, fun x hx => polite_of (h2.1 x hx), h2.2.1, h2.2.2⟩

/-- Nothing is excluded. -/
def puppetWorld : World puppet := ⟨fun _ _ => True, fun _ _ _ => True⟩

theorem puppet_trace {S : Storage} {w0 : XSys puppet S} {bs : List (XAct puppet)}
    (h : ((xstep puppet c (trace (xstep puppet c) politeB (fun _ a => a) w0 bs bs.length) (.sys .src)).isNone &&
      (xstep puppet c (trace (xstep puppet c) politeB (fun _ a => a) w0 bs bs.length) (.sys .rdr)).isNone) = true) :
    XRun c puppetWorld w0 (trace (xstep puppet c) politeB (fun _ a => a) w0 bs)
      (traceAct (xstep puppet c) politeB (fun _ a => a) w0 bs) ∧
    ∀ i a, traceAct (xstep puppet c) politeB (fun _ a => a) w0 bs i = some a →
      Polite (trace (xstep puppet c) politeB (fun _ a => a) w0 bs i) a := by
  simp only [Bool.and_eq_true, Option.isNone_iff_eq_none] at h
  refine ⟨⟨run_trace _ _, fun i a _ => ?_, fair_trace h.1, fair_trace h.2⟩,
    guard_trace (fun _ _ h => polite_of h)⟩
  cases a <;> simp [World.Allows, puppetWorld]

/-- The start of the download. -/
def puppetStart : XSys puppet memStorage := { sys := init cfg20 demoMem20, src := () }

/-- A read of 8 bytes sleeps until it has them; the stream goes on until the length that was promised. -/
def puppetRun : List (XAct puppet) :=
  [.poll (.chunk [9, 9])] ++ asys (srcs 6 ++ [.read 8] ++ rdrs 4) ++ [.poll (.chunk [1, 2, 3, 4, 5, 6])] ++
    asys (srcs 8 ++ rdrs 9) ++ [.poll .done] ++ asys (srcs 6) ++
    [.seekRange (.ok ()), .poll (.chunk (List.replicate 12 7))] ++ asys (srcs 8) ++ [.poll .done] ++ asys (srcs 6)

/-- The hypotheses of `C90_calls_return`. -/
example : ∃ (w0 : XSys puppet memStorage) (r : Nat → XSys puppet memStorage) (act : Nat → Option (XAct puppet)),
    Starts memProvider cfg20 w0.sys ∧ XRun cfg20 puppetWorld w0 r act ∧ (∀ i a, act i = some a → Polite (r i) a) ∧
      XKeepsDelivering r act ∧ (r 12).sys.rpc = .rWait 8 8 ∧ (r 200).sys.rpc = .idle ∧ (r 200).sys.spc = .ended ∧
      Ev.readRet 0 8 false (.ok [9, 9, 1, 2, 3, 4, 5, 6]) ∈ (r 200).sys.log := by
  obtain ⟨h1, h2⟩ := puppet_trace (c := cfg20) (w0 := puppetStart) (bs := puppetRun) (by decide +kernel)
  exact ⟨puppetStart, _, _, ⟨rfl, demoMem20, rfl, rfl⟩, h1, h2, working_trace (by decide +kernel), by decide +kernel,
    by decide +kernel, by decide +kernel, by decide +kernel⟩

/-- The hypotheses of `C90_cancel_ends_download`: cancelled while a read sleeps. -/
example : ∃ (w0 : XSys puppet memStorage) (r : Nat → XSys puppet memStorage) (act : Nat → Option (XAct puppet)),
    Starts memProvider cfg20 w0.sys ∧ XRun cfg20 puppetWorld w0 r act ∧ (∀ i a, act i = some a → Polite (r i) a) ∧
      FairFor (xstep puppet cfg20) r act (.sys .reconnTimeout) ∧ StronglyFair (xstep puppet cfg20) r act (.sys .seeCancel) ∧
      (AnswersSeeks fun i => (r i).sys) ∧ act 12 = some (.sys .cancel) ∧ (r 12).sys.rpc = .rWait 8 8 ∧
      (r 100).sys.rpc = .idle ∧ (r 100).sys.spc = .ended := by
  let bs : List (XAct puppet) := [.poll (.chunk [9, 9])] ++
    asys (srcs 6 ++ [.read 8] ++ rdrs 4 ++ [.cancel, .seeCancel] ++ srcs 4 ++ rdrs 9)
  obtain ⟨h1, h2⟩ := puppet_trace (c := cfg20) (w0 := puppetStart) (bs := bs) (by decide +kernel)
  exact ⟨puppetStart, _, _, ⟨rfl, demoMem20, rfl, rfl⟩, h1, h2, fair_trace (by decide +kernel),
    strong_trace (by decide +kernel), answers_trace (sys := XSys.sys) (by decide +kernel),
    trace_at (b := XAct.sys Act.cancel) rfl (by decide +kernel), by decide +kernel, by decide +kernel, by decide +kernel⟩

end SD
