import Verif.Proof.Wild
import Verif.Props.Cancel
import Verif.Props.Requests
import Verif.Props.Chunks

/-!
# Property C88: no HTTP server can make the stream panic or hang

Nothing is assumed of the server here: it may ignore ranges, send other bytes than were asked for,
too many or too few of them, or error pages, differently each time.
-/

set_option linter.unusedVariables false

namespace SD

variable {P : Provider} {c : Cfg}

theorem starts_tape {ρ : Nat → Byte} {s0 : Sys P.S} (h0 : Starts P c s0) :
    Starts P (c.tape ρ) s0 ∧ s0.tape 0 = s0 ∧ NoZero s0 := by
  obtain ⟨h1, st, h2, rfl⟩ := h0
  exact ⟨⟨h1, st, h2, rfl⟩, rfl, fun start => by simp [init]⟩

theorem nonEmpty_seen {c : Cfg} {S : Storage} {w0 : HSys S} {r : Nat → HSys S} {act : Nat → Option HAct}
    (hr : Run (hstep c) w0 r act) {act' : Nat → Option Act}
    (h2 : ∀ i x, act' i = some x → ∃ a, act i = some a ∧ a.Is x) (j : Nat) : act' j ≠ some (.chunk 0) := by
  intro hj
  obtain ⟨a, ha, hx⟩ := h2 j _ hj
  cases hx with
  | sys _ hf => simp [Act.ofTransport] at hf
  | chunk =>
    have := hr.next j _ ha
    simp [hstep] at this

/-- A history as a run that stops at its end. -/
theorem Hist.run {W A : Type} {f : W → A → Option W} {w0 w : W} {h : List (W × A)} (hh : Hist f w0 h w) :
    ∃ r act, Run f w0 r act ∧ r h.length = w ∧ (∀ i, h.length ≤ i → act i = none) ∧
      ∀ i (hi : i < h.length), (r i, act i) = ((h[h.length - 1 - i]).1, some (h[h.length - 1 - i]).2) := by
  induction hh with
  | nil => exact ⟨fun _ => w0, fun _ => none, ⟨rfl, fun _ _ => rfl, nofun⟩, rfl, fun _ _ => rfl, nofun⟩
  | @cons h w w' a hh hs ih =>
    obtain ⟨r, act, h1, h2, h3, h4⟩ := ih
    refine ⟨fun i => if i ≤ h.length then r i else w', fun i => if i = h.length then some a else act i,
      ⟨by simp [h1.start], fun i hi => ?_, fun i b hi => ?_⟩, by simp, fun i hi => ?_, fun i hi => ?_⟩
    · by_cases e : i = h.length
      · simp [e] at hi
      · simp only [e, if_false] at hi
        by_cases e1 : i < h.length
        · simp only [show i + 1 ≤ h.length from e1, show i ≤ h.length from by omega, if_true]
          exact h1.pause i hi
        · simp [show ¬ i + 1 ≤ h.length by omega, show ¬ i ≤ h.length by omega]
    · by_cases e : i = h.length
      · simp only [e, if_true, Option.some.injEq] at hi
        subst hi
        simp [e, h2, hs]
      · simp only [e, if_false] at hi
        by_cases e1 : i < h.length
        · simp only [show i + 1 ≤ h.length from e1, show i ≤ h.length from by omega, if_true]
          exact h1.next i b hi
        · rw [h3 i (by omega)] at hi; cases hi
    · simp only [List.length_cons] at hi
      simp only [show ¬ i = h.length by omega, if_false]
      exact h3 i (by omega)
    · simp only [List.length_cons] at hi
      by_cases e : i = h.length
      · simp [e, h2]
      · have e1 : i < h.length := by omega
        simp only [e, if_false, show i ≤ h.length from by omega, if_true, h4 i e1, List.length_cons]
        have e2 : h.length - i = (h.length - 1 - i) + 1 := by omega
        simp only [Nat.add_sub_cancel]
        have e3 : ∀ (k : Nat) (hk : k < ((w, a) :: h).length) (e : k = (h.length - 1 - i) + 1),
            ((w, a) :: h)[k] = h[h.length - 1 - i] := by
          intro k hk e; subst e; rfl
        rw [e3 _ _ e2]

/-- The history as one of the system, with what is known of its steps. -/
theorem any_server_reach {mime : Text → Option (Text × Text)} {answer : Answer} {w0 w : HSys P.S}
    (h0 : HStarts P c mime answer w0) {A : Answer → Prop} {G : HSys P.S → HAct → Prop} (h : HReach c A G w0 w) :
    ∃ (ρ : Nat → Byte) (t : Nat), Starts P (c.tape ρ) w0.sys ∧
      Reach (c.tape ρ) (fun s x => NonEmpty s x ∧ ∃ w a, G w a ∧ a.Is x) w0.sys (w.sys.tape t) := by
  obtain ⟨l, hl, hG⟩ : ∃ l, Hist (hstep c) w0 l w ∧ ∀ x ∈ l, G x.1 x.2 := by
    induction h with
    | refl => exact ⟨[], .nil, by simp⟩
    | step _ _ hg hs ih =>
      obtain ⟨l, hl, hG⟩ := ih
      exact ⟨_, .cons hl hs, by simpa using ⟨hg, fun a b h => hG _ h⟩⟩
  obtain ⟨r, act, hr, he, hn, hm⟩ := hl.run
  obtain ⟨ρ, act', t, h1, h2, -⟩ := any_server (starts_tape (ρ := fun _ => 0) h0.2.2.2).2.2 hr
  obtain ⟨k1, k2, -⟩ := starts_tape (ρ := ρ) h0.2.2.2
  rw [k2] at h1
  have := h1.reachG (G := fun s x => NonEmpty s x ∧ ∃ w a, G w a ∧ a.Is x) (fun i x hx => by
    refine ⟨fun e => nonEmpty_seen hr h2 i (by rw [hx, e]), ?_⟩
    obtain ⟨a, ha, hax⟩ := h2 i x hx
    by_cases hi : i < l.length
    · have := hm i hi
      rw [ha] at this
      simp only [Prod.mk.injEq, Option.some.injEq] at this
      have hg := hG (l[l.length - 1 - i]) (List.getElem_mem _)
      rw [← this.2] at hg
      exact ⟨_, a, hg, hax⟩
    · rw [hn i (by omega)] at ha; cases ha) l.length
  rw [he] at this
  exact ⟨ρ, _, k1, this⟩

/-- **C88.** Whatever the server answers, the history is one of the system, with some resource and
a transport that resumes anywhere: the log, the storage and both parties are the same. -/
theorem C88_any_server_is_a_transport {mime : Text → Option (Text × Text)} {answer : Answer} {w0 w : HSys P.S}
    (h0 : HStarts P c mime answer w0) {A : Answer → Prop} {G : HSys P.S → HAct → Prop} (h : HReach c A G w0 w) :
    ∃ (remote : Nat → Byte) (s : Sys P.S),
      Starts P { c with remote := remote, remoteLen := none } w0.sys ∧
      Reach { c with remote := remote, remoteLen := none } NonEmpty w0.sys s ∧
      s.log = w.sys.log ∧ s.st = w.sys.st ∧ s.spc = w.sys.spc ∧ s.rpc = w.sys.rpc := by
  obtain ⟨ρ, t, h1, h2⟩ := any_server_reach h0 h
  exact ⟨ρ, _, h1, Reach.mono (fun _ _ h => h.1) h2, rfl, rfl, rfl, rfl⟩

theorem Hist.hreach {S : Storage} {c : Cfg} {w0 w : HSys S} {h : List (HSys S × HAct)} (hh : Hist (hstep c) w0 h w) :
    HReach c (fun _ => True) (fun _ _ => True) w0 w := by
  induction hh with
  | nil => exact .refl
  | cons _ hs ih => exact .step ih (fun _ _ => trivial) trivial hs

/-- **C88.** Whatever the server answers, the task does not panic, with storage that keeps everything. -/
theorem C88_no_panic (hP : Unbounded c.contentLength P) (hb : c.batchSize ≠ 0)
    {mime : Text → Option (Text × Text)} {answer : Answer} {w0 w : HSys P.S} (h0 : HStarts P c mime answer w0)
    (h : HReach c (fun _ => True) (fun _ _ => True) w0 w) : w.sys.spc ≠ .panicked := by
  obtain ⟨ρ, s, h1, h2, -, -, h3, -⟩ := C88_any_server_is_a_transport h0 h
  rw [← h3]
  exact C39_no_panic_unbounded_partial (c := { c with remote := ρ, remoteLen := none }) hP hb h1 h2

/-- C88 with bounded storage, in builds without overflow checks.  With overflow checks see C39. -/
theorem C88_no_panic_unchecked_partial {F : Provider} {bufferSize : Nat}
    (hF : Sparing (some (Bnd.sizeFor bufferSize c.contentLength)) F)
    {mime : Text → Option (Text × Text)} {answer : Answer} {w0 w : HSys (bndStorage false F.S)}
    (h0 : HStarts (bndProvider false F bufferSize) c mime answer w0)
    (h : HReach c (fun _ => True) (fun _ _ => True) w0 w) : w.sys.spc ≠ .panicked := by
  obtain ⟨ρ, s, h1, h2, -, -, h3, -⟩ := C88_any_server_is_a_transport h0 h
  rw [← h3]
  exact C39_no_panic_unchecked_partial (c := { c with remote := ρ, remoteLen := none }) hF h1 h2

/-- **C88.** Whatever the server answers, what is stored is what was received, in the order in which it was
received: nothing is dropped, repeated or mixed up on the way. -/
theorem C88_stored_as_received (hP : Unbounded c.contentLength P) (hb : c.batchSize ≠ 0)
    {mime : Text → Option (Text × Text)} {answer : Answer} {w0 w : HSys P.S} (h0 : HStarts P c mime answer w0)
    (h : HReach c (fun _ => True) (fun _ _ => True) w0 w) :
    accepted w.sys.log <+: received w.sys.log ∧
      ∀ pos r, Ev.progress pos r .complete ∈ w.sys.log → accepted w.sys.log = received w.sys.log := by
  obtain ⟨ρ, s, h1, h2, h4, -, h3, -⟩ := C88_any_server_is_a_transport h0 h
  rw [← h4]
  obtain ⟨k1, -, k2, -⟩ := C41_chunks_stored_unbounded_partial (c := { c with remote := ρ, remoteLen := none }) hP hb h1
    (Reach.mono (fun _ _ _ => trivial) h2)
  exact ⟨k1, k2⟩

/-- Bytes arrive, of whatever kind: while the task waits for the server, it delivers a chunk of a body
again and again. -/
def HKeepsDelivering {S : Storage} (r : Nat → HSys S) (act : Nat → Option HAct) : Prop :=
  Working (fun i => (r i).sys) fun j => ∃ n, act j = some (.chunk n)

/-- How many bodies have ended. -/
def hEnds {S : Storage} (h : List (HSys S × HAct)) : Nat :=
  h.countP fun x => match x.2 with | .sys a => a.isEof | _ => false

/-- **C88.** Whatever the server answers, the stream asks for a range at most once for each seek and each
body that ends. -/
theorem C88_requests_have_a_cause {mime : Text → Option (Text × Text)} {answer : Answer} {w0 w : HSys P.S}
    (h0 : HStarts P c mime answer w0) {h : List (HSys P.S × HAct)} (hh : Hist (hstep c) w0 h w) :
    rangeRequests w.sys.log ≤ hSeekCalls h + hEnds h := by
  obtain ⟨r, act, hr, he, -, hg⟩ := hh.run
  obtain ⟨ρ, act', t, h1, h2, h3⟩ := any_server (starts_tape (ρ := fun _ => 0) h0.2.2.2).2.2 hr
  obtain ⟨k1, k2, -⟩ := starts_tape (ρ := ρ) h0.2.2.2
  rw [k2] at h1
  have key : ∀ k, k ≤ h.length → ∃ h', Hist (step (c.tape ρ)) w0.sys h' ((r k).sys.tape (t k)) ∧
      seekCalls h' = hSeekCalls (h.drop (h.length - k)) ∧
      h'.countP (fun x => x.2.isEof) = hEnds (h.drop (h.length - k)) := by
    intro k
    induction k with
    | zero =>
      intro _
      have e : (r 0).sys.tape (t 0) = w0.sys := h1.start
      rw [e]
      exact ⟨[], .nil, by simp [seekCalls, hSeekCalls], by simp [hEnds]⟩
    | succ k ih =>
      intro hk
      obtain ⟨h', i1, i2, i3⟩ := ih (by omega)
      have hgk := hg k (by omega)
      simp only [Prod.mk.injEq] at hgk
      obtain ⟨x, hx, his⟩ := h3 k _ hgk.2
      refine ⟨_, .cons i1 (h1.next k x hx), ?_, ?_⟩
      all_goals
        have e : h.length - (k + 1) = h.length - 1 - k := by omega
        have e2 : h.length - 1 - k + 1 = h.length - k := by omega
        rw [e, List.drop_eq_getElem_cons (by omega), e2]
        generalize (h[h.length - 1 - k]'(by omega)) = y at his
        obtain ⟨y1, y2⟩ := y
        simp only [seekCalls, hSeekCalls, hEnds, List.countP_cons] at i2 i3 ⊢
        simp only at his
      · rw [i2]
        cases his <;> simp [Act.isSeek]
      · rw [i3]
        cases his <;> simp [Act.isEof]
  obtain ⟨h', j1, j2, j3⟩ := key h.length (Nat.le_refl _)
  simp only [Nat.sub_self, List.drop_zero] at j2 j3
  have := C83_requests_have_a_cause k1 j1
  rw [j2, j3, he] at this
  exact this

theorem any_server_fair {S : Storage} {w0 : HSys S} {r : Nat → HSys S} {act : Nat → Option HAct}
    (hr : Run (hstep c) w0 r act) {ρ : Nat → Byte} {act' : Nat → Option Act} {t : Nat → Nat}
    (h3 : ∀ i a, act i = some a → ∃ x, act' i = some x ∧ a.Is x) :
    (∀ x : Act, x.ofTransport = false → ∀ j, step (c.tape ρ) ((r j).sys.tape (t j)) x ≠ none →
      hstep c (r j) (.sys x) ≠ none) ∧
    ∀ (x : Act) j, act j = some (.sys x) → act' j = some x := by
  constructor
  · intro x hx j hen hn
    rw [tape_step ρ hx] at hen
    simp only [hstep, hx, Bool.false_eq_true, if_false] at hn
    split at hn
    · cases hn
    · next e => rw [e] at hen; exact hen rfl
  · intro x j ha
    obtain ⟨x', h4, h5⟩ := h3 j _ ha
    cases h5
    exact h4

/-- **C88.** Whatever bytes the server sends, as long as bytes arrive, every `read` and `seek` returns. -/
theorem C88_calls_return (hP : Unbounded c.contentLength P) (hb : c.batchSize ≠ 0)
    {mime : Text → Option (Text × Text)} {answer : Answer} {w0 : HSys P.S} (h0 : HStarts P c mime answer w0)
    {r : Nat → HSys P.S} {act : Nat → Option HAct} (h : HRun c (fun _ => True) w0 r act)
    (hk : HKeepsDelivering r act) (hmax : ∀ j, Ev.request (two64 - 1) ∉ (r j).sys.log) {i : Nat}
    (hc : (r i).sys.rpc.inCall = true) :
    ∃ j, i ≤ j ∧ ((r j).sys.rpc = .idle ∨ (r j).sys.rpc = .panicked) := by
  obtain ⟨ρ, act', t, h1, h2, h3⟩ := any_server (starts_tape (ρ := fun _ => 0) h0.2.2.2).2.2 h.run
  obtain ⟨k1, k2, -⟩ := starts_tape (ρ := ρ) h0.2.2.2
  rw [k2] at h1
  obtain ⟨hen, hact⟩ := any_server_fair (ρ := ρ) (t := t) h.run h3
  have hfair : ∀ x : Act, x.ofTransport = false → FairFor (hstep c) r act (.sys x) →
      Fair (c.tape ρ) (fun i => (r i).sys.tape (t i)) act' x := by
    intro x hx hf i h
    obtain ⟨j, hj, ha⟩ := hf i (fun j hj => hen x hx j (h j hj))
    exact ⟨j, hj, hact x j ha⟩
  refine C63_calls_return_unbounded (c := c.tape ρ) hP hb k1 h1 (hfair _ rfl h.task) (hfair _ rfl h.consumer) ?_
    (nonEmpty_seen h.run h2) hmax hc
  intro hw i
  obtain ⟨j, hj, n, ha⟩ := hk hw i
  refine ⟨j, n, hj, ?_, ?_⟩
  · have := h.run.next j _ ha
    simp only [hstep] at this
    split at this
    · next e => exact e.2.2.1
    · cases this
  · obtain ⟨x, h4, h5⟩ := h3 j _ ha
    cases h5
    exact h4

/-- **C88.** Whatever the server answers, a cancelled download ends and every call returns, if every
request for a range is answered somehow or fails. -/
theorem C88_cancel_ends_download (hP : Unbounded c.contentLength P) (hb : c.batchSize ≠ 0)
    {mime : Text → Option (Text × Text)} {answer : Answer} {w0 : HSys P.S} (h0 : HStarts P c mime answer w0)
    {r : Nat → HSys P.S} {act : Nat → Option HAct} (h : HRun c (fun _ => True) w0 r act)
    (ht : FairFor (hstep c) r act (.sys .reconnTimeout)) (hp : StronglyFair (hstep c) r act (.sys .seeCancel))
    (hs : AnswersSeeks fun i => (r i).sys) {i : Nat} {a : Act} (ha : act i = some (.sys a)) (hc : Cancels c a) :
    (∃ j, i < j ∧ (r j).sys.spc = .ended) ∧
      ∀ k, (r k).sys.rpc.inCall = true → ∃ l, k ≤ l ∧ ((r l).sys.rpc = .idle ∨ (r l).sys.rpc = .panicked) := by
  obtain ⟨ρ, act', t, h1, h2, h3⟩ := any_server (starts_tape (ρ := fun _ => 0) h0.2.2.2).2.2 h.run
  obtain ⟨k1, k2, -⟩ := starts_tape (ρ := ρ) h0.2.2.2
  rw [k2] at h1
  obtain ⟨hen, hact⟩ := any_server_fair (ρ := ρ) (t := t) h.run h3
  have hfair : ∀ x : Act, x.ofTransport = false → FairFor (hstep c) r act (.sys x) →
      Fair (c.tape ρ) (fun i => (r i).sys.tape (t i)) act' x := by
    intro x hx hf i h
    obtain ⟨j, hj, ha⟩ := hf i (fun j hj => hen x hx j (h j hj))
    exact ⟨j, hj, hact x j ha⟩
  have hsel : StronglyFair (step (c.tape ρ)) (fun i => (r i).sys.tape (t i)) act' .seeCancel := by
    intro hinf i
    obtain ⟨j, hj, ha⟩ := hp (fun i => by
      obtain ⟨j, hj, h⟩ := hinf i
      exact ⟨j, hj, hen _ rfl j h⟩) i
    exact ⟨j, hj, hact _ j ha⟩
  have hne := nonEmpty_seen h.run h2
  refine ⟨C75_cancel_ends_download_unbounded_partial (c := c.tape ρ) hP hb k1 h1 (hfair _ rfl h.task)
    (hfair _ rfl h.consumer) (hfair _ rfl ht) hsel hs hne (hact _ _ ha) hc, fun k hk => ?_⟩
  exact C75_calls_return_unbounded_partial (c := c.tape ρ) hP hb k1 h1 (hfair _ rfl h.task)
    (hfair _ rfl h.consumer) (hfair _ rfl ht) hsel hs hne (hact _ _ ha) hc hk

/-! ### The hypotheses are met by a server that lies -/

/-- A server that promises 20 bytes and ranges, and answers every request for a range with the bytes 7, 7, 7. -/
def liar : Answer
  | .get => some { status := 200, header := headers20, body := bytes20 }
  | .range _ => some { status := 206, header := noHeaders, body := [7, 7, 7] }

theorem liar_new : httpNew (fun _ => none) liar = .ok (stream20 headers20 (some 20)) :=
  server20_new (hd := headers20) (by decide +kernel)

/-- The start of the download. -/
def liarStart : HSys memStorage := { sys := init cfg20 demoMem20, http := stream20 headers20 (some 20) }

theorem liar_starts : HStarts memProvider cfg20 (fun _ => none) liar liarStart :=
  ⟨liar_new, rfl, rfl, rfl, demoMem20, rfl, rfl⟩

/-- The next body. -/
def liarBody : List Act := [.eof] ++ srcs 4 ++ [.seekOk 0, .chunk 3] ++ srcs 8

/-- The first body ends after two bytes, and the task asks again; a read of 8 bytes sleeps until it has them, all
of the others are 7; the download is complete after six more bodies. -/
def liarActs : List Act :=
  [.chunk 2] ++ srcs 6 ++ [.read 8] ++ rdrs 4 ++ (List.replicate 6 liarBody).flatten ++ [.eof] ++ srcs 6 ++ rdrs 9

/-- The hypotheses of `C88_calls_return`. -/
example : ∃ (w0 : HSys memStorage) (r : Nat → HSys memStorage) (act : Nat → Option HAct),
    HStarts memProvider cfg20 (fun _ => none) liar w0 ∧ HRun cfg20 (fun _ => True) w0 r act ∧
      HKeepsDelivering r act ∧ (r 12).sys.rpc = .rWait 8 8 ∧ (r 200).sys.rpc = .idle ∧ (r 200).sys.spc = .ended ∧
      Ev.readRet 0 8 false (.ok [1, 2, 7, 7, 7, 7, 7, 7]) ∈ (r 200).sys.log := by
  refine ⟨liarStart, trace (hstep cfg20) (fun _ _ => true) (fun _ => toHAct liar) liarStart liarActs,
    traceAct (hstep cfg20) (fun _ _ => true) (fun _ => toHAct liar) liarStart liarActs, liar_starts,
    ⟨run_trace _ _, fun _ _ _ _ _ => trivial, fair_trace (by decide +kernel), fair_trace (by decide +kernel)⟩,
    working_trace (by decide +kernel), by decide +kernel, by decide +kernel, by decide +kernel, by decide +kernel⟩

/-- The same, step by step. -/
def liarHist : List Act :=
  [.chunk 2] ++ srcs 6 ++ (List.replicate 6 ([.eof, .src, .seekOk 0, .chunk 3] ++ srcs 6)).flatten ++ [.eof] ++ srcs 6

/-- The hypotheses of `C88_no_panic` and `C88_requests_have_a_cause`: seven bodies end, and six ranges are asked for. -/
example : ∃ (w : HSys memStorage) (h : List (HSys memStorage × HAct)), Hist (hstep cfg20) liarStart h w ∧
    HReach cfg20 (fun _ => True) (fun _ _ => True) liarStart w ∧
    hSeekCalls h = 0 ∧ hEnds h = 7 ∧ rangeRequests w.sys.log = 6 ∧ (received w.sys.log).length = 20 := by
  obtain ⟨h, w, h1, -, h2⟩ := exists_hist' (f := hstep cfg20) (w0 := liarStart)
    (liarHist.map (toHAct liar))
    (fun h w => decide (hSeekCalls h = 0 ∧ hEnds h = 7 ∧ rangeRequests w.sys.log = 6 ∧
      (received w.sys.log).length = 20)) (by decide +kernel)
  exact ⟨w, h, h1, h1.hreach, of_decide_eq_true h2⟩

/-- The hypotheses of `C88_no_panic_unchecked_partial`: bounded storage of 10 bytes. -/
example : ∃ w0 w : HSys (bndStorage false memStorage),
    HStarts (bndProvider false memProvider 10) { cfg20 with capacity := some 10 } (fun _ => none) liar w0 ∧
    HReach { cfg20 with capacity := some 10 } (fun _ => True) (fun _ _ => True) w0 w ∧
    (received w.sys.log).length = 8 ∧
    delivered w.sys.log = [1, 2, 7, 7, 7, 7] := by
  let w0 : HSys (bndStorage false memStorage) :=
    { sys := init { cfg20 with capacity := some 10 } demoBnd10, http := stream20 headers20 (some 20) }
  let as : List Act := [.chunk 2] ++ srcs 6 ++ (List.replicate 2 ([.eof, .src, .seekOk 0, .chunk 3] ++ srcs 6)).flatten ++
    [.read 6] ++ rdrs 4
  obtain ⟨h, w, h1, -, h2⟩ := exists_hist' (f := hstep { cfg20 with capacity := some 10 }) (w0 := w0)
    (as.map (toHAct liar))
    (fun h w => decide ((received w.sys.log).length = 8 ∧
      delivered w.sys.log = [1, 2, 7, 7, 7, 7])) (by decide +kernel)
  exact ⟨w0, w, ⟨liar_new, rfl, rfl, rfl, demoBnd10, rfl, rfl⟩, h1.hreach, of_decide_eq_true h2⟩

/-- The hypotheses of `C88_cancel_ends_download`: cancelled while a read sleeps. -/
example : ∃ (w0 : HSys memStorage) (r : Nat → HSys memStorage) (act : Nat → Option HAct),
    HStarts memProvider cfg20 (fun _ => none) liar w0 ∧ HRun cfg20 (fun _ => True) w0 r act ∧
      FairFor (hstep cfg20) r act (.sys .reconnTimeout) ∧ StronglyFair (hstep cfg20) r act (.sys .seeCancel) ∧
      (AnswersSeeks fun i => (r i).sys) ∧ act 27 = some (.sys .cancel) ∧ (r 27).sys.rpc = .rWait 8 8 ∧
      (r 100).sys.rpc = .idle ∧ (r 100).sys.spc = .ended := by
  let bs : List Act := [.chunk 2] ++ srcs 6 ++ [.read 8] ++ rdrs 4 ++ liarBody ++ [.cancel, .seeCancel] ++ srcs 4 ++ rdrs 9
  refine ⟨liarStart, trace (hstep cfg20) (fun _ _ => true) (fun _ => toHAct liar) liarStart bs,
    traceAct (hstep cfg20) (fun _ _ => true) (fun _ => toHAct liar) liarStart bs, liar_starts,
    ⟨run_trace _ _, fun _ _ _ _ _ => trivial, fair_trace (by decide +kernel), fair_trace (by decide +kernel)⟩,
    fair_trace (by decide +kernel), strong_trace (by decide +kernel), answers_trace (sys := HSys.sys) (by decide +kernel),
    trace_at (b := Act.cancel) rfl (by decide +kernel), by decide +kernel, by decide +kernel, by decide +kernel⟩

end SD
