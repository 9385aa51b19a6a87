import Verif.Proof.HttpSystem
import Verif.Props.Reads
import Verif.Props.Panic
import Verif.Props.Task

/-!
# Property C61: what a consumer reads from an HTTP source

The whole stack: `HttpStream`, download task, storage and reader.  The only assumption about
the transport is `RangeServer`: the server offers `remote`, honours ranges that are not empty
(RFC 9110) and says so.  The server may fail at any time, bodies may break off at any byte.
-/

set_option linter.unusedVariables false

namespace SD

/-! ### Without seeks -/

theorem noSeek_ranges {S : Storage} {c : Cfg} {st : S.σ} {s : Sys S} (h : Reach c NoSeek (init c st) s) :
    ∀ start e, s.spc = .seeking start (some e) → start < e := by
  have key : (RSet.WF s.dl ∧ s.rpc.target = none ∧ s.seekQ = none ∧ ∀ p, s.spc ≠ .seekMsg p) ∧
      ∀ start e, s.spc = .seeking start (some e) → start < e := by
    refine Reach.inv (P := fun s => (RSet.WF s.dl ∧ s.rpc.target = none ∧ s.seekQ = none ∧
      ∀ p, s.spc ≠ .seekMsg p) ∧ ∀ start e, s.spc = .seeking start (some e) → start < e) h
      ⟨⟨trivial, rfl, rfl, by simp [init]⟩, by simp [init]⟩ ?_
    rintro s s' a ⟨⟨h1, h2, h3, h4⟩, h5⟩ hg ht
    have hwf := wf_step h1 ht
    have hgap : ∀ lo hi x y, RSet.nextGap s.dl lo hi = some (x, y) → x < y :=
      fun lo hi x y h => (RSet.nextGap_some h1 h).2.1
    unfold NoSeek at hg
    refine ⟨⟨hwf, ?_⟩, ?_⟩
    · clear hwf h1 h5 hgap
      cases ht <;> grind [RdrPc.target, roundPc, startPc]
    · clear hwf h1
      cases ht <;> grind [RdrPc.target, roundPc, startPc]
  exact key.2

/-- C61 without seeks, for storage that keeps everything: what the reads have returned is a
prefix of the resource, through any number of broken connections, reconnects and repeated
range requests. -/
theorem C61_sequential_unbounded {P : Provider} {c : Cfg} (hP : Unbounded c.contentLength P)
    (hb : c.batchSize ≠ 0) (hk : c.KeepsErrors) {remote : List Byte}
    {mime : Text → Option (Text × Text)} {answer : Answer} (hA : RangeServer remote answer)
    {w0 w : HSys P.S} (h0 : HStarts P c mime answer w0) (h : HReach c (RangeServer remote) HNoSeek w0 w) :
    delivered w.sys.log <+: remote := by
  have hi := HInv.starts hA h0
  obtain ⟨-, -, hss, hst⟩ := h0
  have h1 : ∀ b, delivered w.sys.log = slice (fun i => remote.getD i b) 0 (delivered w.sys.log).length := by
    intro b
    have hst' : Starts P (c.on remote b) w0.sys := hst
    obtain ⟨hR, -⟩ := hreach_sim (b := b) (G' := NoSeek) (fun w a x hg hx f hf => by
        subst hf; cases hx; exact hg f rfl) hi
      (fun w a hR _ _ start e hp => by
        obtain ⟨-, st, -, hst2⟩ := hst'
        rw [hst2] at hR
        exact Or.inl (noSeek_ranges (hR.mono fun _ _ hg => hg.2) start e hp)) h
    exact C01_sequential_unbounded_partial (c := c.on remote b) hP hb
      (fun n hn => ⟨remote.length, rfl, Nat.le_of_eq (hi.real n hn).symm⟩) hk hst'
      (hR.mono fun s a hg => ⟨hg.1, hg.2, fun _ hf => absurd hf (by rw [show (c.on remote b).supportsSeek = c.supportsSeek from rfl, hss]; simp)⟩)
  have h2 := within_of_slice h1
  rw [h2]
  simpa using List.take_prefix _ _

/-- C61 without seeks, for storage that keeps a window, if no reconnect takes place while
received bytes wait to be written (C35 says why this is needed). -/
theorem C61_sequential_bounded_partial {P : Provider} {c : Cfg} (hP : Windowed c.contentLength P)
    {remote : List Byte} {mime : Text → Option (Text × Text)} {answer : Answer}
    (hA : RangeServer remote answer) {w0 w : HSys P.S} (h0 : HStarts P c mime answer w0)
    (h : HReach c (RangeServer remote) (fun w a => HNoSeek w a ∧ HClean w a) w0 w) :
    delivered w.sys.log <+: remote := by
  have hi := HInv.starts hA h0
  obtain ⟨-, -, hss, hst⟩ := h0
  have h1 : ∀ b, delivered w.sys.log = slice (fun i => remote.getD i b) 0 (delivered w.sys.log).length := by
    intro b
    have hst' : Starts P (c.on remote b) w0.sys := hst
    obtain ⟨hR, -⟩ := hreach_sim (b := b) (G' := fun s a => NoSeek s a ∧ CleanReconnect s a)
      (fun w a x hg hx => ⟨fun f hf => by subst hf; cases hx; exact hg.1 f rfl,
        fun pos hf => by
          subst hf
          cases hx with
          | sys _ h => simp [Act.ofTransport] at h
          | reconnOk answer => exact hg.2 answer rfl⟩) hi
      (fun w a hR _ _ start e hp => by
        obtain ⟨-, st, -, hst2⟩ := hst'
        rw [hst2] at hR
        exact Or.inl (noSeek_ranges (hR.mono fun _ _ hg => hg.2.1) start e hp)) h
    exact C01_sequential_bounded (c := c.on remote b) hP hst' hR
  have h2 := within_of_slice h1
  rw [h2]
  simpa using List.take_prefix _ _

/-! ### With seeks -/

/-- C61 with any seeks, for storage that keeps everything, as long as the task asks for
proper ranges (which C31 does not guarantee): a read that did not have to wait returns
exactly the bytes of the resource at its position. -/
theorem C61_unblocked_read_partial {P : Provider} {c : Cfg} (hP : Unbounded c.contentLength P)
    (hb : c.batchSize ≠ 0) {remote : List Byte}
    {mime : Text → Option (Text × Text)} {answer : Answer} (hA : RangeServer remote answer)
    {w0 w : HSys P.S} (h0 : HStarts P c mime answer w0) (h : HReach c (RangeServer remote) RangesOk w0 w)
    {pos len : Nat} {res : Res (List Byte)} (hr : Ev.readRet pos len true res ∈ w.sys.log) :
    ∃ bs, res = .ok bs ∧ bs = (remote.drop pos).take bs.length ∧
      bs.length = c.normalize (pos + len) - pos := by
  have hi := HInv.starts hA h0
  obtain ⟨-, -, hss, hst⟩ := h0
  have h1 : ∀ b, res = .ok (slice (fun i => remote.getD i b) pos (c.normalize (pos + len) - pos)) := by
    intro b
    have hst' : Starts P (c.on remote b) w0.sys := hst
    obtain ⟨hR, -⟩ := hreach_sim (b := b) (G' := Any) (fun w a x hg hx => trivial) hi
      (fun w a _ _ hg => hg) h
    exact C02_unblocked_read_exact (c := c.on remote b) hP hb
      (fun n hn => ⟨remote.length, rfl, Nat.le_of_eq (hi.real n hn).symm⟩) hst'
      (hR.mono fun s a hg => hg.1) hr
  refine ⟨_, h1 0, ?_, by simp⟩
  apply within_of_slice
  intro b
  have h2 := h1 b
  rw [h1 0] at h2
  simp only [slice_length]
  simpa using h2

/-- C61 with seeks, for storage that keeps everything, if the consumer goes back only over
bytes it has read or that are downloaded, and as long as the task asks for proper ranges: every read returns the bytes of the resource at its position. -/
theorem C61_forward_reads_partial {P : Provider} {c : Cfg} (hP : Unbounded c.contentLength P)
    (hb : c.batchSize ≠ 0) (hk : c.KeepsErrors) {remote : List Byte}
    {mime : Text → Option (Text × Text)} {answer : Answer} (hA : RangeServer remote answer)
    {w0 w : HSys P.S} (h0 : HStarts P c mime answer w0)
    (h : HReach c (RangeServer remote) (fun w a => RangesOk w a ∧ HConnected c w a) w0 w)
    {pos len : Nat} {fast : Bool} {bs : List Byte} (hr : Ev.readRet pos len fast (.ok bs) ∈ w.sys.log) :
    bs = (remote.drop pos).take bs.length := by
  have hi := HInv.starts hA h0
  obtain ⟨-, -, hss, hst⟩ := h0
  apply within_of_slice
  intro b
  have hst' : Starts P (c.on remote b) w0.sys := hst
  obtain ⟨hR, -⟩ := hreach_sim (b := b) (G' := Connected (c.on remote b))
    (fun w a x hg hx f p hf hp => by subst hf; cases hx; exact hg.2 f p rfl hp) hi
    (fun w a _ _ hg => hg.1) h
  exact C03_reads_after_seeks_partial (c := c.on remote b) hP hb
    (fun n hn => ⟨remote.length, rfl, Nat.le_of_eq (hi.real n hn).symm⟩) hk hst'
    (hR.mono fun s a hg => ⟨hg.1, fun _ hf => absurd hf (by
      rw [show (c.on remote b).supportsSeek = c.supportsSeek from rfl, hss]; simp), fun _ => hg.2⟩)
    pos len fast bs hr

/-- The task never asks for an improper range if the length is unknown. -/
theorem ranges_unknown {S : Storage} {c : Cfg} (hn : c.contentLength = none) {G : Sys S → Act → Prop} {st : S.σ}
    {s : Sys S} (h : Reach c G (init c st) s) : ∀ start e, s.spc ≠ .seeking start (some e) := by
  refine Reach.inv (P := fun s => ∀ start e, s.spc ≠ .seeking start (some e)) h (by simp [init]) ?_
  rintro s s' a h1 hg ht
  cases ht <;> grind [roundPc, startPc]

/-- C61 with any seeks if the length is unknown: no restriction. -/
theorem C61_unblocked_read_unknown_length {P : Provider} {c : Cfg} (hP : Unbounded c.contentLength P)
    (hb : c.batchSize ≠ 0) (hn : c.contentLength = none) {remote : List Byte}
    {mime : Text → Option (Text × Text)} {answer : Answer} (hA : RangeServer remote answer)
    {w0 w : HSys P.S} (h0 : HStarts P c mime answer w0)
    (h : HReach c (RangeServer remote) (fun _ _ => True) w0 w)
    {pos len : Nat} {res : Res (List Byte)} (hr : Ev.readRet pos len true res ∈ w.sys.log) :
    ∃ bs, res = .ok bs ∧ bs = (remote.drop pos).take bs.length ∧ bs.length = len := by
  have hi := HInv.starts hA h0
  have hok : HReach c (RangeServer remote) RangesOk w0 w := by
    have h3 : ∀ w, HReach c (RangeServer remote) (fun _ _ => True) w0 w →
        ∀ start e, w.sys.spc ≠ .seeking start (some e) := by
      intro w h
      obtain ⟨-, -, -, -, st, -, e⟩ := h0
      obtain ⟨hR, -⟩ := hreach_sim (b := 0) (G' := Any) (fun w a x hg hx => trivial) hi
        (fun w a hR _ _ start e' hp => by
          rw [e] at hR
          exact absurd hp (ranges_unknown (c := c.on remote 0) hn hR start e')) h
      rw [e] at hR
      exact ranges_unknown (c := c.on remote 0) hn hR
    refine (h.and fun w h a start e hp => ?_).mono fun _ _ hg => hg.2
    exact absurd hp (h3 w h start e)
  obtain ⟨bs, h1, h2, h3⟩ := C61_unblocked_read_partial hP hb hA h0 hok hr
  exact ⟨bs, h1, h2, by rw [h3]; simp [Cfg.normalize, hn]⟩

/-! ### C61 fails: the server ignores an inverted range -/

/-- The bytes 1 to 20. -/
def bytes20 : List Byte := (List.range 20).map fun i => UInt8.ofNat (i + 1)

/-- Headers that offer ranges and give the length. -/
def headers20 : Text → Option Text := fun n =>
  if n = acceptRanges then some "bytes".toList
  else if n = contentLengthHeader then some "20".toList else none

/-- Headers that offer ranges and do not give the length. -/
def headersNoLen : Text → Option Text := fun n =>
  if n = acceptRanges then some "bytes".toList else none

/-- A server of these bytes that does what RFC 9110 says for the requests below: `bytes=15-7` is
not a valid range (section 14.1.2), so the header must be ignored (section 14.2) and
the answer is the whole resource with status 200. -/
def server20 (hd : Text → Option Text) : Answer
  | .get => some { status := 200, header := hd, body := bytes20 }
  | .range v =>
    if v = "bytes=8-19".toList then some { status := 206, header := noHeaders, body := bytes20.drop 8 }
    else if v = "bytes=4-19".toList then some { status := 206, header := noHeaders, body := bytes20.drop 4 }
    else if v = "bytes=2-7".toList then some { status := 206, header := noHeaders, body := (bytes20.take 8).drop 2 }
    else if v = "bytes=2-".toList then some { status := 206, header := noHeaders, body := bytes20.drop 2 }
    else if v = "bytes=8-".toList then some { status := 206, header := noHeaders, body := bytes20.drop 8 }
    else if v = "bytes=15-7".toList then some { status := 200, header := hd, body := bytes20 }
    else some { status := 416, header := noHeaders, body := [] }

theorem part_closed {remote : List Byte} {v : Text} {a b : Nat} {s : Nat → Prop} [DecidablePred s]
    (e : v = formatRange a (some b)) (hv : ∀ p, s p ↔ AsksFor v p) :
    part remote s = (remote.take (b + 1)).drop a := by
  rw [← part_interval]
  unfold part
  congr 1
  apply List.filter_congr
  intro p _
  have h1 := hv p
  rw [e, asksFor_closed] at h1
  have h2 : s p ↔ a ≤ p ∧ p < b + 1 := by rw [h1]; omega
  exact decide_eq_decide.mpr h2

theorem part_open {remote : List Byte} {v : Text} {a : Nat} {s : Nat → Prop} [DecidablePred s]
    (e : v = formatRange a none) (hv : ∀ p, s p ↔ AsksFor v p) : part remote s = remote.drop a := by
  rw [← part_drop]
  unfold part
  congr 1
  apply List.filter_congr
  intro p _
  have h1 := hv p
  rw [e, asksFor_open] at h1
  simpa using h1

theorem server20_range {hd : Text → Option Text} (ha : hd acceptRanges = some "bytes".toList)
    (hl : ∀ v, hd contentLengthHeader = some v → v = "20".toList) : RangeServer bytes20 (server20 hd) := by
  refine ⟨⟨?_, ?_, ?_⟩, ?_⟩
  · intro r h _; simp [server20] at h; subst h; rfl
  · intro r h _ n hn
    simp [server20] at h; subst h
    simp only [HttpResp.contentLength, Option.bind_eq_some_iff] at hn
    obtain ⟨v, h1, h2⟩ := hn
    rw [hl v h1] at h2
    have : some n = some 20 := by rw [← h2]; decide +kernel
    simpa [bytes20] using this
  · intro v r h he s hs hv hne
    simp only [server20] at h
    split at h
    · rename_i e
      simp at h; subst h
      rw [part_closed (a := 8) (b := 19) (by rw [e]; decide +kernel) hv]
      rfl
    split at h
    · rename_i e
      simp at h; subst h
      rw [part_closed (a := 4) (b := 19) (by rw [e]; decide +kernel) hv]
      rfl
    split at h
    · rename_i e
      simp at h; subst h
      rw [part_closed (a := 2) (b := 7) (by rw [e]; decide +kernel) hv]
    split at h
    · rename_i e
      simp at h; subst h
      rw [part_open (a := 2) (by rw [e]; decide +kernel) hv]
    split at h
    · rename_i e
      simp at h; subst h
      rw [part_open (a := 8) (by rw [e]; decide +kernel) hv]
    split at h
    · rename_i e
      obtain ⟨p, hp⟩ := hne
      rw [hv p, show v = formatRange 15 (some 7) by rw [e]; decide +kernel, asksFor_closed] at hp
      omega
    · simp at h; subst h
      simp [HttpResp.isError] at he
  · intro r h; simp [server20] at h; subst h
    exact ⟨"bytes".toList, ha, by decide⟩

theorem headers20_ok : RangeServer bytes20 (server20 headers20) :=
  server20_range (by decide +kernel) (by
    intro v h
    rw [show headers20 contentLengthHeader = some "20".toList by decide +kernel] at h
    simpa using h.symm)

theorem headersNoLen_ok : RangeServer bytes20 (server20 headersNoLen) :=
  server20_range (by decide +kernel) (by
    intro v h
    rw [show headersNoLen contentLengthHeader = none by decide +kernel] at h
    simp at h)

/-- The streams of this server. -/
def stream20 (hd : Text → Option Text) (len : Option Nat) : HttpStream :=
  { stream := bytes20, contentLength := len, contentType := none, header := hd }

theorem server20_new {hd : Text → Option Text} {len : Option Nat}
    (h1 : HttpResp.contentLength { status := 200, header := hd, body := [] } = len) :
    httpNew (fun _ => none) (server20 hd) = .ok (stream20 hd len) := by
  have h2 : ∀ x : Option Text, (x.bind fun _ => (none : Option (Text × Text))) = none := by
    intro x; cases x <;> rfl
  have h3 : httpNew (fun _ => none) (server20 hd) = .ok {
      stream := bytes20
      contentLength := HttpResp.contentLength { status := 200, header := hd, body := [] }
      contentType := (hd contentTypeHeader).bind fun _ => (none : Option (Text × Text))
      header := hd } := rfl
  rw [h3, h1, h2]
  rfl

/-- An action, where the server answers the requests. -/
def toHAct (answer : Answer) : Act → HAct
  | .chunk n => .chunk n
  | .seekOk _ => .seekRange answer
  | .reconnOk _ => .reconnect answer
  | a => .sys a

/-- Run a list of actions, with one server throughout, testing `g` before each one. -/
def hrun {S : Storage} (g : HSys S → Act → Bool) (c : Cfg) (answer : Answer) (w : HSys S) :
    List Act → Option (HSys S)
  | [] => some w
  | a :: as =>
    if g w a then
      match hstep c w (toHAct answer a) with
      | some w' => hrun g c answer w' as
      | none => none
    else none

theorem hreach_hrun {S : Storage} {g : HSys S → Act → Bool} {c : Cfg} {answer : Answer} {A : Answer → Prop}
    {G : HSys S → HAct → Prop} (hA : A answer) (hG : ∀ w a, g w a = true → G w (toHAct answer a)) {w0 : HSys S}
    (as : List Act) : ∀ {w1 w : HSys S}, HReach c A G w0 w1 → hrun g c answer w1 as = some w →
      HReach c A G w0 w := by
  induction as with
  | nil => intro w1 w h1 h; simp [hrun] at h; subst h; exact h1
  | cons a as ih =>
    intro w1 w h1 h
    simp only [hrun] at h
    split at h
    · rename_i hga
      split at h
      · rename_i w2 h2
        refine ih (h1.step ?_ (hG _ _ hga) h2) h
        intro answer' he
        cases a <;> simp [HAct.answer, toHAct] at he <;> subst he <;> exact hA
      · simp at h
    · simp at h

/-- C61 fails with seeks: the consumer reads the first byte, seeks to 8, back to 2 and forward
to 15.  The task asks for the range from 15 to 8 (C31), `HttpStream` sends `bytes=15-7`, the
server ignores it and sends the resource from its start, and the read at 15 returns the
first two bytes of the resource. -/
theorem C61_reads_violated :
    ∃ w0 w : HSys memStorage, HStarts memProvider cfg20 (fun _ => none) (server20 headers20) w0 ∧
      HReach cfg20 (RangeServer bytes20) (fun _ _ => True) w0 w ∧
      Ev.readRet 15 2 true (.ok [1, 2]) ∈ w.sys.log ∧ (bytes20.drop 15).take 2 = [16, 17] := by
  let w0 : HSys memStorage := { sys := init cfg20 demoMem20, http := stream20 headers20 (some 20) }
  obtain ⟨w, h1, h2⟩ := of_any (o := hrun (fun _ _ => true) cfg20 (server20 headers20) w0
    (threeSeeks ++ [.seekOk 0, .chunk 1] ++ srcs 3 ++ [.chunk 4] ++ srcs 8 ++ rdrs 3 ++ [.read 2] ++ rdrs 2))
    (p := fun w : HSys memStorage => decide (Ev.readRet 15 2 true (.ok [1, 2]) ∈ w.sys.log)) (by decide +kernel)
  exact ⟨w0, w, ⟨server20_new (by decide +kernel), rfl, rfl, rfl, demoMem20, rfl, rfl⟩,
    hreach_hrun headers20_ok (fun _ _ _ => trivial) _ .refl h1, of_decide_eq_true h2, by decide +kernel⟩

/-! ### Histories that meet the hypotheses -/

/-- The tests for `HNoSeek`, `HClean` and `RangesOk`. -/
def hguardB {S : Storage} (w : HSys S) (a : Act) : Bool :=
  noSeekB w.sys a && cleanB w.sys a

/-- The tests for `RangesOk` and `HConnected`. -/
def hrangesB {S : Storage} (c : Cfg) (w : HSys S) (a : Act) : Bool :=
  (match w.sys.spc with
    | .seeking start (some e) => decide (start < e ∨ w.http.contentLength = some start)
    | _ => true) && connectedB c w.sys a

theorem hguard_of {S : Storage} {w : HSys S} {a : Act} {answer : Answer} (h : hguardB w a = true) :
    HNoSeek w (toHAct answer a) ∧ HClean w (toHAct answer a) := by
  unfold hguardB at h
  rw [Bool.and_eq_true] at h
  have h1 := noSeek_of h.1
  have h2 := clean_of h.2
  constructor
  · intro f hf
    cases a <;> simp [toHAct] at hf
    exact h1 f (by rw [hf])
  · intro an hf
    cases a <;> simp [toHAct] at hf
    exact h2 _ rfl

theorem hranges_of {S : Storage} {c : Cfg} {w : HSys S} {a : Act} {answer : Answer} (h : hrangesB c w a = true) :
    RangesOk w (toHAct answer a) ∧ HConnected c w (toHAct answer a) := by
  unfold hrangesB at h
  rw [Bool.and_eq_true] at h
  refine ⟨fun start e hp => by simpa [hp] using h.1, fun f p hf hp => ?_⟩
  cases a <;> simp [toHAct] at hf
  exact connected_of h.2 f p (by rw [hf]) hp

/-- The hypotheses of `C61_sequential_unbounded`: the consumer reads 6 bytes across a reconnect
at 2 and a connection that breaks off at 4. -/
example : ∃ w0 w : HSys memStorage, HStarts memProvider cfg20 (fun _ => none) (server20 headers20) w0 ∧
    HReach cfg20 (RangeServer bytes20) HNoSeek w0 w ∧ delivered w.sys.log = [1, 2, 3, 4, 5, 6] := by
  let w0 : HSys memStorage := { sys := init cfg20 demoMem20, http := stream20 headers20 (some 20) }
  obtain ⟨w, h1, h2⟩ := of_any (o := hrun hguardB cfg20 (server20 headers20) w0
    ([.chunk 2] ++ srcs 6 ++ [.timeout, .reconnOk 0, .chunk 2] ++ srcs 6 ++ [.eof, .src, .seekOk 0, .chunk 3] ++
      srcs 6 ++ [.read 6] ++ rdrs 2))
    (p := fun w : HSys memStorage => decide (delivered w.sys.log = [1, 2, 3, 4, 5, 6])) (by decide +kernel)
  exact ⟨w0, w, ⟨server20_new (by decide +kernel), rfl, rfl, rfl, demoMem20, rfl, rfl⟩,
    hreach_hrun headers20_ok (fun w a (h : hguardB w a = true) => (hguard_of h).1) _ .refl h1, of_decide_eq_true h2⟩

/-- The hypotheses of `C61_forward_reads_partial` and `C61_unblocked_read_partial`: a seek to 8, a read, and a seek
back to 9. -/
example : ∃ w0 w : HSys memStorage, HStarts memProvider cfg20 (fun _ => none) (server20 headers20) w0 ∧
    HReach cfg20 (RangeServer bytes20) (fun w a => RangesOk w a ∧ HConnected cfg20 w a) w0 w ∧
    Ev.readRet 8 2 true (.ok [9, 10]) ∈ w.sys.log ∧ Ev.readRet 9 2 false (.ok [10, 11]) ∈ w.sys.log := by
  let w0 : HSys memStorage := { sys := init cfg20 demoMem20, http := stream20 headers20 (some 20) }
  obtain ⟨w, h1, h2⟩ := of_any (o := hrun (hrangesB cfg20) cfg20 (server20 headers20) w0
    ([.chunk 1] ++ srcs 6 ++ [.seek (.start 8)] ++ rdrs 3 ++ [.recvSeek, .src, .seekOk 0, .chunk 1] ++
    srcs 3 ++ [.chunk 1] ++ srcs 8 ++ rdrs 3 ++ [.read 2] ++ rdrs 4 ++ [.seek (.start 9)] ++ rdrs 2 ++ [.read 2] ++ rdrs 3 ++ [.chunk 1] ++
    srcs 8 ++ rdrs 3))
    (p := fun w : HSys memStorage => decide (Ev.readRet 8 2 true (.ok [9, 10]) ∈ w.sys.log ∧
      Ev.readRet 9 2 false (.ok [10, 11]) ∈ w.sys.log)) (by decide +kernel)
  exact ⟨w0, w, ⟨server20_new (by decide +kernel), rfl, rfl, rfl, demoMem20, rfl, rfl⟩,
    hreach_hrun headers20_ok (fun _ _ h => hranges_of h) _ .refl h1, of_decide_eq_true h2⟩

/-- The hypotheses of `C61_sequential_bounded_partial`: 6 bytes through a buffer of 10, across a
reconnect. -/
example : ∃ w0 w : HSys (bndStorage true memStorage),
    HStarts (bndProvider true memProvider 10) cfgB20 (fun _ => none) (server20 headers20) w0 ∧
    HReach cfgB20 (RangeServer bytes20) (fun w a => HNoSeek w a ∧ HClean w a) w0 w ∧
    delivered w.sys.log = [1, 2, 3, 4, 5, 6] := by
  let w0 : HSys (bndStorage true memStorage) :=
    { sys := init cfgB20 demoBnd10, http := stream20 headers20 (some 20) }
  obtain ⟨w, h1, h2⟩ := of_any (o := hrun hguardB cfgB20 (server20 headers20) w0
    ([.chunk 2] ++ srcs 6 ++ [.timeout, .reconnOk 0, .chunk 4] ++ srcs 6 ++ [.read 6] ++ rdrs 2))
    (p := fun w : HSys (bndStorage true memStorage) => decide (delivered w.sys.log = [1, 2, 3, 4, 5, 6]))
    (by decide +kernel)
  exact ⟨w0, w, ⟨server20_new (by decide +kernel), rfl, rfl, rfl, demoBnd10, rfl, rfl⟩,
    hreach_hrun headers20_ok (fun w a (h : hguardB w a = true) => hguard_of h) _ .refl h1, of_decide_eq_true h2⟩

/-- 20 bytes, the length of which is not known. -/
def cfg20NoLen : Cfg := { demoCfg with contentLength := none, remoteLen := some 20 }

/-- The hypotheses of `C61_unblocked_read_unknown_length`: a seek to 8 and back to 0. -/
example : ∃ w0 w : HSys memStorage,
    HStarts memProvider cfg20NoLen (fun _ => none) (server20 headersNoLen) w0 ∧
    HReach cfg20NoLen (RangeServer bytes20) (fun _ _ => True) w0 w ∧
    Ev.readRet 8 2 true (.ok [9, 10]) ∈ w.sys.log ∧ Ev.readRet 0 1 true (.ok [1]) ∈ w.sys.log := by
  let w0 : HSys memStorage :=
    { sys := init cfg20NoLen { buf := [], written := 0, rp := 0, wp := 0 }, http := stream20 headersNoLen none }
  obtain ⟨w, h1, h2⟩ := of_any (o := hrun (fun _ _ => true) cfg20NoLen (server20 headersNoLen) w0
    ([.chunk 1] ++ srcs 6 ++ [.seek (.start 8)] ++ rdrs 3 ++ [.recvSeek, .src, .seekOk 0, .chunk 1] ++
    srcs 3 ++ [.chunk 1] ++ srcs 8 ++ rdrs 3 ++ [.read 2] ++ rdrs 4 ++ [.seek (.start 0)] ++ rdrs 2 ++
    [.read 1] ++ rdrs 2))
    (p := fun w : HSys memStorage => decide (Ev.readRet 8 2 true (.ok [9, 10]) ∈ w.sys.log ∧
      Ev.readRet 0 1 true (.ok [1]) ∈ w.sys.log)) (by decide +kernel)
  have h3 := of_decide_eq_true h2
  exact ⟨w0, w, ⟨server20_new (by decide +kernel), rfl, rfl, rfl, _, rfl, rfl⟩,
    hreach_hrun headersNoLen_ok (fun _ _ _ => trivial) _ .refl h1, h3.1, h3.2⟩

end SD
