import Verif.Props.Jump
import Verif.Props.SourceSystem

/-!
# Properties C61, C62 and C68 for HTTP and OpenDAL: jumps, and sources of unknown length

The results about consumers that jump ahead and about sources of unknown length, carried over
to the HTTP source and to OpenDAL.  For HTTP with a known length they fail, even for a consumer
that only jumps forward and a connection that never fails.
-/

set_option linter.unusedVariables false

namespace SD

/-! ### The simulation again -/

/-- Bodies end only when all of them was taken. -/
def HEnds {S : Storage} (w : HSys S) (a : HAct) : Prop := a = .sys .eof → w.http.stream = []

/-- The task takes a seek request only when no bytes received earlier are waiting to be
stored. -/
def HNothingLeft {S : Storage} (w : HSys S) (a : HAct) : Prop := a = .sys .recvSeek → w.sys.rem = none

/-- As `hreach_sim`, with what is known of the state. -/
theorem hreach_sim_inv {S : Storage} {remote : List Byte} {b : Byte} {c : Cfg} {G : HSys S → HAct → Prop}
    {G' : Sys S → Act → Prop}
    (hG : ∀ w a x, HInv remote c w → G w a → a.Is x → step (c.on remote b) w.sys x ≠ none → G' w.sys x)
    {w0 w : HSys S} (hi : HInv remote c w0)
    (hr : ∀ w a, Reach (c.on remote b) (fun s x => Honest s x ∧ G' s x) w0.sys w.sys → HInv remote c w →
      G w a → RangesOk w a)
    (h : HReach c (RangeServer remote) G w0 w) :
    Reach (c.on remote b) (fun s x => Honest s x ∧ G' s x) w0.sys w.sys ∧ HInv remote c w := by
  induction h with
  | refl => exact ⟨.refl, hi⟩
  | step _ hA hg hs ih =>
    obtain ⟨h1, x, h2, h3, h4⟩ := hstep_sim (b := b) ih.2 hA (hr _ _ ih.1 ih.2 hg) hs
    exact ⟨ih.1.step ⟨h3, hG _ _ _ ih.2 hg h2 (by rw [h4]; simp)⟩ h4, h1⟩

theorem HForward.is {S : Storage} {c : Cfg} {remote : List Byte} {b : Byte} {w : HSys S} {a : HAct} {x : Act}
    (h : HForward c w a) (hx : a.Is x) : Forward (c.on remote b) w.sys x := by
  intro f p hf hp
  subst hf
  cases hx
  exact h f p rfl hp

theorem HConnected.is {S : Storage} {c : Cfg} {remote : List Byte} {b : Byte} {w : HSys S} {a : HAct} {x : Act}
    (h : HConnected c w a) (hx : a.Is x) : Connected (c.on remote b) w.sys x := by
  intro f p hf hp
  subst hf
  cases hx
  exact h f p rfl hp

theorem HClean.is {S : Storage} {w : HSys S} {a : HAct} {x : Act} (h : HClean w a) (hx : a.Is x) :
    CleanReconnect w.sys x := by
  intro pos hf
  subst hf
  cases hx with
  | sys _ h2 => simp [Act.ofTransport] at h2
  | reconnOk answer => exact h answer rfl

theorem HNothingLeft.is {S : Storage} {w : HSys S} {a : HAct} {x : Act} (h : HNothingLeft w a) (hx : a.Is x) :
    NothingLeft w.sys x := by
  intro hf
  subst hf
  cases hx
  exact h rfl

theorem HNoSeek.is {S : Storage} {w : HSys S} {a : HAct} {x : Act} (h : HNoSeek w a) (hx : a.Is x) :
    NoSeek w.sys x := by
  intro f hf
  subst hf
  cases hx
  exact h f rfl

/-- A body that is at its end has reached the end of the resource or of the range. -/
theorem HEnds.is {S : Storage} {c : Cfg} {remote : List Byte} {b : Byte} {w : HSys S} {a : HAct} {x : Act}
    (h : HEnds w a) (hi : HInv remote c w) (hx : a.Is x) (hs : step (c.on remote b) w.sys x ≠ none) :
    x = .eof → remote.length ≤ w.sys.tpos ∨ ∃ e, w.sys.tlim = some e ∧ e ≤ w.sys.tpos := by
  rintro rfl
  cases hx
  have hsel : w.sys.spc = .sel := by
    refine Classical.byContradiction fun h => hs ?_
    simp [step, h]
  have h1 := hi.body (by rw [hsel]; rfl)
  rw [h rfl] at h1
  have h2 := congrArg List.length h1
  cases hl : w.sys.tlim with
  | none => rw [hl] at h2; simp [bytesIn] at h2; exact Or.inl (by omega)
  | some e =>
    rw [hl] at h2
    simp [bytesIn] at h2
    by_cases h3 : remote.length ≤ w.sys.tpos
    · exact Or.inl h3
    · exact Or.inr ⟨e, rfl, by omega⟩

theorem tlim_unknown {S : Storage} {c : Cfg} (hn : c.contentLength = none) {G : Sys S → Act → Prop} {st : S.σ}
    {s : Sys S} (h : Reach c G (init c st) s) : s.tlim = none := by
  have : s.tlim = none ∧ ∀ start e, s.spc = .seeking start e → e = none := by
    refine Reach.inv (P := fun s => s.tlim = none ∧ ∀ start e, s.spc = .seeking start e → e = none) h
      (by simp [init]) ?_
    rintro s s' a h1 hg ht
    cases ht <;> grind [roundPc, startPc]
  exact this.1

/-- The simulation for a source of unknown length; no restriction on ranges is needed. -/
theorem hreach_unknown {P : Provider} {remote : List Byte} {b : Byte} {c : Cfg} (hn : c.contentLength = none)
    {mime : Text → Option (Text × Text)} {answer : Answer} (hA : RangeServer remote answer)
    {G : HSys P.S → HAct → Prop} {G' : Sys P.S → Act → Prop}
    (hG : ∀ w a x, w.sys.tlim = none → HInv remote c w → G w a → a.Is x →
      step (c.on remote b) w.sys x ≠ none → G' w.sys x)
    {w0 w : HSys P.S} (h0 : HStarts P c mime answer w0) (h : HReach c (RangeServer remote) G w0 w) :
    Reach (c.on remote b) (fun s x => Honest s x ∧ G' s x) w0.sys w.sys := by
  have hi := HInv.starts hA h0
  obtain ⟨-, -, hss, -, st, -, e⟩ := h0
  have e' : w0.sys = init (c.on remote b) st := e
  have key : Reach (c.on remote b) (fun s x => Honest s x ∧ G' s x) w0.sys w.sys ∧ HInv remote c w := by
    induction h with
    | refl => exact ⟨.refl, hi⟩
    | step _ hA hg hs ih =>
      have hR := ih.1
      rw [e'] at hR
      obtain ⟨h1, x, h2, h3, h4⟩ := hstep_sim (b := b) ih.2 hA
        (fun start e hp => absurd hp (ranges_unknown (c := c.on remote b) hn hR start e)) hs
      exact ⟨ih.1.step ⟨h3, hG _ _ _ (tlim_unknown (c := c.on remote b) hn hR) ih.2 hg h2 (by rw [h4]; simp)⟩ h4, h1⟩
  exact key.1

/-- A resource of unknown length ends where its body ends. -/
theorem HEnds.atEnd {S : Storage} {c : Cfg} {remote : List Byte} {b : Byte} {w : HSys S} {a : HAct} {x : Act}
    (h : HEnds w a) (ht : w.sys.tlim = none) (hi : HInv remote c w) (hx : a.Is x)
    (hs : step (c.on remote b) w.sys x ≠ none) : EndsAtEnd (c.on remote b) w.sys x := by
  intro hf m hm
  have hm : remote.length = m := by simpa [Cfg.on] using hm
  rcases h.is hi hx hs hf with h1 | ⟨e, h1, -⟩
  · omega
  · rw [ht] at h1; simp at h1

theorem EndsInPlace.ofHttp {S : Storage} {c : Cfg} {remote : List Byte} {b : Byte} {w : HSys S} {a : HAct} {x : Act}
    (h : HEnds w a) (hi : HInv remote c w) (hx : a.Is x) (hs : step (c.on remote b) w.sys x ≠ none) :
    EndsInPlace (c.on remote b) w.sys x := by
  intro hf n hn
  rw [hi.real n hn]
  exact h.is hi hx hs hf

/-- A source that can seek is not asked to deliver everything by itself. -/
theorem delivers_seekable {S : Storage} {c : Cfg} (hss : c.supportsSeek = true) (s : Sys S) (a : Act) :
    Delivers c s a := fun _ hf => absurd hf (by rw [hss]; simp)

theorem slice_rest (remote : List Byte) (b : Byte) {p n : Nat} (hn : n = remote.length) :
    slice (fun i => remote.getD i b) p (n - p) = remote.drop p := by
  apply List.ext_getElem?
  intro i
  by_cases hi : i < n - p
  · rw [slice_getElem? _ _ _ _ hi, List.getElem?_drop]
    simp [List.getD, List.getElem?_eq_getElem (show p + i < remote.length by omega)]
  · rw [List.getElem?_eq_none (by simp; omega), List.getElem?_eq_none (by simp; omega)]

theorem HForward.connected {S : Storage} {c : Cfg} {w : HSys S} {a : HAct} (h : HForward c w a) :
    HConnected c w a := by
  intro f p hf hp q h1 h2
  have := h f p hf hp
  omega

/-! ### C61: seeks -/

/-- C61 with seeks and unknown length, for storage that keeps everything, if the consumer goes
back only over bytes it has read or that are downloaded: every read returns the bytes of the
resource at its position.  Bodies may end early. -/
theorem C61_forward_reads_unknown_length {P : Provider} {c : Cfg} (hP : Unbounded c.contentLength P)
    (hb : c.batchSize ≠ 0) (hk : c.KeepsErrors) (hn : c.contentLength = none) {remote : List Byte}
    {mime : Text → Option (Text × Text)} {answer : Answer} (hA : RangeServer remote answer)
    {w0 w : HSys P.S} (h0 : HStarts P c mime answer w0)
    (h : HReach c (RangeServer remote) (HConnected c) w0 w)
    {pos len : Nat} {fast : Bool} {bs : List Byte} (hr : Ev.readRet pos len fast (.ok bs) ∈ w.sys.log) :
    bs = (remote.drop pos).take bs.length := by
  apply within_of_slice
  intro b
  have hR := hreach_unknown (b := b) hn hA (G' := Connected (c.on remote b))
    (fun w a x _ _ hg hx _ => hg.is hx) h0 h
  exact C03_reads_after_seeks_partial (c := c.on remote b) hP hb
    (fun n hn' => by rw [show (c.on remote b).contentLength = c.contentLength from rfl, hn] at hn'; simp at hn')
    hk h0.2.2.2 (hR.mono fun s a hg => ⟨hg.1, delivers_seekable (c := c.on remote b) h0.2.2.1 s a, fun _ => hg.2⟩)
    pos len fast bs hr

/-- C61 with forward seeks and unknown length, for storage that keeps a window.  The exceptions
are a seek request or a reconnect that meets bytes left over from a prefetch (C41). -/
theorem C61_forward_bounded_unknown_length_partial {P : Provider} {c : Cfg} (hP : Windowed c.contentLength P)
    (hn : c.contentLength = none) {remote : List Byte}
    {mime : Text → Option (Text × Text)} {answer : Answer} (hA : RangeServer remote answer)
    {w0 w : HSys P.S} (h0 : HStarts P c mime answer w0)
    (h : HReach c (RangeServer remote) (fun w a => HClean w a ∧ HNothingLeft w a ∧ HForward c w a) w0 w)
    {pos len : Nat} {fast : Bool} {bs : List Byte} (hr : Ev.readRet pos len fast (.ok bs) ∈ w.sys.log) :
    bs = (remote.drop pos).take bs.length := by
  apply within_of_slice
  intro b
  have hR := hreach_unknown (b := b) hn hA
    (G' := fun s a => CleanReconnect s a ∧ NothingLeft s a ∧ Forward (c.on remote b) s a)
    (fun w a x _ _ hg hx _ => ⟨hg.1.is hx, hg.2.1.is hx, hg.2.2.is hx⟩) h0 h
  exact C03_forward_bounded_unknown_length_partial (c := c.on remote b) hP hn h0.2.2.2 hR pos len fast bs hr

/-- C61 with forward seeks and known length, for storage that keeps a window, as long as the
task asks for proper ranges and bodies end in place. -/
theorem C61_forward_bounded_known_length_partial {P : Provider} {c : Cfg} {N : Nat}
    (hP : Windowed c.contentLength P) (hN : c.contentLength = some N) {remote : List Byte}
    {mime : Text → Option (Text × Text)} {answer : Answer} (hA : RangeServer remote answer)
    {w0 w : HSys P.S} (h0 : HStarts P c mime answer w0)
    (h : HReach c (RangeServer remote) (fun w a => RangesOk w a ∧ HEnds w a ∧ HClean w a ∧ HNothingLeft w a ∧
      HForward c w a) w0 w)
    {pos len : Nat} {fast : Bool} {bs : List Byte} (hr : Ev.readRet pos len fast (.ok bs) ∈ w.sys.log) :
    bs = (remote.drop pos).take bs.length := by
  have hi := HInv.starts hA h0
  apply within_of_slice
  intro b
  obtain ⟨hR, -⟩ := hreach_sim_inv (b := b)
    (G' := fun s a => (CleanReconnect s a ∧ NothingLeft s a ∧ Forward (c.on remote b) s a) ∧
      EndsInPlace (c.on remote b) s a)
    (fun w a x hi hg hx hs => ⟨⟨hg.2.2.1.is hx, hg.2.2.2.1.is hx, hg.2.2.2.2.is hx⟩, .ofHttp hg.2.1 hi hx hs⟩)
    hi (fun w a _ _ hg => hg.1) h
  exact C03_forward_bounded_known_length_partial (c := c.on remote b) hP hN h0.2.2.2
    (hR.mono fun s a hg => ⟨⟨hg.1, hg.2.1⟩, hg.2.2⟩) pos len fast bs hr

/-! ### C64: forward seeks with bounded storage -/

/-- The task takes a seek request only when no bytes received earlier are waiting to be
stored. -/
def XNothingLeft {R : Source} {S : Storage} (w : XSys R S) (a : XAct R) : Prop :=
  a = .sys .recvSeek → w.sys.rem = none

theorem XNothingLeft.is {R : Source} {S : Storage} {w : XSys R S} {a : XAct R} {x : Act} (h : XNothingLeft w a)
    (hx : a.Is w.src x) : NothingLeft w.sys x := by
  intro hf
  subst hf
  cases hx
  exact h rfl

theorem XInv.inPlace {R : Source} {S : Storage} {W : World R} {remote : List Byte} (V : Serves R W remote true)
    {c : Cfg} {b : Byte} (hreal : ∀ n, c.contentLength = some n → n = remote.length) {w : XSys R S} {a : XAct R}
    {x : Act} (hi : XInv V w) (hA : W.Allows w a) (hx : a.Is w.src x)
    (hs : step (c.on remote b) w.sys x ≠ none) : EndsInPlace (c.on remote b) w.sys x := by
  rintro rfl n hn
  rw [hreal n hn]
  cases hx with
  | sys _ h => simp [Act.ofSource] at h
  | eof e he =>
    have hsel : w.sys.spc = .sel := by
      refine Classical.byContradiction fun h => hs ?_
      simp [step, h]
    have hat := hi.at' (by rw [hsel]; rfl)
    obtain ⟨-, -, h1⟩ := V.done hat hA he
    have h2 := congrArg List.length (h1 rfl)
    cases hl : w.sys.tlim with
    | none => rw [hl] at h2; simp [bytesIn] at h2; exact Or.inl (by omega)
    | some e =>
      rw [hl] at h2
      simp [bytesIn] at h2
      by_cases h3 : remote.length ≤ w.sys.tpos
      · exact Or.inl h3
      · exact Or.inr ⟨e, rfl, by omega⟩

/-- C64 with forward seeks, for storage that keeps a window: every read returns the bytes of
the object at its position.  The exceptions are a seek request or a reconnect that meets
bytes left over from a prefetch (C41). -/
theorem C64_forward_bounded_partial {P : Provider} {c : Cfg} (hP : Windowed c.contentLength P)
    {object : List Byte} (hne : object ≠ []) {w0 w : XSys opendalSource P.S} (h0 : OStarts P c object w0)
    (h : XReach c (storeWorld object) (fun w a => XClean w a ∧ XNothingLeft w a ∧ XForward c w a) w0 w)
    {pos len : Nat} {fast : Bool} {bs : List Byte} (hr : Ev.readRet pos len fast (.ok bs) ∈ w.sys.log) :
    bs = (object.drop pos).take bs.length := by
  apply within_of_slice
  intro b
  obtain ⟨hR, -⟩ := xreach_sim (opendalServes object) (b := b)
    (G' := fun s a => (CleanReconnect s a ∧ NothingLeft s a ∧ Forward (c.on object b) s a) ∧
      EndsInPlace (c.on object b) s a)
    (fun w a x hi hA hg hx hs => ⟨⟨hg.1.is hx, hg.2.1.is hx, hg.2.2.is hx⟩,
      XInv.inPlace (opendalServes object) (fun n hn => h0.real hn) hi hA hx hs⟩) (XInv.opendal h0) h
  exact C03_forward_bounded_known_length_partial (c := c.on object b) hP (h0.declares hne) h0.2.2
    (hR.mono fun s a hg => ⟨⟨hg.1, hg.2.1⟩, hg.2.2⟩) pos len fast bs hr

/-! ### C62: reading to the end without a declared length -/

/-- C62 for HTTP without a `Content-Length`, for storage that keeps everything: if bodies end
only when all of them was delivered, a consumer that reads until a read is short has received
exactly the resource. -/
theorem C62_http_read_to_end_unknown_length {P : Provider} {c : Cfg} (hP : Unbounded c.contentLength P)
    (hb : c.batchSize ≠ 0) (hk : c.KeepsErrors) (hn : c.contentLength = none)
    {remote : List Byte} {mime : Text → Option (Text × Text)} {answer : Answer}
    (hA : RangeServer remote answer) {w0 w : HSys P.S} (h0 : HStarts P c mime answer w0)
    (h : HReach c (RangeServer remote) (fun w a => HNoSeek w a ∧ HEnds w a) w0 w)
    {later earlier : List Ev} {pos len : Nat} {fast : Bool} {bs : List Byte}
    (hl : w.sys.log = later ++ .readRet pos len fast (.ok bs) :: earlier) (hlt : bs.length < len) :
    delivered (.readRet pos len fast (.ok bs) :: earlier) = remote ∧ delivered w.sys.log = remote := by
  have hR := hreach_unknown (b := 0) hn hA (G' := fun s a => NoSeek s a ∧ EndsAtEnd (c.on remote 0) s a)
    (fun w a x ht hi hg hx hs => ⟨hg.1.is hx, hg.2.atEnd ht hi hx hs⟩) h0 h
  have := C62_read_to_end_unknown_length (c := c.on remote 0) hP hb hk hn rfl h0.2.2.2 hR hl hlt
  have e : slice (c.on remote 0).remote 0 remote.length = remote := slice_getD remote 0
  rw [e] at this
  exact this

/-- The same for storage that keeps a window; no reconnect succeeds while received bytes are
waiting to be written. -/
theorem C62_http_read_to_end_unknown_length_bounded_partial {P : Provider} {c : Cfg}
    (hP : Windowed c.contentLength P) (hk : c.KeepsErrors) (hn : c.contentLength = none)
    {remote : List Byte} {mime : Text → Option (Text × Text)} {answer : Answer}
    (hA : RangeServer remote answer) {w0 w : HSys P.S} (h0 : HStarts P c mime answer w0)
    (h : HReach c (RangeServer remote) (fun w a => HNoSeek w a ∧ HEnds w a ∧ HClean w a) w0 w)
    {later earlier : List Ev} {pos len : Nat} {fast : Bool} {bs : List Byte}
    (hl : w.sys.log = later ++ .readRet pos len fast (.ok bs) :: earlier) (hlt : bs.length < len) :
    delivered (.readRet pos len fast (.ok bs) :: earlier) = remote ∧ delivered w.sys.log = remote := by
  have hR := hreach_unknown (b := 0) hn hA
    (G' := fun s a => CleanReconnect s a ∧ NoSeek s a ∧ EndsAtEnd (c.on remote 0) s a)
    (fun w a x ht hi hg hx hs => ⟨hg.2.2.is hx, hg.1.is hx, hg.2.1.atEnd ht hi hx hs⟩) h0 h
  have := C62_read_to_end_unknown_length_bounded_partial (c := c.on remote 0) hP hk hn rfl h0.2.2.2 hR hl hlt
  have e : slice (c.on remote 0).remote 0 remote.length = remote := slice_getD remote 0
  rw [e] at this
  exact this

/-! ### C68: the rest after a jump -/

/-- C68 for HTTP with a declared length, for storage that keeps everything, as long as the task
asks for proper ranges: after a jump to `p`, a consumer that reads until a read is short has
received the resource from `p` on.  Bodies may end early. -/
theorem C68_http_rest_after_seek_partial {P : Provider} {c : Cfg} (hP : Unbounded c.contentLength P)
    (hb : c.batchSize ≠ 0) (hk : c.KeepsErrors) {N : Nat} (hN : c.contentLength = some N)
    {remote : List Byte} {mime : Text → Option (Text × Text)} {answer : Answer}
    (hA : RangeServer remote answer) {w0 w : HSys P.S} (h0 : HStarts P c mime answer w0)
    (h : HReach c (RangeServer remote) (fun w a => RangesOk w a ∧ HConnected c w a) w0 w)
    {later since earlier : List Ev} {pos len t p : Nat} {fast : Bool} {bs : List Byte}
    (hl : w.sys.log = later ++ .readRet pos len fast (.ok bs) :: (since ++ .seekRet t (.ok p) :: earlier))
    (hns : ∀ t r, Ev.seekRet t r ∉ later ++ since) (hlt : bs.length < len) :
    delivered (.readRet pos len fast (.ok bs) :: since) = remote.drop p ∧
      delivered (later ++ .readRet pos len fast (.ok bs) :: since) = remote.drop p := by
  have hi := HInv.starts hA h0
  obtain ⟨hR, -⟩ := hreach_sim_inv (b := 0) (G' := Connected (c.on remote 0))
    (fun w a x _ hg hx _ => hg.2.is hx) hi (fun w a _ _ hg => hg.1) h
  have := C68_rest_after_seek (c := c.on remote 0) hP hb hk hN (by rw [hi.real N hN]; rfl) h0.2.2.2
    (hR.mono fun s a hg => ⟨hg.1, delivers_seekable (c := c.on remote 0) h0.2.2.1 s a, fun _ => hg.2⟩) hl hns hlt
  rw [show slice (c.on remote 0).remote p (N - p) = remote.drop p from slice_rest remote 0 (hi.real N hN)] at this
  exact this

/-- C68 for HTTP without a declared length, for storage that keeps everything, if bodies end
only when all of them was delivered. -/
theorem C68_http_rest_after_seek_unknown_length {P : Provider} {c : Cfg} (hP : Unbounded c.contentLength P)
    (hb : c.batchSize ≠ 0) (hk : c.KeepsErrors) (hn : c.contentLength = none)
    {remote : List Byte} {mime : Text → Option (Text × Text)} {answer : Answer}
    (hA : RangeServer remote answer) {w0 w : HSys P.S} (h0 : HStarts P c mime answer w0)
    (h : HReach c (RangeServer remote) (fun w a => HEnds w a ∧ HConnected c w a) w0 w)
    {later since earlier : List Ev} {pos len t p : Nat} {fast : Bool} {bs : List Byte}
    (hl : w.sys.log = later ++ .readRet pos len fast (.ok bs) :: (since ++ .seekRet t (.ok p) :: earlier))
    (hns : ∀ t r, Ev.seekRet t r ∉ later ++ since) (hlt : bs.length < len) :
    delivered (.readRet pos len fast (.ok bs) :: since) = remote.drop p ∧
      delivered (later ++ .readRet pos len fast (.ok bs) :: since) = remote.drop p := by
  have hR := hreach_unknown (b := 0) hn hA
    (G' := fun s a => EndsAtEnd (c.on remote 0) s a ∧ Connected (c.on remote 0) s a)
    (fun w a x ht hi hg hx hs => ⟨hg.1.atEnd ht hi hx hs, hg.2.is hx⟩) h0 h
  have := C68_rest_after_seek_unknown_length (c := c.on remote 0) hP hb hk hn rfl h0.2.2.2
    (hR.mono fun s a hg => ⟨hg.1, hg.2.1, fun _ => hg.2.2⟩) hl hns hlt
  rw [show slice (c.on remote 0).remote p (remote.length - p) = remote.drop p from slice_rest remote 0 rfl] at this
  exact this

/-- C68 for OpenDAL, for storage that keeps everything: after a jump to `p`, a consumer that
reads until a read is short has received the object from `p` on.  The store may fail at any
time. -/
theorem C68_opendal_rest_after_seek {P : Provider} {c : Cfg} (hP : Unbounded c.contentLength P)
    (hb : c.batchSize ≠ 0) (hk : c.KeepsErrors) {object : List Byte} (hne : object ≠ [])
    {w0 w : XSys opendalSource P.S} (h0 : OStarts P c object w0)
    (h : XReach c (storeWorld object) (XConnected c) w0 w)
    {later since earlier : List Ev} {pos len t p : Nat} {fast : Bool} {bs : List Byte}
    (hl : w.sys.log = later ++ .readRet pos len fast (.ok bs) :: (since ++ .seekRet t (.ok p) :: earlier))
    (hns : ∀ t r, Ev.seekRet t r ∉ later ++ since) (hlt : bs.length < len) :
    delivered (.readRet pos len fast (.ok bs) :: since) = object.drop p ∧
      delivered (later ++ .readRet pos len fast (.ok bs) :: since) = object.drop p := by
  obtain ⟨hR, -⟩ := xreach_sim (opendalServes object) (b := 0) (G' := Connected (c.on object 0))
    (fun w a x _ _ hg hx _ => hg.is hx) (XInv.opendal h0) h
  have := C68_rest_after_seek (c := c.on object 0) hP hb hk (h0.declares hne) rfl h0.2.2
    (hR.mono fun s a hg => ⟨hg.1, h0.delivers 0 s a, fun _ => hg.2⟩) hl hns hlt
  rw [show slice (c.on object 0).remote p (object.length - p) = object.drop p from slice_rest object 0 rfl] at this
  exact this

/-! ### C61 fails for HTTP with a known length, even for forward seeks -/

/-- The test for `HEnds`. -/
def hEndsB {S : Storage} (w : HSys S) (a : Act) : Bool := decide (a = .eof → w.http.stream = [])

theorem hEnds_of {S : Storage} {w : HSys S} {a : Act} {answer : Answer} (h : hEndsB w a = true) :
    HEnds w (toHAct answer a) := by
  intro hf
  have h1 := of_decide_eq_true h
  cases a <;> simp [toHAct] at hf
  exact h1 rfl

theorem hConnected_of {S : Storage} {c : Cfg} {w : HSys S} {a : Act} {answer : Answer}
    (h : connectedB c w.sys a = true) : HConnected c w (toHAct answer a) := by
  intro f p hf hp
  cases a <;> simp [toHAct] at hf
  exact connected_of h f p (by rw [hf]) hp

theorem hForward_of {S : Storage} {c : Cfg} {w : HSys S} {a : Act} {answer : Answer}
    (h : forwardB c w.sys a = true) : HForward c w (toHAct answer a) := by
  intro f p hf hp
  cases a <;> simp [toHAct] at hf
  exact forward_of h f p (by rw [hf]) hp

/-- No request fails and no connection breaks. -/
def HSmooth {S : Storage} (w : HSys S) (a : HAct) : Prop :=
  HEnds w a ∧ a ≠ .sys .timeout ∧ a ≠ .sys .chunkErr

def hSmoothB {S : Storage} (w : HSys S) (a : Act) : Bool :=
  hEndsB w a && decide (a ≠ .timeout) && decide (a ≠ .chunkErr)

theorem hSmooth_of {S : Storage} {w : HSys S} {a : Act} {answer : Answer} (h : hSmoothB w a = true) :
    HSmooth w (toHAct answer a) := by
  simp only [hSmoothB, Bool.and_eq_true] at h
  have h1 := of_decide_eq_true h.1.2
  have h2 := of_decide_eq_true h.2
  refine ⟨hEnds_of h.1.1, ?_, ?_⟩
  · intro hf
    cases a <;> simp [toHAct] at hf
    exact h1 rfl
  · intro hf
    cases a <;> simp [toHAct] at hf
    exact h2 rfl

/-- C61 fails although the consumer only jumps forward, every body is delivered to its end, and
no request fails.  The consumer jumps to 8 and then to 15.  It finds that 15 is not downloaded;
before it sends its request, the task downloads the rest, finds that the bytes from 2 to 8
are missing and starts to download them.  Then it takes the request, asks for the range
from 15 to 8, the server ignores the header and sends the resource from its start, and the
correct bytes stored at 15 are overwritten: the read at 15 returns the first two bytes of
the resource. -/
theorem C61_forward_reads_violated :
    ∃ w0 w : HSys memStorage, HStarts memProvider cfg20 (fun _ => none) (server20 headers20) w0 ∧
      HReach cfg20 (RangeServer bytes20) (fun w a => HForward cfg20 w a ∧ HSmooth w a) w0 w ∧
      Ev.write 10 (bytes20.drop 10) 10 ∈ w.sys.log ∧
      Ev.readRet 15 2 true (.ok [1, 2]) ∈ w.sys.log ∧ (bytes20.drop 15).take 2 = [16, 17] := by
  let w0 : HSys memStorage := { sys := init cfg20 demoMem20, http := stream20 headers20 (some 20) }
  obtain ⟨w, h1, h2⟩ := of_any (o := hrun (fun w a => forwardB cfg20 w.sys a && hSmoothB w a) cfg20
    (server20 headers20) w0
    ([.chunk 2] ++ srcs 6 ++ [.seek (.start 8)] ++ rdrs 3 ++ [.recvSeek, .src, .seekOk 0, .chunk 1] ++ srcs 3 ++
      [.chunk 1] ++ srcs 8 ++ rdrs 3 ++ [.seek (.start 15), .rdr, .chunk 10] ++ srcs 6 ++
      [.eof, .src, .seekOk 0] ++ rdrs 2 ++ [.recvSeek, .src, .seekOk 0, .chunk 1] ++ srcs 3 ++ [.chunk 4] ++
      srcs 8 ++ rdrs 3 ++ [.read 2] ++ rdrs 2))
    (p := fun w : HSys memStorage => decide (Ev.write 10 (bytes20.drop 10) 10 ∈ w.sys.log ∧
      Ev.readRet 15 2 true (.ok [1, 2]) ∈ w.sys.log)) (by decide +kernel)
  obtain ⟨h3, h4⟩ := of_decide_eq_true h2
  exact ⟨w0, w, ⟨server20_new (by decide +kernel), rfl, rfl, rfl, demoMem20, rfl, rfl⟩,
    hreach_hrun headers20_ok (fun w a h => by
      rw [Bool.and_eq_true] at h
      exact ⟨hForward_of h.1, hSmooth_of h.2⟩) _ .refl h1, h3, h4, by decide +kernel⟩

/-! ### Histories that meet the hypotheses -/

theorem hClean_of {S : Storage} {w : HSys S} {a : Act} {answer : Answer} (h : cleanB w.sys a = true) :
    HClean w (toHAct answer a) := by
  intro an hf
  cases a <;> simp [toHAct] at hf
  exact clean_of h _ rfl

theorem hNothingLeft_of {S : Storage} {w : HSys S} {a : Act} {answer : Answer} (h : nothingLeftB w.sys a = true) :
    HNothingLeft w (toHAct answer a) := by
  intro hf
  cases a <;> simp [toHAct] at hf
  exact nothingLeft_of h rfl

theorem hNoSeek_of {S : Storage} {w : HSys S} {a : Act} {answer : Answer} (h : noSeekB w.sys a = true) :
    HNoSeek w (toHAct answer a) := by
  intro f hf
  cases a <;> simp [toHAct] at hf
  exact noSeek_of h f (by rw [hf])

/-- All the tests about forward seeks. -/
def hJumpB {S : Storage} (c : Cfg) (w : HSys S) (a : Act) : Bool :=
  forwardB c w.sys a && hEndsB w a && cleanB w.sys a && nothingLeftB w.sys a && hrangesB c w a

theorem hJump_of {S : Storage} {c : Cfg} {w : HSys S} {a : Act} {answer : Answer} (h : hJumpB c w a = true) :
    RangesOk w (toHAct answer a) ∧ HEnds w (toHAct answer a) ∧ HClean w (toHAct answer a) ∧
      HNothingLeft w (toHAct answer a) ∧ HForward c w (toHAct answer a) := by
  simp only [hJumpB, Bool.and_eq_true] at h
  exact ⟨(hranges_of h.2).1, hEnds_of h.1.1.1.2, hClean_of h.1.1.2, hNothingLeft_of h.1.2, hForward_of h.1.1.1.1⟩

/-- The consumer reads two bytes, jumps to 8 and reads two more. -/
def jumpTo8 : List Act :=
  [.chunk 2] ++ srcs 6 ++ [.read 2] ++ rdrs 4 ++ [.seek (.start 8)] ++ rdrs 3 ++
    [.recvSeek, .src, .seekOk 0, .chunk 2] ++ srcs 3 ++ [.chunk 2] ++ srcs 8 ++ rdrs 3 ++ [.read 2] ++ rdrs 4

/-- The hypotheses of `C61_forward_reads_unknown_length` and of
`C68_http_rest_after_seek_unknown_length`: after the jump the consumer reads to the end. -/
example : ∃ w0 w : HSys memStorage,
    HStarts memProvider cfg20NoLen (fun _ => none) (server20 headersNoLen) w0 ∧
    HReach cfg20NoLen (RangeServer bytes20) (fun w a => HEnds w a ∧ HConnected cfg20NoLen w a) w0 w ∧
    ∃ since earlier, w.sys.log = .readRet 10 20 false (.ok (bytes20.drop 10)) ::
        (since ++ .seekRet 8 (.ok 8) :: earlier) ∧
      (∀ t r, Ev.seekRet t r ∉ since) ∧ delivered since = [9, 10] := by
  let w0 : HSys memStorage :=
    { sys := init cfg20NoLen { buf := [], written := 0, rp := 0, wp := 0 }, http := stream20 headersNoLen none }
  obtain ⟨w, h1, h2⟩ := of_any (o := hrun (hJumpB cfg20NoLen) cfg20NoLen (server20 headersNoLen) w0
    (jumpTo8 ++ [.chunk 8] ++ srcs 6 ++ [.eof] ++ srcs 6 ++ [.read 20] ++ rdrs 7))
    (p := fun w : HSys memStorage => afterJumpB w.sys.log (.readRet 10 20 false (.ok (bytes20.drop 10))) 10 8 8 &&
      decide (delivered ((w.sys.log.drop 1).take 10) = [9, 10])) (by decide +kernel)
  rw [Bool.and_eq_true] at h2
  obtain ⟨earlier, a1, a2⟩ := afterJump h2.1
  exact ⟨w0, w, ⟨server20_new (by decide +kernel), rfl, rfl, rfl, _, rfl, rfl⟩,
    hreach_hrun headersNoLen_ok (fun _ _ h => ⟨(hJump_of h).2.1, (hJump_of h).2.2.2.2.connected⟩) _ .refl h1, _, earlier,
    a1, a2, of_decide_eq_true h2.2⟩

/-- The hypotheses of `C68_http_rest_after_seek_partial`. -/
example : ∃ w0 w : HSys memStorage, HStarts memProvider cfg20 (fun _ => none) (server20 headers20) w0 ∧
    HReach cfg20 (RangeServer bytes20) (fun w a => RangesOk w a ∧ HConnected cfg20 w a) w0 w ∧
    ∃ since earlier, w.sys.log = .readRet 10 20 true (.ok (bytes20.drop 10)) ::
        (since ++ .seekRet 8 (.ok 8) :: earlier) ∧
      (∀ t r, Ev.seekRet t r ∉ since) ∧ delivered since = [9, 10] := by
  let w0 : HSys memStorage := { sys := init cfg20 demoMem20, http := stream20 headers20 (some 20) }
  obtain ⟨w, h1, h2⟩ := of_any (o := hrun (hJumpB cfg20) cfg20 (server20 headers20) w0
    (jumpTo8 ++ [.chunk 8] ++ srcs 6 ++ [.read 20] ++ rdrs 2))
    (p := fun w : HSys memStorage => afterJumpB w.sys.log (.readRet 10 20 true (.ok (bytes20.drop 10))) 5 8 8 &&
      decide (delivered ((w.sys.log.drop 1).take 5) = [9, 10])) (by decide +kernel)
  rw [Bool.and_eq_true] at h2
  obtain ⟨earlier, a1, a2⟩ := afterJump h2.1
  exact ⟨w0, w, ⟨server20_new (by decide +kernel), rfl, rfl, rfl, _, rfl, rfl⟩,
    hreach_hrun headers20_ok (fun _ _ h => ⟨(hJump_of h).1, (hJump_of h).2.2.2.2.connected⟩) _ .refl h1, _, earlier,
    a1, a2, of_decide_eq_true h2.2⟩

/-- The hypotheses of `C61_forward_bounded_unknown_length_partial`: a jump to 8, through a
buffer of 10. -/
example : ∃ w0 w : HSys (bndStorage true memStorage),
    HStarts (bndProvider true memProvider 10) cfgUB20 (fun _ => none) (server20 headersNoLen) w0 ∧
    HReach cfgUB20 (RangeServer bytes20) (fun w a => HClean w a ∧ HNothingLeft w a ∧ HForward cfgUB20 w a) w0 w ∧
    Ev.readRet 8 2 true (.ok [9, 10]) ∈ w.sys.log := by
  let w0 : HSys (bndStorage true memStorage) :=
    { sys := init cfgUB20 demoBnd10, http := stream20 headersNoLen none }
  obtain ⟨w, h1, h2⟩ := of_any (o := hrun (hJumpB cfgUB20) cfgUB20 (server20 headersNoLen) w0 jumpTo8)
    (p := fun w : HSys (bndStorage true memStorage) => decide (Ev.readRet 8 2 true (.ok [9, 10]) ∈ w.sys.log))
    (by decide +kernel)
  exact ⟨w0, w, ⟨server20_new (by decide +kernel), rfl, rfl, rfl, demoBnd10, rfl, rfl⟩,
    hreach_hrun headersNoLen_ok (fun _ _ h => (hJump_of h).2.2) _ .refl h1, of_decide_eq_true h2⟩

/-- The hypotheses of `C61_forward_bounded_known_length_partial`. -/
example : ∃ w0 w : HSys (bndStorage true memStorage),
    HStarts (bndProvider true memProvider 10) cfgB20 (fun _ => none) (server20 headers20) w0 ∧
    HReach cfgB20 (RangeServer bytes20) (fun w a => RangesOk w a ∧ HEnds w a ∧ HClean w a ∧ HNothingLeft w a ∧
      HForward cfgB20 w a) w0 w ∧
    Ev.readRet 8 2 true (.ok [9, 10]) ∈ w.sys.log := by
  let w0 : HSys (bndStorage true memStorage) :=
    { sys := init cfgB20 demoBnd10, http := stream20 headers20 (some 20) }
  obtain ⟨w, h1, h2⟩ := of_any (o := hrun (hJumpB cfgB20) cfgB20 (server20 headers20) w0 jumpTo8)
    (p := fun w : HSys (bndStorage true memStorage) => decide (Ev.readRet 8 2 true (.ok [9, 10]) ∈ w.sys.log))
    (by decide +kernel)
  exact ⟨w0, w, ⟨server20_new (by decide +kernel), rfl, rfl, rfl, demoBnd10, rfl, rfl⟩,
    hreach_hrun headers20_ok (fun _ _ h => hJump_of h) _ .refl h1, of_decide_eq_true h2⟩

/-- The tests for reading in order. -/
def hSeqB {S : Storage} (w : HSys S) (a : Act) : Bool := noSeekB w.sys a && hEndsB w a && cleanB w.sys a

theorem hSeq_of {S : Storage} {w : HSys S} {a : Act} {answer : Answer} (h : hSeqB w a = true) :
    HNoSeek w (toHAct answer a) ∧ HEnds w (toHAct answer a) ∧ HClean w (toHAct answer a) := by
  simp only [hSeqB, Bool.and_eq_true] at h
  exact ⟨hNoSeek_of h.1.1, hEnds_of h.1.2, hClean_of h.2⟩

/-- The hypotheses of `C62_http_read_to_end_unknown_length`: 20 bytes, with a reconnect. -/
example : ∃ w0 w : HSys memStorage,
    HStarts memProvider cfg20NoLen (fun _ => none) (server20 headersNoLen) w0 ∧
    HReach cfg20NoLen (RangeServer bytes20) (fun w a => HNoSeek w a ∧ HEnds w a) w0 w ∧
    ∃ later earlier, w.sys.log = later ++ .readRet 2 20 false (.ok (bytes20.drop 2)) :: earlier := by
  let w0 : HSys memStorage :=
    { sys := init cfg20NoLen { buf := [], written := 0, rp := 0, wp := 0 }, http := stream20 headersNoLen none }
  obtain ⟨w, h1, h2⟩ := of_any (o := hrun hSeqB cfg20NoLen (server20 headersNoLen) w0
    ([.chunk 2] ++ srcs 6 ++ [.read 2] ++ rdrs 4 ++ [.timeout, .reconnOk 0, .chunk 18] ++ srcs 6 ++ [.eof] ++
      srcs 6 ++ [.read 20] ++ rdrs 7))
    (p := fun w : HSys memStorage => decide (Ev.readRet 2 20 false (.ok (bytes20.drop 2)) ∈ w.sys.log))
    (by decide +kernel)
  exact ⟨w0, w, ⟨server20_new (by decide +kernel), rfl, rfl, rfl, _, rfl, rfl⟩,
    hreach_hrun headersNoLen_ok (fun _ _ h => ⟨(hSeq_of h).1, (hSeq_of h).2.1⟩) _ .refl h1,
    List.append_of_mem (of_decide_eq_true h2)⟩

/-- The hypotheses of `C62_http_read_to_end_unknown_length_bounded_partial`: 20 bytes through a
buffer of 10. -/
example : ∃ w0 w : HSys (bndStorage true memStorage),
    HStarts (bndProvider true memProvider 10) cfgUB20 (fun _ => none) (server20 headersNoLen) w0 ∧
    HReach cfgUB20 (RangeServer bytes20) (fun w a => HNoSeek w a ∧ HEnds w a ∧ HClean w a) w0 w ∧
    ∃ later earlier, w.sys.log = later ++ .readRet 18 4 false (.ok [19, 20]) :: earlier := by
  let w0 : HSys (bndStorage true memStorage) :=
    { sys := init cfgUB20 demoBnd10, http := stream20 headersNoLen none }
  obtain ⟨w, h1, h2⟩ := of_any (o := hrun hSeqB cfgUB20 (server20 headersNoLen) w0
    ([.chunk 10] ++ srcs 6 ++ [.read 10] ++ rdrs 4 ++ [.chunk 10] ++ srcs 6 ++ [.read 8] ++ rdrs 4 ++ [.eof] ++
      srcs 6 ++ [.read 4] ++ rdrs 7))
    (p := fun w : HSys (bndStorage true memStorage) => decide (Ev.readRet 18 4 false (.ok [19, 20]) ∈ w.sys.log))
    (by decide +kernel)
  exact ⟨w0, w, ⟨server20_new (by decide +kernel), rfl, rfl, rfl, demoBnd10, rfl, rfl⟩,
    hreach_hrun headersNoLen_ok (fun _ _ h => hSeq_of h) _ .refl h1, List.append_of_mem (of_decide_eq_true h2)⟩

/-- The hypotheses of `C68_opendal_rest_after_seek`. -/
example : ∃ w0 w : XSys opendalSource memStorage, OStarts memProvider cfg20 bytes20 w0 ∧
    XReach cfg20 (storeWorld bytes20) (XConnected cfg20) w0 w ∧
    ∃ since earlier, w.sys.log = .readRet 10 20 true (.ok (bytes20.drop 10)) ::
        (since ++ .seekRet 8 (.ok 8) :: earlier) ∧
      (∀ t r, Ev.seekRet t r ∉ since) ∧ delivered since = [9, 10] := by
  let w0 : XSys opendalSource memStorage :=
    { sys := init cfg20 demoMem20, src := opendalNew (fun n => n) 20 bytes20 20 }
  obtain ⟨w, h1, h2⟩ := of_any (o := xrun (toOAct bytes20) okO (fun w a => forwardB cfg20 w.sys a) cfg20 w0
    (jumpTo8 ++ [.chunk 8] ++ srcs 6 ++ [.read 20] ++ rdrs 2))
    (p := fun w : XSys opendalSource memStorage =>
      afterJumpB w.sys.log (.readRet 10 20 true (.ok (bytes20.drop 10))) 5 8 8 &&
      decide (delivered ((w.sys.log.drop 1).take 5) = [9, 10])) (by decide +kernel)
  rw [Bool.and_eq_true] at h2
  obtain ⟨earlier, a1, a2⟩ := afterJump h2.1
  refine ⟨w0, w, ⟨⟨fun n => n, 20, fun n => Nat.le_refl n, by decide, rfl, rfl⟩, rfl, rfl, demoMem20, rfl, rfl⟩,
    xreach_xrun (fun _ _ h => okO_of h) (fun w a (h : forwardB cfg20 w.sys a = true) => ?_) _ .refl h1, _, earlier,
    a1, a2, of_decide_eq_true h2.2⟩
  intro f p hf hp
  cases a <;> simp [toOAct] at hf
  exact (forward_of h).connected f p (by rw [hf]) hp

/-- The hypotheses of `C64_forward_bounded_partial`. -/
example : ∃ w0 w : XSys opendalSource (bndStorage true memStorage),
    OStarts (bndProvider true memProvider 10) cfgB20 bytes20 w0 ∧
    XReach cfgB20 (storeWorld bytes20) (fun w a => XClean w a ∧ XNothingLeft w a ∧ XForward cfgB20 w a) w0 w ∧
    Ev.readRet 8 2 true (.ok [9, 10]) ∈ w.sys.log := by
  let w0 : XSys opendalSource (bndStorage true memStorage) :=
    { sys := init cfgB20 demoBnd10, src := opendalNew (fun n => n) 20 bytes20 20 }
  obtain ⟨w, h1, h2⟩ := of_any (o := xrun (toOAct bytes20) okO
    (fun w a => cleanB w.sys a && decide (a ≠ .reconnFail) && nothingLeftB w.sys a && forwardB cfgB20 w.sys a)
    cfgB20 w0 jumpTo8)
    (p := fun w : XSys opendalSource (bndStorage true memStorage) =>
      decide (Ev.readRet 8 2 true (.ok [9, 10]) ∈ w.sys.log)) (by decide +kernel)
  refine ⟨w0, w, ⟨⟨fun n => n, 20, fun n => Nat.le_refl n, by decide, rfl, rfl⟩, rfl, rfl, demoBnd10, rfl, rfl⟩,
    xreach_xrun (fun _ _ h => okO_of h) (fun w a h => ?_) _ .refl h1, of_decide_eq_true h2⟩
  simp only [Bool.and_eq_true] at h
  refine ⟨toOAct_clean h.1.1.1 (of_decide_eq_true h.1.1.2), ?_, ?_⟩
  · intro hf
    cases a <;> simp [toOAct] at hf
    exact nothingLeft_of h.1.2 rfl
  · intro f p hf hp
    cases a <;> simp [toOAct] at hf
    exact forward_of h.2 f p (by rw [hf]) hp

end SD
