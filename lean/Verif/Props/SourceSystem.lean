import Verif.Proof.SourceSystem
import Verif.Props.ReadAllUnknown

/-!
# Properties C64 and C65: what a consumer reads from an OpenDAL object and from a reader

The whole stack: `OpendalStream` or `AsyncReadStream`, download task, storage and reader.  What
is assumed of the world outside is `storeWorld` and `readerWorld`.  The second source is
also that of a process (process.rs 259-330): its stdout is the reader, and its
`on_finish` is a field of the configuration.
-/

set_option linter.unusedVariables false

namespace SD

/-! ### From the stack to the system -/

theorem XNoSeek.is {R : Source} {S : Storage} {w : XSys R S} {a : XAct R} {x : Act} (h : XNoSeek w a)
    (hx : a.Is w.src x) : NoSeek w.sys x := by
  intro f hf
  subst hf
  cases hx
  exact h f rfl

theorem XForward.is {R : Source} {S : Storage} {c : Cfg} {w : XSys R S} {a : XAct R} {x : Act} (h : XForward c w a)
    (hx : a.Is w.src x) : Forward c w.sys x := by
  intro f p hf
  subst hf
  cases hx
  exact h f p rfl

theorem XConnected.is {R : Source} {S : Storage} {c : Cfg} {w : XSys R S} {a : XAct R} {x : Act}
    (h : XConnected c w a) (hx : a.Is w.src x) : Connected c w.sys x := by
  intro f p hf
  subst hf
  cases hx
  exact h f p rfl

theorem XClean.is {R : Source} {S : Storage} {w : XSys R S} {a : XAct R} {x : Act} (h : XClean w a)
    (hx : a.Is w.src x) : CleanReconnect w.sys x := by
  intro p hf
  subst hf
  cases hx with
  | sys _ h' => simp [Act.ofSource] at h'
  | reconnOk e _ _ => exact h e rfl

/-- A source that ends only at the end of its range. -/
theorem XInv.ends {R : Source} {S : Storage} {W : World R} {remote : List Byte} (V : Serves R W remote true)
    {c : Cfg} {b : Byte} (hlim : ∀ t p lim, V.At t p lim → lim = none) {w : XSys R S} {a : XAct R} {x : Act}
    (hi : XInv V w) (hA : W.Allows w a) (hx : a.Is w.src x) (hs : step (c.on remote b) w.sys x ≠ none) :
    EndsAtEnd (c.on remote b) w.sys x := by
  rintro rfl m hm
  have hm : remote.length = m := by simpa [Cfg.on] using hm
  cases hx with
  | sys _ h => simp [Act.ofSource] at h
  | eof e he =>
    have hsel : w.sys.spc = .sel := by
      refine Classical.byContradiction fun h => hs ?_
      simp [step, h]
    have hat := hi.at' (by rw [hsel]; rfl)
    have h0 := hlim _ _ _ hat
    obtain ⟨-, -, h1⟩ := V.done hat hA he
    have h2 := h1 rfl
    rw [h0] at h2
    have h3 := congrArg List.length h2
    simp [bytesIn] at h3
    omega

/-! ### C64: an object of an object store -/

theorem OStarts.real {P : Provider} {c : Cfg} {object : List Byte} {w0 : XSys opendalSource P.S}
    (h : OStarts P c object w0) {n : Nat} (hn : c.contentLength = some n) : n = object.length := by
  obtain ⟨⟨alloc, k, h1, h2, h3, h4⟩, -, -⟩ := h
  rw [h4, h3] at hn
  simp only [opendalNew] at hn
  split at hn <;> simp at hn
  exact hn.symm

theorem OStarts.declares {P : Provider} {c : Cfg} {object : List Byte} {w0 : XSys opendalSource P.S}
    (h : OStarts P c object w0) (hne : object ≠ []) : c.contentLength = some object.length := by
  obtain ⟨⟨alloc, k, h1, h2, h3, h4⟩, -, -⟩ := h
  rw [h4, h3]
  simp only [opendalNew]
  rw [if_pos (List.length_pos_iff.2 hne)]

theorem OStarts.lengthHonest {P : Provider} {c : Cfg} {object : List Byte} {w0 : XSys opendalSource P.S}
    (h : OStarts P c object w0) (b : Byte) : (c.on object b).LengthHonest :=
  fun n hn => ⟨object.length, rfl, Nat.le_of_eq (h.real hn).symm⟩

theorem OStarts.delivers {P : Provider} {c : Cfg} {object : List Byte} {w0 : XSys opendalSource P.S}
    (h : OStarts P c object w0) (b : Byte) (s : Sys P.S) (a : Act) : Delivers (c.on object b) s a :=
  fun _ hf => absurd hf (by rw [show (c.on object b).supportsSeek = c.supportsSeek from rfl, h.2.1]; simp)

/-- C64 without seeks, for storage that keeps everything: what the reads have returned is a
prefix of the object, whatever the chunk size and the errors of the store. -/
theorem C64_sequential_unbounded {P : Provider} {c : Cfg} (hP : Unbounded c.contentLength P)
    (hb : c.batchSize ≠ 0) (hk : c.KeepsErrors) {object : List Byte} {w0 w : XSys opendalSource P.S}
    (h0 : OStarts P c object w0) (h : XReach c (storeWorld object) XNoSeek w0 w) :
    delivered w.sys.log <+: object := by
  have h1 : ∀ b, delivered w.sys.log = slice (fun i => object.getD i b) 0 (delivered w.sys.log).length := by
    intro b
    obtain ⟨hR, -⟩ := xreach_sim (opendalServes object) (b := b) (G' := NoSeek)
      (fun w a x _ _ hg hx _ => hg.is hx) (XInv.opendal h0) h
    exact C01_sequential_unbounded_partial (c := c.on object b) hP hb (h0.lengthHonest b) hk h0.2.2
      (hR.mono fun s a hg => ⟨hg.1, hg.2, h0.delivers b s a⟩)
  rw [within_of_slice h1]
  simpa using List.take_prefix _ _

/-- C64 without seeks, for storage that keeps a window, if no reconnect takes place while
received bytes wait to be written (C35). -/
theorem C64_sequential_bounded_partial {P : Provider} {c : Cfg} (hP : Windowed c.contentLength P)
    {object : List Byte} {w0 w : XSys opendalSource P.S} (h0 : OStarts P c object w0)
    (h : XReach c (storeWorld object) (fun w a => XNoSeek w a ∧ XClean w a) w0 w) :
    delivered w.sys.log <+: object := by
  have h1 : ∀ b, delivered w.sys.log = slice (fun i => object.getD i b) 0 (delivered w.sys.log).length := by
    intro b
    obtain ⟨hR, -⟩ := xreach_sim (opendalServes object) (b := b) (G' := fun s a => NoSeek s a ∧ CleanReconnect s a)
      (fun w a x _ _ hg hx _ => ⟨hg.1.is hx, hg.2.is hx⟩) (XInv.opendal h0) h
    exact C01_sequential_bounded (c := c.on object b) hP h0.2.2 hR
  rw [within_of_slice h1]
  simpa using List.take_prefix _ _

/-- C64 with any seeks, for storage that keeps everything: a read that did not have to wait
returns exactly the bytes of the object at its position. -/
theorem C64_unblocked_read {P : Provider} {c : Cfg} (hP : Unbounded c.contentLength P)
    (hb : c.batchSize ≠ 0) {object : List Byte} {w0 w : XSys opendalSource P.S}
    (h0 : OStarts P c object w0) (h : XReach c (storeWorld object) XAny w0 w)
    {pos len : Nat} {res : Res (List Byte)} (hr : Ev.readRet pos len true res ∈ w.sys.log) :
    ∃ bs, res = .ok bs ∧ bs = (object.drop pos).take bs.length ∧
      bs.length = c.normalize (pos + len) - pos := by
  have h1 : ∀ b, res = .ok (slice (fun i => object.getD i b) pos (c.normalize (pos + len) - pos)) := by
    intro b
    obtain ⟨hR, -⟩ := xreach_sim (opendalServes object) (b := b) (G' := Any)
      (fun w a x _ _ hg hx _ => trivial) (XInv.opendal h0) h
    exact C02_unblocked_read_exact (c := c.on object b) hP hb (h0.lengthHonest b) h0.2.2
      (hR.mono fun s a hg => hg.1) hr
  refine ⟨_, h1 0, ?_, by simp⟩
  apply within_of_slice
  intro b
  have h2 := h1 b
  rw [h1 0] at h2
  simp only [slice_length]
  simpa using h2

/-- C64 with seeks, for storage that keeps everything, if the consumer goes back only over
bytes it has read or that are downloaded: every read returns the bytes of the object at its
position. -/
theorem C64_forward_reads_partial {P : Provider} {c : Cfg} (hP : Unbounded c.contentLength P)
    (hb : c.batchSize ≠ 0) (hk : c.KeepsErrors) {object : List Byte} {w0 w : XSys opendalSource P.S}
    (h0 : OStarts P c object w0) (h : XReach c (storeWorld object) (XConnected c) w0 w)
    {pos len : Nat} {fast : Bool} {bs : List Byte} (hr : Ev.readRet pos len fast (.ok bs) ∈ w.sys.log) :
    bs = (object.drop pos).take bs.length := by
  apply within_of_slice
  intro b
  obtain ⟨hR, -⟩ := xreach_sim (opendalServes object) (b := b) (G' := Connected (c.on object b))
    (fun w a x _ _ hg hx _ => hg.is hx) (XInv.opendal h0) h
  exact C03_reads_after_seeks_partial (c := c.on object b) hP hb (h0.lengthHonest b) hk h0.2.2
    (hR.mono fun s a hg => ⟨hg.1, h0.delivers b s a, fun _ => hg.2⟩) pos len fast bs hr

/-- C64, reading to the end, for storage that keeps everything: once a read has returned
fewer bytes than asked for, the consumer has received exactly the object. -/
theorem C64_read_to_end_unbounded {P : Provider} {c : Cfg} (hP : Unbounded c.contentLength P)
    (hb : c.batchSize ≠ 0) (hk : c.KeepsErrors) {object : List Byte} {w0 w : XSys opendalSource P.S}
    (h0 : OStarts P c object w0) (h : XReach c (storeWorld object) XNoSeek w0 w)
    {later earlier : List Ev} {pos len : Nat} {fast : Bool} {bs : List Byte}
    (hl : w.sys.log = later ++ .readRet pos len fast (.ok bs) :: earlier) (hlt : bs.length < len) :
    delivered (.readRet pos len fast (.ok bs) :: earlier) = object ∧ delivered w.sys.log = object := by
  by_cases hne : object = []
  · have h1 := C64_sequential_unbounded hP hb hk h0 h
    subst hne
    have h2 : delivered w.sys.log = [] := List.prefix_nil.1 h1
    have h3 : delivered (.readRet pos len fast (.ok bs) :: earlier) <+: delivered w.sys.log := by
      rw [hl]; exact delivered_append _ _
    rw [h2] at h3
    exact ⟨List.prefix_nil.1 h3, h2⟩
  · obtain ⟨hR, -⟩ := xreach_sim (opendalServes object) (b := 0) (G' := NoSeek)
      (fun w a x _ _ hg hx _ => hg.is hx) (XInv.opendal h0) h
    have := C62_read_to_end_unbounded (c := c.on object 0) hP hb hk (h0.declares hne) rfl h0.2.2
      (hR.mono fun s a hg => ⟨hg.1, hg.2, h0.delivers 0 s a⟩) hl hlt
    have e : slice (c.on object 0).remote 0 object.length = object := slice_getD object 0
    rw [e] at this
    exact this

/-- C64, reading to the end, for storage that keeps a window; no reconnect succeeds while
received bytes are waiting to be written. -/
theorem C64_read_to_end_bounded_partial {P : Provider} {c : Cfg} (hP : Windowed c.contentLength P)
    (hk : c.KeepsErrors) {object : List Byte} {w0 w : XSys opendalSource P.S}
    (h0 : OStarts P c object w0) (h : XReach c (storeWorld object) (fun w a => XNoSeek w a ∧ XClean w a) w0 w)
    {later earlier : List Ev} {pos len : Nat} {fast : Bool} {bs : List Byte}
    (hl : w.sys.log = later ++ .readRet pos len fast (.ok bs) :: earlier) (hlt : bs.length < len) :
    delivered (.readRet pos len fast (.ok bs) :: earlier) = object ∧ delivered w.sys.log = object := by
  by_cases hne : object = []
  · have h1 := C64_sequential_bounded_partial hP h0 h
    subst hne
    have h2 : delivered w.sys.log = [] := List.prefix_nil.1 h1
    have h3 : delivered (.readRet pos len fast (.ok bs) :: earlier) <+: delivered w.sys.log := by
      rw [hl]; exact delivered_append _ _
    rw [h2] at h3
    exact ⟨List.prefix_nil.1 h3, h2⟩
  · obtain ⟨hR, -⟩ := xreach_sim (opendalServes object) (b := 0) (G' := fun s a => NoSeek s a ∧ CleanReconnect s a)
      (fun w a x _ _ hg hx _ => ⟨hg.1.is hx, hg.2.is hx⟩) (XInv.opendal h0) h
    have := C62_read_to_end_bounded_partial (c := c.on object 0) hP hk (h0.declares hne) rfl h0.2.2
      (hR.mono fun s a hg => ⟨hg.1, hg.2.2, hg.2.1, h0.delivers 0 s a⟩) hl hlt
    have e : slice (c.on object 0).remote 0 object.length = object := slice_getD object 0
    rw [e] at this
    exact this

/-! ### C65: a reader -/

theorem readerDelivers {S : Storage} {c : Cfg} {bytes : List Byte} {s : Sys S} {a : Act}
    (hd : ∀ n, c.contentLength = some n → n ≤ bytes.length) {b : Byte}
    (he : EndsAtEnd (c.on bytes b) s a) : Delivers (c.on bytes b) s a := by
  intro ha _ n hn
  exact Nat.le_trans (hd n hn) (he ha bytes.length rfl)

theorem readerEnds {S : Storage} {c : Cfg} {bytes : List Byte} {b : Byte} {w : XSys asyncReadSource S}
    {a : XAct asyncReadSource} {x : Act} (hi : XInv (readerServes bytes false) w)
    (hA : (readerWorld false).Allows w a) (hx : a.Is w.src x) (hs : step (c.on bytes b) w.sys x ≠ none) :
    EndsAtEnd (c.on bytes b) w.sys x :=
  XInv.ends (readerServes bytes false) (fun t p lim h => h.1) hi hA hx hs

theorem readerClean {S : Storage} {w : XSys asyncReadSource S} {a : XAct asyncReadSource} {x : Act}
    (hx : a.Is w.src x) : CleanReconnect w.sys x := by
  intro p hf
  subst hf
  cases hx with
  | sys _ h => simp [Act.ofSource] at h
  | reconnOk e _ h => simp [asyncReadSource, AsyncReadStream.reconnect] at h

/-- C65 with any seeks, for storage that keeps everything, if the reader does not fail and the
declared length, if there is one, is right: every read returns the bytes of the reader at its
position. -/
theorem C65_reads_exact_partial {P : Provider} {c : Cfg} (hP : Unbounded c.contentLength P)
    (hb : c.batchSize ≠ 0) (hk : c.KeepsErrors) {bytes : List Byte}
    (hd : ∀ n, c.contentLength = some n → n = bytes.length) {w0 w : XSys asyncReadSource P.S}
    (h0 : RStarts P c bytes w0) (h : XReach c (readerWorld false) XAny w0 w)
    {pos len : Nat} {fast : Bool} {bs : List Byte} (hr : Ev.readRet pos len fast (.ok bs) ∈ w.sys.log) :
    bs = (bytes.drop pos).take bs.length := by
  apply within_of_slice
  intro b
  obtain ⟨hR, -⟩ := xreach_sim (readerServes bytes false) (b := b) (G' := fun s x => Delivers (c.on bytes b) s x)
    (fun w a x hi hA hg hx hs => readerDelivers (fun n hn => Nat.le_of_eq (hd n hn)) (readerEnds hi hA hx hs))
    (XInv.reader false h0) h
  have hs : (c.on bytes b).supportsSeek = false := h0.2.1.trans rfl
  exact C32_unseekable_reads_exact (c := c.on bytes b) hP hs hb
    (fun n hn => ⟨bytes.length, rfl, Nat.le_of_eq (hd n hn).symm⟩) hk h0.2.2 hR pos len fast bs hr

/-- C65 with any seeks, for storage that keeps everything and an unknown length: every read
returns the bytes of the reader at its position, also if the reader fails. -/
theorem C65_reads_exact_unknown_length {P : Provider} {c : Cfg} (hP : Unbounded c.contentLength P)
    (hb : c.batchSize ≠ 0) (hk : c.KeepsErrors) (hcl : c.contentLength = none) {bytes : List Byte}
    {w0 w : XSys asyncReadSource P.S} (h0 : RStarts P c bytes w0) (h : XReach c (readerWorld true) XAny w0 w)
    {pos len : Nat} {fast : Bool} {bs : List Byte} (hr : Ev.readRet pos len fast (.ok bs) ∈ w.sys.log) :
    bs = (bytes.drop pos).take bs.length := by
  apply within_of_slice
  intro b
  obtain ⟨hR, -⟩ := xreach_sim (readerServes bytes true) (b := b) (G' := Any)
    (fun w a x hi hA hg hx hs => trivial) (XInv.reader true h0) h
  have hs : (c.on bytes b).supportsSeek = false := h0.2.1.trans rfl
  have hno : ∀ n, (c.on bytes b).contentLength ≠ some n := by
    intro n hn; rw [show (c.on bytes b).contentLength = c.contentLength from rfl, hcl] at hn; simp at hn
  exact C32_unseekable_reads_exact (c := c.on bytes b) hP hs hb (fun n hn => absurd hn (hno n)) hk h0.2.2
    (hR.mono fun s a hg => ⟨hg.1, fun _ _ n hn => absurd hn (hno n)⟩) pos len fast bs hr

/-- C65 with any seeks, for storage that keeps a window: every read that succeeds returns the
bytes of the reader at its position, also if the reader fails, whatever length is
declared.  (`AsyncReadStream` never reconnects.) -/
theorem C65_reads_exact_bounded {P : Provider} {c : Cfg} (hP : Windowed c.contentLength P)
    {bytes : List Byte} {w0 w : XSys asyncReadSource P.S} (h0 : RStarts P c bytes w0)
    (h : XReach c (readerWorld true) XAny w0 w)
    {pos len : Nat} {fast : Bool} {bs : List Byte} (hr : Ev.readRet pos len fast (.ok bs) ∈ w.sys.log) :
    bs = (bytes.drop pos).take bs.length := by
  apply within_of_slice
  intro b
  obtain ⟨hR, -⟩ := xreach_sim (readerServes bytes true) (b := b) (G' := CleanReconnect)
    (fun w a x hi hA hg hx hs => readerClean hx) (XInv.reader true h0) h
  have hs : (c.on bytes b).supportsSeek = false := h0.2.1.trans rfl
  exact C03_reads_after_seeks_bounded_partial (c := c.on bytes b) hP hs h0.2.2 hR pos len fast bs hr

/-- C65, reading to the end, for storage that keeps everything, if the reader does not fail
and the declared length, if there is one, is right: once a read has returned fewer bytes than
asked for, the consumer has received exactly what the reader delivers. -/
theorem C65_read_to_end_partial {P : Provider} {c : Cfg} (hP : Unbounded c.contentLength P)
    (hb : c.batchSize ≠ 0) (hk : c.KeepsErrors) {bytes : List Byte}
    (hd : ∀ n, c.contentLength = some n → n = bytes.length) {w0 w : XSys asyncReadSource P.S}
    (h0 : RStarts P c bytes w0) (h : XReach c (readerWorld false) XNoSeek w0 w)
    {later earlier : List Ev} {pos len : Nat} {fast : Bool} {bs : List Byte}
    (hl : w.sys.log = later ++ .readRet pos len fast (.ok bs) :: earlier) (hlt : bs.length < len) :
    delivered (.readRet pos len fast (.ok bs) :: earlier) = bytes ∧ delivered w.sys.log = bytes := by
  obtain ⟨hR, -⟩ := xreach_sim (readerServes bytes false) (b := 0)
    (G' := fun s x => NoSeek s x ∧ EndsAtEnd (c.on bytes 0) s x)
    (fun w a x hi hA hg hx hs => ⟨hg.is hx, readerEnds hi hA hx hs⟩) (XInv.reader false h0) h
  have e : slice (c.on bytes 0).remote 0 bytes.length = bytes := slice_getD bytes 0
  cases hcl : c.contentLength with
  | none =>
    have := C62_read_to_end_unknown_length (c := c.on bytes 0) hP hb hk hcl rfl h0.2.2 hR hl hlt
    rw [e] at this
    exact this
  | some n =>
    have hn := hd n hcl
    subst hn
    have := C62_read_to_end_unbounded (c := c.on bytes 0) hP hb hk hcl rfl h0.2.2
      (hR.mono fun s a hg => ⟨hg.1, hg.2.1, readerDelivers (fun n hn => Nat.le_of_eq (hd n hn)) hg.2.2⟩) hl hlt
    rw [e] at this
    exact this

/-- The same for storage that keeps a window. -/
theorem C65_read_to_end_bounded_partial {P : Provider} {c : Cfg} (hP : Windowed c.contentLength P)
    (hk : c.KeepsErrors) {bytes : List Byte}
    (hd : ∀ n, c.contentLength = some n → n = bytes.length) {w0 w : XSys asyncReadSource P.S}
    (h0 : RStarts P c bytes w0) (h : XReach c (readerWorld false) XNoSeek w0 w)
    {later earlier : List Ev} {pos len : Nat} {fast : Bool} {bs : List Byte}
    (hl : w.sys.log = later ++ .readRet pos len fast (.ok bs) :: earlier) (hlt : bs.length < len) :
    delivered (.readRet pos len fast (.ok bs) :: earlier) = bytes ∧ delivered w.sys.log = bytes := by
  obtain ⟨hR, -⟩ := xreach_sim (readerServes bytes false) (b := 0)
    (G' := fun s x => CleanReconnect s x ∧ NoSeek s x ∧ EndsAtEnd (c.on bytes 0) s x)
    (fun w a x hi hA hg hx hs => ⟨readerClean hx, hg.is hx, readerEnds hi hA hx hs⟩) (XInv.reader false h0) h
  have e : slice (c.on bytes 0).remote 0 bytes.length = bytes := slice_getD bytes 0
  cases hcl : c.contentLength with
  | none =>
    have := C62_read_to_end_unknown_length_bounded_partial (c := c.on bytes 0) hP hk hcl rfl h0.2.2 hR hl hlt
    rw [e] at this
    exact this
  | some n =>
    have hn := hd n hcl
    subst hn
    have := C62_read_to_end_bounded_partial (c := c.on bytes 0) hP hk hcl rfl h0.2.2
      (hR.mono fun s a hg => ⟨hg.1, hg.2.1, hg.2.2.1,
        readerDelivers (fun n hn => Nat.le_of_eq (hd n hn)) hg.2.2.2⟩) hl hlt
    rw [e] at this
    exact this

/-! ### Runs -/

instance decAllows (alloc : Nat → Nat) (b : BufReader) : (a : ReadAns) → Decidable (b.Allows alloc a)
  | .data _ => inferInstanceAs (Decidable (_ ∧ _ ∧ _))
  | .err => .isTrue trivial

/-- Run a list of actions, each translated by `f`, leaving out those that
fail the tests `ok` and `g` or cannot happen. -/
def xrun {R : Source} {S : Storage} (f : XSys R S → Act → XAct R) (ok g : XSys R S → Act → Bool) (c : Cfg)
    (w : XSys R S) : List Act → Option (XSys R S)
  | [] => some w
  | a :: as =>
    if ok w a && g w a then
      match xstep R c w (f w a) with
      | some w' => xrun f ok g c w' as
      | none => xrun f ok g c w as
    else xrun f ok g c w as

theorem xreach_xrun {R : Source} {S : Storage} {f : XSys R S → Act → XAct R} {ok g : XSys R S → Act → Bool} {c : Cfg}
    {W : World R} {G : XSys R S → XAct R → Prop} (hok : ∀ w a, ok w a = true → W.Allows w (f w a))
    (hG : ∀ w a, g w a = true → G w (f w a)) {w0 : XSys R S} (as : List Act) :
    ∀ {w1 w : XSys R S}, XReach c W G w0 w1 → xrun f ok g c w1 as = some w → XReach c W G w0 w := by
  induction as with
  | nil => intro w1 w h1 h; simp [xrun] at h; subst h; exact h1
  | cons a as ih =>
    intro w1 w h1 h
    simp only [xrun] at h
    split at h
    · rename_i hga
      rw [Bool.and_eq_true] at hga
      split at h
      · rename_i w2 h2
        exact ih (h1.step (hok _ _ hga.1) (hG _ _ hga.2) h2) h
      · exact ih h1 h
    · exact ih h1 h

/-- What a new reader of the object delivers if the task asks for it now. -/
def askedOf {S : Storage} (object : List Byte) (s : Sys S) : NewReader :=
  match s.spc with
  | .seeking start stop => .ok (bytesIn object start stop)
  | .reconn p => .ok (bytesIn object p none)
  | _ => .err .other

/-- The actions of a store that offers `object`. -/
def toOAct {S : Storage} (object : List Byte) (w : XSys opendalSource S) : Act → XAct opendalSource
  | .chunk n => .poll (fun n => n, .data n)
  | .chunkErr => .poll (fun n => n, .err)
  | .eof => .poll (fun n => n, .data 0)
  | .seekOk _ => .seekRange (askedOf object w.sys)
  | .reconnOk _ => .reconnect (askedOf object w.sys)
  | .seekFail k => .seekRange (.err k)
  | .reconnFail => .reconnect (.err .other)
  | a => .sys a

/-- The test that the store allows it. -/
def okO {S : Storage} (w : XSys opendalSource S) : Act → Bool
  | .chunk n => decide ((w.src.reader.prepare (fun n => n) w.src.capacity).Allows (fun n => n) (.data n))
  | .eof => decide ((w.src.reader.prepare (fun n => n) w.src.capacity).Allows (fun n => n) (.data 0))
  | _ => true

theorem okO_of {S : Storage} {object : List Byte} {w : XSys opendalSource S} {a : Act} (h : okO w a = true) :
    (storeWorld object).Allows w (toOAct object w a) := by
  cases a
  case chunk n => simp only [okO, decide_eq_true_eq] at h; exact ⟨fun n => Nat.le_refl n, h⟩
  case eof => simp only [okO, decide_eq_true_eq] at h; exact ⟨fun n => Nat.le_refl n, h⟩
  case chunkErr => exact ⟨fun n => Nat.le_refl n, trivial⟩
  case seekOk p =>
    intro start stop hp
    show _ ≠ _ ∧ _
    simp only [askedOf, hp]
    exact ⟨by simp, fun rest h => by simpa using h.symm⟩
  case reconnOk p =>
    intro p hp
    show _ ≠ _ ∧ _
    simp only [askedOf, hp]
    exact ⟨by simp, fun rest h => by simpa using h.symm⟩
  case seekFail k => intro _ _ _; exact ⟨by simp, by simp⟩
  case reconnFail => intro _ _; exact ⟨by simp, by simp⟩
  all_goals trivial

theorem toOAct_noSeek {S : Storage} {object : List Byte} {w : XSys opendalSource S} {a : Act}
    (h : noSeekB w.sys a = true) : XNoSeek w (toOAct object w a) := by
  intro f hf
  cases a <;> simp [toOAct] at hf
  exact noSeek_of h f (by rw [hf])

theorem toOAct_clean {S : Storage} {object : List Byte} {w : XSys opendalSource S} {a : Act}
    (h : cleanB w.sys a = true) (hf : a ≠ .reconnFail) : XClean w (toOAct object w a) := by
  intro e he
  cases a <;> simp [toOAct] at he hf
  exact clean_of h _ rfl

/-- The actions of a reader. -/
def toRAct {S : Storage} (_ : XSys asyncReadSource S) : Act → XAct asyncReadSource
  | .chunk n => .poll (fun n => n, .data n)
  | .chunkErr => .poll (fun n => n, .err)
  | .eof => .poll (fun n => n, .data 0)
  | .seekOk _ => .seekRange ()
  | .reconnOk _ => .reconnect ()
  | .seekFail _ => .seekRange ()
  | .reconnFail => .reconnect ()
  | a => .sys a

/-- The test that the reader allows it: once it has been given up, it is not asked. -/
def okR {S : Storage} (errors : Bool) (w : XSys asyncReadSource S) : Act → Bool
  | .chunk n => decide ((w.src.reader.prepare (fun n => n) 4096).Allows (fun n => n) (.data n))
  | .eof => decide ((w.src.reader.prepare (fun n => n) 4096).Allows (fun n => n) (.data 0))
  | .chunkErr => errors
  | _ => true

theorem okR_of {S : Storage} {errors : Bool} {w : XSys asyncReadSource S} {a : Act} (h : okR errors w a = true) :
    (readerWorld errors).Allows w (toRAct w a) := by
  cases a
  case chunk n => simp only [okR, decide_eq_true_eq] at h; exact ⟨fun n => Nat.le_refl n, h, by simp⟩
  case eof => simp only [okR, decide_eq_true_eq] at h; exact ⟨fun n => Nat.le_refl n, h, by simp⟩
  case chunkErr => exact ⟨fun n => Nat.le_refl n, trivial, by simp only [okR] at h; simp [h]⟩
  case seekOk p => intro _ _ _; trivial
  case reconnOk p => intro _ _; trivial
  case seekFail k => intro _ _ _; trivial
  case reconnFail => intro _ _; trivial
  all_goals trivial

theorem toRAct_noSeek {S : Storage} {w : XSys asyncReadSource S} {a : Act}
    (h : noSeekB w.sys a = true) : XNoSeek w (toRAct w a) := by
  intro f hf
  cases a <;> simp [toRAct] at hf
  exact noSeek_of h f (by rw [hf])

/-- The bytes 1 to 10. -/
def bytes10 : List Byte := (List.range 10).map fun i => UInt8.ofNat (i + 1)

/-- The stream of an object, read in chunks of at most 8. -/
def objStream (object : List Byte) : OpendalStream := opendalNew (fun n => n) 8 object object.length

/-! ### C64 fails with backward seeks, and with bounded storage -/

/-- C64 fails for backward seeks: the history of `C03_reads_after_seeks_violated` with an object
of ten bytes.  The read at 0 returns two zeros. -/
theorem C64_reads_violated :
    ∃ w0 w : XSys opendalSource memStorage, OStarts memProvider demoCfg bytes10 w0 ∧
      XReach demoCfg (storeWorld bytes10) XAny w0 w ∧
      Ev.readRet 0 2 false (.ok [0, 0]) ∈ w.sys.log ∧ bytes10.take 2 = [1, 2] := by
  let w0 : XSys opendalSource memStorage := { sys := init demoCfg demoMem10, src := objStream bytes10 }
  obtain ⟨w, h1, h2⟩ := of_any (o := xrun (toOAct bytes10) okO (fun _ _ => true) demoCfg w0
    ([.seek (.start 5)] ++ rdrs 3 ++ [.recvSeek, .src, .seekOk 5, .chunk 1] ++ srcs 3 ++
      [.chunk 1] ++ srcs 8 ++ rdrs 3 ++ [.seek (.start 0)] ++ rdrs 3 ++ [.chunk 1] ++ srcs 8 ++
      rdrs 3 ++ [.read 2] ++ rdrs 4 ++ [.chunk 1] ++ srcs 8 ++ rdrs 3))
    (p := fun w : XSys opendalSource memStorage => decide (Ev.readRet 0 2 false (.ok [0, 0]) ∈ w.sys.log))
    (by decide +kernel)
  exact ⟨w0, w, ⟨⟨fun n => n, 8, fun n => Nat.le_refl n, by decide, rfl, rfl⟩, rfl, rfl, demoMem10, rfl, rfl⟩,
    xreach_xrun (fun _ _ h => okO_of h) (fun _ _ _ => trivial) _ .refl h1, of_decide_eq_true h2, by decide +kernel⟩

/-- C64 fails with bounded storage: the store stalls while bytes of the prefetch are waiting to
be written.  The consumer only reads and receives bytes 9 and 10 twice and bytes 19 and 20
never. -/
theorem C64_read_to_end_violated :
    ∃ w0 w : XSys opendalSource (bndStorage true memStorage),
      OStarts (bndProvider true memProvider 8) cfgPf8 bytes20 w0 ∧
      XReach cfgPf8 (storeWorld bytes20) XNoSeek w0 w ∧
      (∃ earlier, w.sys.log = .readRet 17 5 true (.ok [16, 17, 18]) :: earlier) ∧
      delivered w.sys.log = [1, 2, 3, 4, 5, 6, 7, 8, 9, 10, 9, 10, 11, 12, 13, 14, 15, 16, 17, 18] := by
  let w0 : XSys opendalSource (bndStorage true memStorage) :=
    { sys := init cfgPf8 demoBndPf8, src := opendalNew (fun n => n) 10 bytes20 20 }
  obtain ⟨w, h1, h2⟩ := of_any (o := xrun (toOAct bytes20) okO (fun w a => noSeekB w.sys a) cfgPf8 w0
    ([.chunk 10] ++ srcs 3 ++ [.timeout, .reconnOk 0] ++ [.read 8] ++ rdrs 3 ++ [.chunk 2] ++ srcs 6 ++ [.read 4] ++
      rdrs 4 ++ [.chunk 8] ++ srcs 6 ++ [.read 5] ++ rdrs 4 ++ [.read 5] ++ rdrs 2))
    (p := fun w : XSys opendalSource (bndStorage true memStorage) =>
      decide (w.sys.log.head? = some (.readRet 17 5 true (.ok [16, 17, 18])) ∧
        delivered w.sys.log = [1, 2, 3, 4, 5, 6, 7, 8, 9, 10, 9, 10, 11, 12, 13, 14, 15, 16, 17, 18]))
    (by decide +kernel)
  obtain ⟨h3, h4⟩ := of_decide_eq_true h2
  refine ⟨w0, w, ⟨⟨fun n => n, 10, fun n => Nat.le_refl n, by decide, rfl, rfl⟩, rfl, rfl, demoBndPf8, rfl, rfl⟩,
    xreach_xrun (fun _ _ h => okO_of h) (fun w a (h : noSeekB w.sys a = true) => toOAct_noSeek h) _ .refl h1, ?_, h4⟩
  cases hl : w.sys.log with
  | nil => rw [hl] at h3; cases h3
  | cons e l => rw [hl] at h3; cases h3; exact ⟨l, rfl⟩

/-! ### C65 fails if the reader fails -/

/-- C65 fails if the reader fails: the reader delivers 4 of 10 bytes and then an error.  The
task logs the error and polls again, `ReaderStream` has given up the reader and says that it
is at its end, and the consumer, who asked for 6 bytes, gets 4 bytes, then nothing: the end
of the stream, no error. -/
theorem C65_failure_is_reported_violated :
    ∃ w0 w : XSys asyncReadSource tmpStorage, RStarts tmpProvider cfgOpen bytes10 w0 ∧
      XReach cfgOpen (readerWorld true) XNoSeek w0 w ∧ Ev.chunkErr ∈ w.sys.log ∧
      (∃ earlier, w.sys.log = .readRet 4 6 false (.ok []) :: earlier) ∧ delivered w.sys.log = [1, 2, 3, 4] := by
  let w0 : XSys asyncReadSource tmpStorage :=
    { sys := init cfgOpen { file := [], wp := 0, fp := 0, rbuf := [] }, src := asyncReadNew bytes10 none }
  obtain ⟨w, h1, h2⟩ := of_any (o := xrun toRAct (okR true) (fun w a => noSeekB w.sys a) cfgOpen w0
    ([.chunk 4] ++ srcs 6 ++ [.read 6] ++ rdrs 4 ++ [.chunkErr, .chunkErr] ++ srcs 6 ++ rdrs 5 ++ [.read 6] ++ rdrs 7))
    (p := fun w : XSys asyncReadSource tmpStorage =>
      decide (Ev.chunkErr ∈ w.sys.log ∧ w.sys.log.head? = some (.readRet 4 6 false (.ok [])) ∧
        delivered w.sys.log = [1, 2, 3, 4])) (by decide +kernel)
  obtain ⟨h3, h4, h5⟩ := of_decide_eq_true h2
  refine ⟨w0, w, ⟨rfl, rfl, rfl, _, rfl, rfl⟩,
    xreach_xrun (fun _ _ h => okR_of h) (fun w a (h : noSeekB w.sys a = true) => toRAct_noSeek h) _ .refl h1, h3, ?_, h5⟩
  cases hl : w.sys.log with
  | nil => rw [hl] at h4; cases h4
  | cons e l => rw [hl] at h4; cases h4; exact ⟨l, rfl⟩

/-- With a declared length and memory storage it is worse: the reads return the four bytes
that the reader delivered before it failed, and then four zeros. -/
theorem C65_reads_exact_violated :
    ∃ w0 w : XSys asyncReadSource memStorage, RStarts memProvider cfgUnseekable bytes10 w0 ∧
      XReach cfgUnseekable (readerWorld true) XNoSeek w0 w ∧
      delivered w.sys.log = [1, 2, 3, 4, 0, 0, 0, 0] ∧ bytes10.take 8 = [1, 2, 3, 4, 5, 6, 7, 8] := by
  let w0 : XSys asyncReadSource memStorage :=
    { sys := init cfgUnseekable demoMem10, src := asyncReadNew bytes10 (some 10) }
  obtain ⟨w, h1, h2⟩ := of_any (o := xrun toRAct (okR true) (fun w a => noSeekB w.sys a) cfgUnseekable w0
    ([.chunk 4] ++ srcs 6 ++ [.chunkErr, .chunkErr] ++ srcs 9 ++ [.read 6] ++ rdrs 9 ++ [.read 4] ++ rdrs 6))
    (p := fun w : XSys asyncReadSource memStorage =>
      decide (delivered w.sys.log = [1, 2, 3, 4, 0, 0, 0, 0])) (by decide +kernel)
  exact ⟨w0, w, ⟨rfl, rfl, rfl, _, rfl, rfl⟩,
    xreach_xrun (fun _ _ h => okR_of h) (fun w a (h : noSeekB w.sys a = true) => toRAct_noSeek h) _ .refl h1,
    of_decide_eq_true h2, by decide +kernel⟩

/-! ### Histories that meet the hypotheses -/

/-- An object of 20 bytes into memory: a chunk of 2, an error of the store, a stall and a new
reader, and the consumer reads everything with a
buffer of 30. -/
example : ∃ w0 w : XSys opendalSource memStorage, OStarts memProvider cfg20 bytes20 w0 ∧
    XReach cfg20 (storeWorld bytes20) XNoSeek w0 w ∧
    ∃ later earlier, w.sys.log = later ++ .readRet 0 30 true (.ok bytes20) :: earlier := by
  let w0 : XSys opendalSource memStorage := { sys := init cfg20 demoMem20, src := objStream bytes20 }
  obtain ⟨w, h1, h2⟩ := of_any (o := xrun (toOAct bytes20) okO (fun w a => noSeekB w.sys a) cfg20 w0
    ([.chunk 2] ++ srcs 6 ++ [.chunkErr, .timeout, .reconnFail, .timeout, .reconnOk 0, .chunk 6] ++ srcs 6 ++ [.chunk 8] ++ srcs 6 ++ [.chunk 4] ++
      srcs 6 ++ [.read 30] ++ rdrs 4))
    (p := fun w : XSys opendalSource memStorage => decide (Ev.readRet 0 30 true (.ok bytes20) ∈ w.sys.log))
    (by decide +kernel)
  exact ⟨w0, w, ⟨⟨fun n => n, 8, fun n => Nat.le_refl n, by decide, rfl, rfl⟩, rfl, rfl, demoMem20, rfl, rfl⟩,
    xreach_xrun (fun _ _ h => okO_of h) (fun w a (h : noSeekB w.sys a = true) => toOAct_noSeek h) _ .refl h1,
    List.append_of_mem (of_decide_eq_true h2)⟩

/-- The same through a buffer of 10. -/
example : ∃ w0 w : XSys opendalSource (bndStorage true memStorage),
    OStarts (bndProvider true memProvider 10) cfgB20 bytes20 w0 ∧
    XReach cfgB20 (storeWorld bytes20) (fun w a => XNoSeek w a ∧ XClean w a) w0 w ∧
    ∃ later earlier, w.sys.log = later ++ .readRet 16 9 true (.ok [17, 18, 19, 20]) :: earlier := by
  let w0 : XSys opendalSource (bndStorage true memStorage) :=
    { sys := init cfgB20 demoBnd10, src := objStream bytes20 }
  obtain ⟨w, h1, h2⟩ := of_any (o := xrun (toOAct bytes20) okO
      (fun w a => noSeekB w.sys a && cleanB w.sys a && decide (a ≠ .reconnFail)) cfgB20 w0
    ([.chunk 2] ++ srcs 6 ++ [.timeout, .reconnOk 0, .chunk 6] ++ srcs 6 ++ [.read 8] ++ rdrs 4 ++ [.chunk 8] ++
      srcs 6 ++ [.read 8] ++ rdrs 4 ++ [.chunk 4] ++ srcs 6 ++ [.read 9] ++ rdrs 4))
    (p := fun w : XSys opendalSource (bndStorage true memStorage) =>
      decide (Ev.readRet 16 9 true (.ok [17, 18, 19, 20]) ∈ w.sys.log)) (by decide +kernel)
  refine ⟨w0, w, ⟨⟨fun n => n, 8, fun n => Nat.le_refl n, by decide, rfl, rfl⟩, rfl, rfl, demoBnd10, rfl, rfl⟩,
    xreach_xrun (fun _ _ h => okO_of h) (fun w a h => ?_) _ .refl h1, List.append_of_mem (of_decide_eq_true h2)⟩
  rw [Bool.and_eq_true, Bool.and_eq_true] at h
  exact ⟨toOAct_noSeek h.1.1, toOAct_clean h.1.2 (of_decide_eq_true h.2)⟩

/-- A seek to 8, for `C64_forward_reads_partial` and `C64_unblocked_read`. -/
example : ∃ w0 w : XSys opendalSource memStorage, OStarts memProvider cfg20 bytes20 w0 ∧
    XReach cfg20 (storeWorld bytes20) (XConnected cfg20) w0 w ∧
    Ev.readRet 8 2 true (.ok [9, 10]) ∈ w.sys.log := by
  let w0 : XSys opendalSource memStorage := { sys := init cfg20 demoMem20, src := objStream bytes20 }
  obtain ⟨w, h1, h2⟩ := of_any (o := xrun (toOAct bytes20) okO (fun w a => connectedB cfg20 w.sys a) cfg20 w0
    ([.chunk 1] ++ srcs 6 ++ [.seek (.start 8)] ++ rdrs 3 ++ [.recvSeek, .src, .seekOk 0, .chunk 1] ++
    srcs 3 ++ [.chunk 1] ++ srcs 8 ++ rdrs 3 ++ [.read 2] ++ rdrs 2))
    (p := fun w : XSys opendalSource memStorage => decide (Ev.readRet 8 2 true (.ok [9, 10]) ∈ w.sys.log))
    (by decide +kernel)
  refine ⟨w0, w, ⟨⟨fun n => n, 8, fun n => Nat.le_refl n, by decide, rfl, rfl⟩, rfl, rfl, demoMem20, rfl, rfl⟩,
    xreach_xrun (fun _ _ h => okO_of h) (fun w a (h : connectedB cfg20 w.sys a = true) f p hf hp => ?_) _ .refl h1,
    of_decide_eq_true h2⟩
  cases a <;> simp [toOAct] at hf
  exact connected_of h f p (by rw [hf]) hp

/-- A reader of 10 bytes of unknown length into a file: seeks forward and backward. -/
example : ∃ w0 w : XSys asyncReadSource tmpStorage, RStarts tmpProvider cfgOpen bytes10 w0 ∧
    XReach cfgOpen (readerWorld false) XAny w0 w ∧ Ev.seekRet 5 (.ok 5) ∈ w.sys.log ∧
    Ev.seekRet 1 (.ok 1) ∈ w.sys.log ∧ Ev.readRet 1 2 true (.ok [2, 3]) ∈ w.sys.log := by
  let w0 : XSys asyncReadSource tmpStorage :=
    { sys := init cfgOpen { file := [], wp := 0, fp := 0, rbuf := [] }, src := asyncReadNew bytes10 none }
  obtain ⟨w, h1, h2⟩ := of_any (o := xrun toRAct (okR false) (fun _ _ => true) cfgOpen w0
    ([.chunk 6] ++ srcs 6 ++ [.seek (.start 5)] ++ rdrs 2 ++ [.seek (.start 1)] ++ rdrs 2 ++ [.read 2] ++ rdrs 2))
    (p := fun w : XSys asyncReadSource tmpStorage => decide (Ev.seekRet 5 (.ok 5) ∈ w.sys.log ∧
      Ev.seekRet 1 (.ok 1) ∈ w.sys.log ∧ Ev.readRet 1 2 true (.ok [2, 3]) ∈ w.sys.log)) (by decide +kernel)
  exact ⟨w0, w, ⟨rfl, rfl, rfl, _, rfl, rfl⟩,
    xreach_xrun (fun _ _ h => okR_of h) (fun _ _ _ => trivial) _ .refl h1, of_decide_eq_true h2⟩

/-- The same reader read to its end. -/
example : ∃ w0 w : XSys asyncReadSource tmpStorage, RStarts tmpProvider cfgOpen bytes10 w0 ∧
    XReach cfgOpen (readerWorld false) XNoSeek w0 w ∧
    ∃ later earlier, w.sys.log = later ++ .readRet 6 5 false (.ok [7, 8, 9, 10]) :: earlier := by
  let w0 : XSys asyncReadSource tmpStorage :=
    { sys := init cfgOpen { file := [], wp := 0, fp := 0, rbuf := [] }, src := asyncReadNew bytes10 none }
  obtain ⟨w, h1, h2⟩ := of_any (o := xrun toRAct (okR false) (fun w a => noSeekB w.sys a) cfgOpen w0
    ([.chunk 7] ++ srcs 6 ++ [.read 6] ++ rdrs 4 ++ [.chunk 3] ++ srcs 9 ++ [.eof] ++ srcs 9 ++ [.read 5] ++ rdrs 9))
    (p := fun w : XSys asyncReadSource tmpStorage => decide (Ev.readRet 6 5 false (.ok [7, 8, 9, 10]) ∈ w.sys.log))
    (by decide +kernel)
  exact ⟨w0, w, ⟨rfl, rfl, rfl, _, rfl, rfl⟩,
    xreach_xrun (fun _ _ h => okR_of h) (fun w a (h : noSeekB w.sys a = true) => toRAct_noSeek h) _ .refl h1,
    List.append_of_mem (of_decide_eq_true h2)⟩

/-- And through a buffer of 4. -/
example : ∃ w0 w : XSys asyncReadSource (bndStorage true memStorage),
    RStarts (bndProvider true memProvider 4) cfgOpen4 bytes10 w0 ∧
    XReach cfgOpen4 (readerWorld false) XNoSeek w0 w ∧
    ∃ later earlier, w.sys.log = later ++ .readRet 8 4 false (.ok [9, 10]) :: earlier := by
  let w0 : XSys asyncReadSource (bndStorage true memStorage) :=
    { sys := init cfgOpen4 demoBnd4, src := asyncReadNew bytes10 none }
  obtain ⟨w, h1, h2⟩ := of_any (o := xrun toRAct (okR false) (fun w a => noSeekB w.sys a) cfgOpen4 w0
    ([.chunk 4] ++ srcs 3 ++ [.read 4] ++ rdrs 3 ++ [.chunk 4] ++ srcs 6 ++ [.read 4] ++ rdrs 4 ++
      [.chunk 2] ++ srcs 6 ++ [.eof] ++ srcs 9 ++ [.read 4] ++ rdrs 9))
    (p := fun w : XSys asyncReadSource (bndStorage true memStorage) =>
      decide (Ev.readRet 8 4 false (.ok [9, 10]) ∈ w.sys.log)) (by decide +kernel)
  exact ⟨w0, w, ⟨rfl, rfl, rfl, _, rfl, rfl⟩,
    xreach_xrun (fun _ _ h => okR_of h) (fun w a (h : noSeekB w.sys a = true) => toRAct_noSeek h) _ .refl h1,
    List.append_of_mem (of_decide_eq_true h2)⟩

end SD
