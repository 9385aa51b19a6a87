import Verif.Model.Create
import Verif.Props.Settings
import Verif.Props.ReadAll
import Verif.Props.SourceSystem

/-! # Properties C66 and C67: creating a stream, and what a created stream delivers

Settings are those that any sequence of calls of the settings methods makes out of the default
ones. -/

namespace SD

variable {F G T E : Type}

/-- C66: the creation fails with the source's error if and only if the source fails. -/
theorem C66_stream_failure {base : Cfg} {settings : Settings F G} {P : Provider} {create : Except E T}
    {info : T → StreamInfo} {e : E} :
    (fromCreateStream base settings P create info).1 = .err (.stream e) ↔ create = .error e := by
  unfold fromCreateStream
  cases create with
  | error e' => simp
  | ok t => dsimp only; split <;> simp

/-- C66: the creation fails with the storage's error if and only if the source succeeds and the
storage cannot be created for the length that the source reports. -/
theorem C66_storage_failure {base : Cfg} {settings : Settings F G} {P : Provider} {create : Except E T}
    {info : T → StreamInfo} {k : Kind} :
    (fromCreateStream base settings P create info).1 = .err (.storage k) ↔
      ∃ t, create = .ok t ∧ P.create (info t).contentLength = .err k := by
  unfold fromCreateStream
  cases create with
  | error e' => simp
  | ok t => dsimp only; split <;> simp_all

/-- C66: a download is started if and only if the creation succeeds, and storage is only asked
for after the stream exists. -/
theorem C66_started_iff_created {base : Cfg} {settings : Settings F G} {P : Provider} {create : Except E T}
    {info : T → StreamInfo} :
    (.spawn ∈ (fromCreateStream base settings P create info).2 ↔
      ∃ m, (fromCreateStream base settings P create info).1 = .ok m) ∧
    (∀ cl, .createStorage cl ∈ (fromCreateStream base settings P create info).2 →
      ∃ t, create = .ok t ∧ cl = (info t).contentLength) := by
  unfold fromCreateStream
  cases create with
  | error e' => simp
  | ok t => dsimp only; split <;> simp

/-- C66: a created stream reports the length of its source, runs with the given settings on the
stream that was created, and starts afresh: nothing has happened yet, and consumer and download
are at the beginning. -/
theorem C66_created {base : Cfg} {settings : Settings F G} {P : Provider} {create : Except E T}
    {info : T → StreamInfo} {m : Made P T} (h : (fromCreateStream base settings P create info).1 = .ok m) :
    create = .ok m.stream ∧ m.contentLength = (info m.stream).contentLength ∧
      m.cfg.supportsSeek = (info m.stream).supportsSeek ∧
      m.cfg.prefetchBytes = settings.prefetchBytes ∧ m.cfg.batchSize = settings.batchWriteSize ∧
      m.cfg.cancelOnDrop = settings.cancelOnDrop ∧ m.cfg.capacity = P.maxCapacity ∧
      m.cfg.onFinish = (info m.stream).onFinish ∧ m.sys.log = [] ∧ Starts P m.cfg m.sys ∧
      (Supported (info m.stream).contentLength P →
        (P.S.tell m.sys.st).1 = 0 ∧ P.S.wtell m.sys.st = 0) := by
  unfold fromCreateStream at h
  cases create with
  | error e' => simp at h
  | ok t =>
    dsimp only at h
    split at h <;> simp at h
    rename_i st hst
    subst h
    refine ⟨rfl, rfl, rfl, rfl, rfl, rfl, rfl, rfl, rfl, ⟨rfl, st, hst, rfl⟩, fun hs => ?_⟩
    obtain ⟨PP⟩ := supported_positional hs
    obtain ⟨h1, h2, h3⟩ := PP.create hst
    exact ⟨(PP.pos.tell h1).1.trans h2, h3⟩

/-- The storage of the crate can always be created (file system errors and memory exhaustion are
not modelled). -/
theorem keeps_creates {eager blank : Bool} {cl : Option Nat} {P : Provider} (h : Keeps eager blank cl P) :
    ∃ st, P.create cl = .ok st := by
  induction h with
  | memory cl _ => exact ⟨_, rfl⟩
  | temp cl => exact ⟨_, rfl⟩
  | adaptive checks F V bufferSize n hF hV h1 h2 =>
    obtain ⟨s1, e1⟩ := h1
    obtain ⟨s2, e2⟩ := h2
    simp only [Adp.mk?, e1, e2]
    split <;> exact ⟨_, rfl⟩
  | slow cl takes P _ ih =>
    obtain ⟨s, e⟩ := ih
    exact ⟨_, by simp only [e]; rfl⟩
  | short cl gives P _ _ ih =>
    obtain ⟨s, e⟩ := ih
    exact ⟨_, by simp only [e]; rfl⟩

/-- C66: with the storage of the crate a stream can be created from every source that can be
created. -/
theorem C66_supported_storage_creates {base : Cfg} {settings : Settings F G} {P : Provider} {t : T}
    {info : T → StreamInfo} (hP : Supported (info t).contentLength P) :
    ∃ m, (fromCreateStream base settings P (.ok t : Except E T) info).1 = .ok m := by
  have h : ∃ st, P.create (info t).contentLength = .ok st := by
    rcases hP with h | h
    · exact keeps_creates h
    · generalize (info t).contentLength = cl at h
      cases h with
      | bounded _ checks F bufferSize hF =>
        obtain ⟨s, e⟩ := keeps_creates hF
        simp only [Bnd.mk?, e]
        exact ⟨_, rfl⟩
      | adaptive checks F V bufferSize hF hV =>
        obtain ⟨s, e⟩ := keeps_creates hF
        simp only [Adp.mk?, Bnd.mk?, Bnd.sizeFor, e]
        exact ⟨_, rfl⟩
  obtain ⟨st, e⟩ := h
  simp only [fromCreateStream, e]
  exact ⟨_, rfl⟩

/-! ### HTTP -/

theorem httpMade {base : Cfg} {calls : List (SetCall F G)} {P : Provider}
    {mime : Text → Option (Text × Text)} {answer : Answer} {m : Made P HttpStream}
    (hm : (newHttp base (calls.foldl SetCall.apply Settings.default) P mime answer).1 = .ok m) :
    HStarts P m.cfg mime answer { sys := m.sys, http := m.stream } ∧ m.cfg.batchSize ≠ 0 ∧
      m.cfg.KeepsErrors := by
  obtain ⟨h1, h2, h3, h4, h5, h6, h7, h8, h9, h10, -⟩ := C66_created hm
  refine ⟨⟨h1, h2, h3, h10⟩, ?_, ?_⟩
  · rw [h5]; exact C55_batch_size_positive calls
  · intro k o; rw [h8]; simp [httpInfo]

/-- C67: a stream created for a URL whose server honours ranges, with any settings and storage
that keeps everything, delivers to a consumer that does not seek a prefix of the resource; if the
server states the length, then the whole resource once a read returned fewer bytes than asked for. -/
theorem C67_http_end_to_end {base : Cfg} {calls : List (SetCall F G)} {P : Provider}
    {mime : Text → Option (Text × Text)} {answer : Answer} {remote : List Byte} {m : Made P HttpStream}
    (hA : RangeServer remote answer)
    (hm : (newHttp base (calls.foldl SetCall.apply Settings.default) P mime answer).1 = .ok m)
    (hP : Unbounded m.contentLength P) {w : HSys P.S}
    (h : HReach m.cfg (RangeServer remote) HNoSeek { sys := m.sys, http := m.stream } w) :
    delivered w.sys.log <+: remote ∧
      ∀ N, m.contentLength = some N → ∀ later earlier pos len fast bs,
        w.sys.log = later ++ .readRet pos len fast (.ok bs) :: earlier → bs.length < len →
          delivered w.sys.log = remote := by
  obtain ⟨h0, hb, hk⟩ := httpMade hm
  exact ⟨C61_sequential_unbounded hP hb hk hA h0 h, fun _ hN _ _ _ _ _ _ hl hlt =>
    (C62_http_read_to_end_unbounded hP hb hk hN hA h0 h hl hlt).2⟩

/-- C67 for HTTP with storage that keeps a window, if no reconnect takes place while received
bytes wait to be written (C35). -/
theorem C67_http_end_to_end_bounded_partial {base : Cfg} {calls : List (SetCall F G)} {P : Provider}
    {mime : Text → Option (Text × Text)} {answer : Answer} {remote : List Byte} {m : Made P HttpStream}
    (hA : RangeServer remote answer)
    (hm : (newHttp base (calls.foldl SetCall.apply Settings.default) P mime answer).1 = .ok m)
    (hP : Windowed m.contentLength P) {w : HSys P.S}
    (h : HReach m.cfg (RangeServer remote) (fun w a => HNoSeek w a ∧ HClean w a)
      { sys := m.sys, http := m.stream } w) :
    delivered w.sys.log <+: remote ∧
      ∀ N, m.contentLength = some N → ∀ later earlier pos len fast bs,
        w.sys.log = later ++ .readRet pos len fast (.ok bs) :: earlier → bs.length < len →
          delivered w.sys.log = remote := by
  obtain ⟨h0, -, hk⟩ := httpMade hm
  exact ⟨C61_sequential_bounded_partial hP hA h0 h, fun _ hN _ _ _ _ _ _ hl hlt =>
    (C62_http_read_to_end_bounded_partial hP hk hN hA h0 h hl hlt).2⟩

/-! ### Readers -/

theorem readerMade {base : Cfg} {calls : List (SetCall F G)} {P : Provider} {p : AsyncReadParams}
    {m : Made P AsyncReadStream}
    (hm : (newAsyncRead base (calls.foldl SetCall.apply Settings.default) P p).1 = .ok m) :
    RStarts P m.cfg p.stream { sys := m.sys, src := m.stream } ∧ m.cfg.batchSize ≠ 0 ∧
      m.cfg.KeepsErrors ∧ m.contentLength = p.contentLength := by
  obtain ⟨h1, h2, h3, h4, h5, h6, h7, h8, h9, h10, -⟩ := C66_created hm
  have e : m.stream = asyncReadNew p.stream p.contentLength := by simpa using h1.symm
  have h2' : m.contentLength = p.contentLength := by rw [h2, e]; rfl
  refine ⟨⟨?_, h3, h10⟩, ?_, ?_, h2'⟩
  · rw [show m.cfg.contentLength = p.contentLength from h2']; exact e
  · rw [h5]; exact C55_batch_size_positive calls
  · intro k o; rw [h8]; simp [asyncReadInfo]

/-- C67: a stream created for a reader without a declared length, with any settings and storage
that keeps everything, returns in every read the bytes that the reader delivers there; if the
reader does not fail and the consumer does not seek, it receives all of them. -/
theorem C67_reader_end_to_end {base : Cfg} {calls : List (SetCall F G)} {P : Provider} {bytes : List Byte}
    {m : Made P AsyncReadStream}
    (hm : (newAsyncRead base (calls.foldl SetCall.apply Settings.default) P (.new bytes)).1 = .ok m)
    (hP : Unbounded none P) {w : XSys asyncReadSource P.S} :
    (XReach m.cfg (readerWorld true) XAny { sys := m.sys, src := m.stream } w →
      ∀ pos len fast bs, Ev.readRet pos len fast (.ok bs) ∈ w.sys.log →
        bs = (bytes.drop pos).take bs.length) ∧
    (XReach m.cfg (readerWorld false) XNoSeek { sys := m.sys, src := m.stream } w →
      ∀ later earlier pos len fast bs,
        w.sys.log = later ++ .readRet pos len fast (.ok bs) :: earlier → bs.length < len →
          delivered w.sys.log = bytes) := by
  obtain ⟨h0, hb, hk, hcl⟩ := readerMade hm
  have hcl' : m.cfg.contentLength = none := hcl
  have hP' : Unbounded m.cfg.contentLength P := by rw [hcl']; exact hP
  exact ⟨fun h _ _ _ _ hr => C65_reads_exact_unknown_length hP' hb hk hcl' h0 h hr,
    fun h _ _ _ _ _ _ hl hlt =>
      (C65_read_to_end_partial hP' hb hk (by intro n hn; rw [hcl'] at hn; simp at hn) h0 h hl hlt).2⟩

/-! ### OpenDAL -/

theorem opendalMade {base : Cfg} {calls : List (SetCall F G)} {P : Provider} {alloc : Nat → Nat}
    {p : OpendalParams E} {object : List Byte} (ha : ∀ n, n ≤ alloc n) (hc : 0 < p.chunkSize)
    (hs : ∀ n, p.stat = .ok n → n = object.length) (hr : ∀ l, p.read = .ok l → l = object)
    {m : Made P OpendalStream}
    (hm : (newOpendal base (calls.foldl SetCall.apply Settings.default) P alloc p).1 = .ok m) :
    OStarts P m.cfg object { sys := m.sys, src := m.stream } ∧ m.cfg.batchSize ≠ 0 ∧ m.cfg.KeepsErrors := by
  obtain ⟨h1, h2, h3, h4, h5, h6, h7, h8, h9, h10, -⟩ := C66_created hm
  refine ⟨⟨⟨alloc, p.chunkSize, ha, hc, ?_, h2⟩, h3, h10⟩, ?_, ?_⟩
  · unfold opendalCreate at h1
    split at h1 <;> try simp at h1
    rename_i n hn
    split at h1 <;> try simp at h1
    split at h1 <;> try simp at h1
    rename_i l hl
    rw [hs n hn, hr l hl] at h1
    exact h1.symm
  · rw [h5]; exact C55_batch_size_positive calls
  · intro k o; rw [h8]; simp [opendalInfo]

/-- C67: a stream created for an object, with any settings, any chunk size that can be set and
storage that keeps everything, delivers to a consumer that does not seek a prefix of the object,
and the whole object once a read returned fewer bytes than asked for. -/
theorem C67_opendal_end_to_end {base : Cfg} {calls : List (SetCall F G)} {P : Provider} {alloc : Nat → Nat}
    (ha : ∀ n, n ≤ alloc n) {object : List Byte} (sizes : List { n : Nat // n ≠ 0 }) {m : Made P OpendalStream}
    (hm : (newOpendal base (calls.foldl SetCall.apply Settings.default) P alloc
      (sizes.foldl OpendalParams.setChunkSize
        (.new (.ok object.length : Except E Nat) (.ok ()) (.ok object)))).1 = .ok m)
    (hP : Unbounded m.contentLength P) {w : XSys opendalSource P.S}
    (h : XReach m.cfg (storeWorld object) XNoSeek { sys := m.sys, src := m.stream } w) :
    delivered w.sys.log <+: object ∧
      ∀ later earlier pos len fast bs,
        w.sys.log = later ++ .readRet pos len fast (.ok bs) :: earlier → bs.length < len →
          delivered w.sys.log = object := by
  have key : ∀ (sizes : List { n : Nat // n ≠ 0 }) (p : OpendalParams E), 0 < p.chunkSize →
      0 < (sizes.foldl OpendalParams.setChunkSize p).chunkSize ∧
      (sizes.foldl OpendalParams.setChunkSize p).stat = p.stat ∧
      (sizes.foldl OpendalParams.setChunkSize p).read = p.read := by
    intro sizes
    induction sizes with
    | nil => intro p hp; exact ⟨hp, rfl, rfl⟩
    | cons n l ih =>
      intro p hp
      rw [List.foldl_cons]
      exact ih (p.setChunkSize n) (Nat.pos_of_ne_zero n.2)
  obtain ⟨k1, k2, k3⟩ := key sizes (.new (.ok object.length : Except E Nat) (.ok ()) (.ok object))
    (by simp [OpendalParams.new])
  obtain ⟨h0, hb, hk⟩ := opendalMade (object := object) ha k1
    (by intro n hn; rw [k2] at hn; simpa [OpendalParams.new] using hn.symm)
    (by intro l hl; rw [k3] at hl; simpa [OpendalParams.new] using hl.symm) hm
  exact ⟨C64_sequential_unbounded hP hb hk h0 h, fun _ _ _ _ _ _ hl hlt =>
    (C64_read_to_end_unbounded hP hb hk h0 h hl hlt).2⟩

/-! ### Creations that meet the hypotheses -/

/-- Storage that cannot be created. -/
def brokenProvider : Provider where
  S := memStorage
  create _ := .err .other
  maxCapacity := none

example : (fromCreateStream demoCfg (Settings.default : Settings Unit Unit) brokenProvider
    (.ok () : Except Unit Unit) (fun _ => ⟨some 3, true, fun r _ => r⟩)).1 = .err (.storage .other) := rfl

example : (fromCreateStream demoCfg (Settings.default : Settings Unit Unit) brokenProvider
    (.error 7 : Except Nat Unit) (fun _ => ⟨some 3, true, fun r _ => r⟩)).1 = .err (.stream 7) := rfl

/-- Settings of the examples: no prefetch. -/
def calls0 : List (SetCall Unit Unit) := [.prefetchBytes 7, .prefetchBytes 0]

/-- The hypotheses of `C67_http_end_to_end`: a reconnect, a connection that breaks off, and all
20 bytes. -/
example : ∃ (m : Made memProvider HttpStream) (w : HSys memStorage), RangeServer bytes20 (server20 headers20) ∧
    (newHttp demoCfg (calls0.foldl SetCall.apply Settings.default) memProvider (fun _ => none)
      (server20 headers20)).1 = .ok m ∧ m.contentLength = some 20 ∧
    HReach m.cfg (RangeServer bytes20) HNoSeek { sys := m.sys, http := m.stream } w ∧
    ∃ later earlier, w.sys.log = later ++ .readRet 0 30 true (.ok bytes20) :: earlier := by
  let c : Cfg := cfgOf demoCfg (calls0.foldl SetCall.apply Settings.default) (httpInfo (stream20 headers20 (some 20))) none
  obtain ⟨w, h1, h2⟩ := of_any (o := hrun hguardB c (server20 headers20)
    { sys := init (S := memStorage) c demoMem20, http := stream20 headers20 (some 20) }
    ([.chunk 2] ++ srcs 6 ++ [.timeout, .reconnOk 0, .chunk 2] ++ srcs 6 ++ [.eof, .src, .seekOk 0, .chunk 16] ++
      srcs 6 ++ [.read 30] ++ rdrs 4))
    (p := fun w : HSys memStorage => decide (Ev.readRet 0 30 true (.ok bytes20) ∈ w.sys.log)) (by decide +kernel)
  have hn : httpNew (fun _ => none) (server20 headers20) = .ok (stream20 headers20 (some 20)) :=
    server20_new (by decide +kernel)
  refine ⟨{ cfg := c, sys := init c demoMem20, stream := stream20 headers20 (some 20) }, w, headers20_ok, ?_, rfl,
    hreach_hrun headers20_ok (fun w a (h : hguardB w a = true) => (hguard_of h).1) _ .refl h1,
    List.append_of_mem (of_decide_eq_true h2)⟩
  unfold newHttp
  rw [hn]
  rfl

/-- The same through a buffer of 10, for `C67_http_end_to_end_bounded_partial`. -/
example : ∃ (m : Made (bndProvider true memProvider 10) HttpStream) (w : HSys (bndStorage true memStorage)),
    (newHttp demoCfg (calls0.foldl SetCall.apply Settings.default) (bndProvider true memProvider 10)
      (fun _ => none) (server20 headers20)).1 = .ok m ∧
    HReach m.cfg (RangeServer bytes20) (fun w a => HNoSeek w a ∧ HClean w a) { sys := m.sys, http := m.stream } w ∧
    ∃ later earlier, w.sys.log = later ++ .readRet 16 9 true (.ok [17, 18, 19, 20]) :: earlier := by
  let c : Cfg := cfgOf demoCfg (calls0.foldl SetCall.apply Settings.default)
    (httpInfo (stream20 headers20 (some 20))) (some 10)
  obtain ⟨w, h1, h2⟩ := of_any (o := hrun hguardB c (server20 headers20)
    { sys := init (S := bndStorage true memStorage) c demoBnd10, http := stream20 headers20 (some 20) }
    ([.chunk 2] ++ srcs 6 ++ [.timeout, .reconnOk 0, .chunk 6] ++ srcs 6 ++ [.read 8] ++ rdrs 4 ++ [.chunk 8] ++
      srcs 6 ++ [.read 8] ++ rdrs 4 ++ [.chunk 4] ++ srcs 6 ++ [.read 9] ++ rdrs 4))
    (p := fun w : HSys (bndStorage true memStorage) =>
      decide (Ev.readRet 16 9 true (.ok [17, 18, 19, 20]) ∈ w.sys.log)) (by decide +kernel)
  have hn : httpNew (fun _ => none) (server20 headers20) = .ok (stream20 headers20 (some 20)) :=
    server20_new (by decide +kernel)
  refine ⟨{ cfg := c, sys := init c demoBnd10, stream := stream20 headers20 (some 20) }, w, ?_,
    hreach_hrun headers20_ok (fun w a (h : hguardB w a = true) => hguard_of h) _ .refl h1,
    List.append_of_mem (of_decide_eq_true h2)⟩
  unfold newHttp
  rw [hn]
  rfl

/-- The hypotheses of `C67_reader_end_to_end`: a reader of 10 bytes into a file. -/
example : ∃ (m : Made tmpProvider AsyncReadStream) (w : XSys asyncReadSource tmpStorage),
    (newAsyncRead demoCfg (calls0.foldl SetCall.apply Settings.default) tmpProvider (.new bytes10)).1 = .ok m ∧
    XReach m.cfg (readerWorld false) XNoSeek { sys := m.sys, src := m.stream } w ∧
    ∃ later earlier, w.sys.log = later ++ .readRet 6 5 false (.ok [7, 8, 9, 10]) :: earlier := by
  let c : Cfg := cfgOf demoCfg (calls0.foldl SetCall.apply Settings.default)
    (asyncReadInfo (asyncReadNew bytes10 none)) none
  obtain ⟨w, h1, h2⟩ := of_any (o := xrun toRAct (okR false) (fun w a => noSeekB w.sys a) c
    { sys := init (S := tmpStorage) c { file := [], wp := 0, fp := 0, rbuf := [] }, src := asyncReadNew bytes10 none }
    ([.chunk 7] ++ srcs 6 ++ [.read 6] ++ rdrs 4 ++ [.chunk 3] ++ srcs 9 ++ [.eof] ++ srcs 9 ++ [.read 5] ++ rdrs 9))
    (p := fun w : XSys asyncReadSource tmpStorage => decide (Ev.readRet 6 5 false (.ok [7, 8, 9, 10]) ∈ w.sys.log))
    (by decide +kernel)
  exact ⟨{ cfg := c, sys := init c { file := [], wp := 0, fp := 0, rbuf := [] }, stream := asyncReadNew bytes10 none },
    w, rfl, xreach_xrun (fun _ _ h => okR_of h) (fun w a (h : noSeekB w.sys a = true) => toRAct_noSeek h) _ .refl h1,
    List.append_of_mem (of_decide_eq_true h2)⟩

/-- The hypotheses of `C67_opendal_end_to_end`: an object of 20 bytes in chunks of 8. -/
example : ∃ (m : Made memProvider OpendalStream) (w : XSys opendalSource memStorage),
    (newOpendal demoCfg (calls0.foldl SetCall.apply Settings.default) memProvider (fun n => n)
      ([⟨8, by decide⟩].foldl OpendalParams.setChunkSize
        (.new (.ok bytes20.length : Except Unit Nat) (.ok ()) (.ok bytes20)))).1 = .ok m ∧
    XReach m.cfg (storeWorld bytes20) XNoSeek { sys := m.sys, src := m.stream } w ∧
    ∃ later earlier, w.sys.log = later ++ .readRet 0 30 true (.ok bytes20) :: earlier := by
  let t : OpendalStream := opendalNew (fun n => n) 8 bytes20 bytes20.length
  let c : Cfg := cfgOf demoCfg (calls0.foldl SetCall.apply Settings.default) (opendalInfo t) none
  obtain ⟨w, h1, h2⟩ := of_any (o := xrun (toOAct bytes20) okO (fun w a => noSeekB w.sys a) c
    { sys := init (S := memStorage) c demoMem20, src := t }
    ([.chunk 2] ++ srcs 6 ++ [.chunkErr, .timeout, .reconnFail, .timeout, .reconnOk 0, .chunk 6] ++ srcs 6 ++
      [.chunk 8] ++ srcs 6 ++ [.chunk 4] ++ srcs 6 ++ [.read 30] ++ rdrs 4))
    (p := fun w : XSys opendalSource memStorage => decide (Ev.readRet 0 30 true (.ok bytes20) ∈ w.sys.log))
    (by decide +kernel)
  exact ⟨{ cfg := c, sys := init c demoMem20, stream := t }, w, rfl,
    xreach_xrun (fun _ _ h => okO_of h) (fun w a (h : noSeekB w.sys a = true) => toOAct_noSeek h) _ .refl h1,
    List.append_of_mem (of_decide_eq_true h2)⟩

end SD
