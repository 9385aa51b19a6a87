import Verif.Proof.LiveSystem
import Verif.Props.SourceSystem

/-!
# Properties C63, C71 and C72 for HTTP, OpenDAL and readers

The whole stack, on infinite histories with fair schedulers: the download ends, calls return, and
a consumer that reads to the end gets there.
-/

set_option linter.unusedVariables false

namespace SD

variable {P : Provider} {c : Cfg}

/-! ### HTTP -/

theorem HAct.Is.reading {S : Storage} {r : Nat → HSys S} {act : Nat → Option HAct} {act' : Nat → Option Act}
    (h3 : ∀ i a, act i = some a → ∃ x, act' i = some x ∧ a.Is x)
    (h : Reading (fun i => (r i).sys) fun j n => act j = some (.sys (.read n))) :
    ReadsToEnd (fun i => (r i).sys) act' := by
  intro i hi hl
  obtain ⟨j, n, h1, h2, ha⟩ := h i hi hl
  obtain ⟨x, h4, h5⟩ := h3 j _ ha
  cases h5
  exact ⟨j, n, h1, h2, h4⟩

theorem HInv.finite {S : Storage} {remote : List Byte} {w : HSys S} (hi : HInv remote c w) (b : Byte) :
    (c.on remote b).Finite remote.length :=
  ⟨rfl, fun n hn => hi.real n hn⟩

/-- Without seeks the task asks for proper ranges. -/
theorem ranges_of_noSeek {remote : List Byte} {mime : Text → Option (Text × Text)} {answer : Answer}
    (hA : RangeServer remote answer) {w0 : HSys P.S} (h0 : HStarts P c mime answer w0) {r : Nat → HSys P.S}
    {act : Nat → Option HAct} (h : HRun c (RangeServer remote) w0 r act)
    (hns : ∀ j f, act j ≠ some (.sys (.seek f))) : ∀ i a, act i = some a → RangesOk (r i) a := by
  intro i a ha start e hp
  have hR := Run.hreach (G := HNoSeek) h (fun i a ha f e => hns i f (by rw [ha, e])) i
  obtain ⟨-, -, -, -, st, -, e0⟩ := h0.2.2.2 |> fun x => (⟨trivial, trivial, trivial, x⟩ : True ∧ True ∧ True ∧ _)
  obtain ⟨hR', -⟩ := hreach_sim (b := 0) (G' := NoSeek) (fun w a x hg hx f hf => by
      subst hf; cases hx; exact hg f rfl) (HInv.starts hA h0)
    (fun w a hR _ _ start e hp => by
      rw [e0] at hR
      exact Or.inl (noSeek_ranges (hR.mono fun _ _ hg => hg.2) start e hp)) hR
  rw [e0] at hR'
  exact Or.inl (noSeek_ranges (hR'.mono fun _ _ hg => hg.2) start e hp)

/-- C71 for HTTP and storage that keeps everything, with finitely many seeks, as long as the
task asks for proper ranges (C61): if bodies end only where they should and the connection
goes on, the download ends, with any errors, stalls and reconnects in between. -/
theorem C71_http_download_ends_partial (hP : Unbounded c.contentLength P) (hb : c.batchSize ≠ 0)
    {remote : List Byte} {mime : Text → Option (Text × Text)} {answer : Answer} (hA : RangeServer remote answer)
    {w0 : HSys P.S} (h0 : HStarts P c mime answer w0) {r : Nat → HSys P.S} {act : Nat → Option HAct}
    (h : HRun c (RangeServer remote) w0 r act) (hw : HWorking r act) (hwb : WholeBodies r act)
    (hok : ∀ i a, act i = some a → RangesOk (r i) a) {i0 : Nat}
    (hseek : ∀ j f, i0 ≤ j → act j ≠ some (.sys (.seek f))) : ∃ j, (r j).sys.spc = .ended := by
  have hi := HInv.starts hA h0
  obtain ⟨act', h1, h2, h3, h4, h5, h6, h7⟩ := http_exec (b := 0) hi h hok hwb
  refine C71_download_ends_unbounded (c := c.on remote 0) hP hb (hi.finite 0) h0.2.2.2 h1 h4 (h6 hw)
    (fun i a ha => (h2 i a ha).choose_spec.2.2) h7 (i0 := i0) fun j f hj hx => ?_
  obtain ⟨a, ha, hx, -⟩ := h2 j _ hx
  cases hx
  exact hseek j f hj ha

/-- C71 for HTTP without seeks. -/
theorem C71_http_download_ends_sequential (hP : Unbounded c.contentLength P) (hb : c.batchSize ≠ 0)
    {remote : List Byte} {mime : Text → Option (Text × Text)} {answer : Answer} (hA : RangeServer remote answer)
    {w0 : HSys P.S} (h0 : HStarts P c mime answer w0) {r : Nat → HSys P.S} {act : Nat → Option HAct}
    (h : HRun c (RangeServer remote) w0 r act) (hw : HWorking r act) (hwb : WholeBodies r act)
    (hns : ∀ j f, act j ≠ some (.sys (.seek f))) : ∃ j, (r j).sys.spc = .ended :=
  C71_http_download_ends_partial hP hb hA h0 h hw hwb (ranges_of_noSeek hA h0 h hns) (i0 := 0) fun j f _ => hns j f

/-- C63 for HTTP and storage that keeps everything, as long as the task asks for proper
ranges. -/
theorem C63_http_calls_return_partial (hP : Unbounded c.contentLength P) (hb : c.batchSize ≠ 0)
    {remote : List Byte} {mime : Text → Option (Text × Text)} {answer : Answer} (hA : RangeServer remote answer)
    {w0 : HSys P.S} (h0 : HStarts P c mime answer w0) {r : Nat → HSys P.S} {act : Nat → Option HAct}
    (h : HRun c (RangeServer remote) w0 r act) (hw : HWorking r act) (hwb : WholeBodies r act)
    (hok : ∀ i a, act i = some a → RangesOk (r i) a) (hmax : ∀ j, Ev.request (two64 - 1) ∉ (r j).sys.log) {i : Nat}
    (hc : (r i).sys.rpc.inCall = true) :
    ∃ j, i ≤ j ∧ ((r j).sys.rpc = .idle ∨ (r j).sys.rpc = .panicked) := by
  have hi := HInv.starts hA h0
  obtain ⟨act', h1, h2, h3, h4, h5, h6, h7⟩ := http_exec (b := 0) hi h hok hwb
  exact C63_calls_return_finite (c := c.on remote 0) hP hb (hi.finite 0) h0.2.2.2 h1 h4 h5 (h6 hw)
    (fun i a ha => (h2 i a ha).choose_spec.2.2) h7 hmax hc

/-- C72 for HTTP and storage that keeps everything: a consumer that reads to the end receives
the whole resource, or a read fails, with any errors, stalls and reconnects in between. -/
theorem C72_http_reading_ends (hP : Unbounded c.contentLength P) (hb : c.batchSize ≠ 0) (hk : c.KeepsErrors)
    {remote : List Byte} {mime : Text → Option (Text × Text)} {answer : Answer} (hA : RangeServer remote answer)
    {w0 : HSys P.S} (h0 : HStarts P c mime answer w0) {r : Nat → HSys P.S} {act : Nat → Option HAct}
    (h : HRun c (RangeServer remote) w0 r act) (hw : HWorking r act) (hwb : WholeBodies r act)
    (hns : ∀ j f, act j ≠ some (.sys (.seek f)))
    (hn : ∀ j n, act j = some (.sys (.read n)) → remote.length + n < two64 - 1)
    (hread : Reading (fun i => (r i).sys) fun j n => act j = some (.sys (.read n))) :
    ∃ i, ReadFailed (r i).sys.log ∨ delivered (r i).sys.log = remote := by
  have hi := HInv.starts hA h0
  obtain ⟨act', h1, h2, h3, h4, h5, h6, h7⟩ := http_exec (b := 0) hi h (ranges_of_noSeek hA h0 h hns) hwb
  have := C72_reading_ends_unbounded (c := c.on remote 0) hP hb hk (hi.finite 0) h0.2.2.2 h1 h4 h5 (h6 hw)
    (fun i a ha => (h2 i a ha).choose_spec.2.2) h7
    (fun j f hx => by
      obtain ⟨a, ha, hx, -⟩ := h2 j _ hx
      cases hx
      exact hns j f ha)
    (fun j n hx => by
      obtain ⟨a, ha, hx, -⟩ := h2 j _ hx
      cases hx
      exact hn j n ha)
    (HAct.Is.reading h3 hread)
  rwa [show slice (c.on remote 0).remote 0 remote.length = remote from slice_getD remote 0] at this

/-- C72 for HTTP and bounded storage, if no reconnect takes place while received bytes wait to be
written (C35): moreover the download ends. -/
theorem C72_http_reading_ends_bounded_partial {F : Provider} {checks : Bool} {bufferSize : Nat}
    (hF : Sparing (some (Bnd.sizeFor bufferSize c.contentLength)) F) (hb : c.batchSize ≠ 0)
    (hbs : bufferSize ≠ 0) (hk : c.KeepsErrors)
    {remote : List Byte} {mime : Text → Option (Text × Text)} {answer : Answer} (hA : RangeServer remote answer)
    {w0 : HSys (bndStorage checks F.S)} (h0 : HStarts (bndProvider checks F bufferSize) c mime answer w0)
    {r : Nat → HSys (bndStorage checks F.S)} {act : Nat → Option HAct}
    (h : HRun c (RangeServer remote) w0 r act) (hw : HWorking r act) (hwb : WholeBodies r act)
    (hcl : ∀ i a, act i = some a → HClean (r i) a)
    (hns : ∀ j f, act j ≠ some (.sys (.seek f)))
    (hn : ∀ j n, act j = some (.sys (.read n)) → remote.length + n < two64 - 1)
    (hread : Reading (fun i => (r i).sys) fun j n => act j = some (.sys (.read n))) :
    (∃ i, ReadFailed (r i).sys.log ∨ delivered (r i).sys.log = remote) ∧
      ∃ i, ReadFailed (r i).sys.log ∨ (r i).sys.spc = .ended := by
  have hi := HInv.starts hA h0
  obtain ⟨act', h1, h2, h3, h4, h5, h6, h7⟩ := http_exec (b := 0) hi h (ranges_of_noSeek hA h0 h hns) hwb
  have := C72_reading_ends_bounded_partial (c := c.on remote 0) hF hb hbs hk (hi.finite 0) h0.2.2.2 h1 h4 h5
    ⟨fun i x hx => by
      obtain ⟨a, ha, hx, hf⟩ := h2 i _ hx
      refine ⟨hf, fun p hp => ?_⟩
      subst hp
      cases hx with
      | sys _ hf => simp [Act.ofTransport] at hf
      | reconnOk answer => exact hcl i _ ha answer rfl,
    h7,
    fun j f hx => by
      obtain ⟨a, ha, hx, -⟩ := h2 j _ hx
      cases hx
      exact hns j f ha,
    fun j n hx => by
      obtain ⟨a, ha, hx, -⟩ := h2 j _ hx
      cases hx
      exact hn j n ha,
    h6 hw⟩
    (HAct.Is.reading h3 hread)
  rwa [show slice (c.on remote 0).remote 0 remote.length = remote from slice_getD remote 0] at this

/-! ### Sources that are programs -/

theorem XAct.Is.reading {R : Source} {S : Storage} {r : Nat → XSys R S} {act : Nat → Option (XAct R)}
    {act' : Nat → Option Act} (h3 : ∀ i a, act i = some a → ∃ x, act' i = some x ∧ a.Is (r i).src x)
    (h : Reading (fun i => (r i).sys) fun j n => act j = some (.sys (.read n))) :
    ReadsToEnd (fun i => (r i).sys) act' := by
  intro i hi hl
  obtain ⟨j, n, h1, h2, ha⟩ := h i hi hl
  obtain ⟨x, h4, h5⟩ := h3 j _ ha
  cases h5
  exact ⟨j, n, h1, h2, h4⟩

section
variable {R : Source} {W : World R} {remote : List Byte} (V : Serves R W remote true)
include V

theorem src_download_ends (hP : Unbounded c.contentLength P) (hb : c.batchSize ≠ 0)
    (hd : ∀ n, c.contentLength = some n → n = remote.length) {w0 : XSys R P.S} (hi : XInv V w0)
    (h0 : Starts P c w0.sys) {r : Nat → XSys R P.S} {act : Nat → Option (XAct R)} (h : XRun c W w0 r act)
    (hw : XWorking r act) {i0 : Nat} (hseek : ∀ j f, i0 ≤ j → act j ≠ some (.sys (.seek f))) :
    ∃ j, (r j).sys.spc = .ended := by
  obtain ⟨act', h1, h2, h3, h4, h5, h6, h7⟩ := src_exec V (b := 0) hi h
  refine C71_download_ends_unbounded (c := c.on remote 0) (m := remote.length) hP hb ⟨rfl, fun n hn => hd n hn⟩ h0
    h1 h4 (h6 hw) (fun i a ha => (h2 i a ha).choose_spec.2.2) h7 (i0 := i0) fun j f hj hx => ?_
  obtain ⟨a, ha, hx, -⟩ := h2 j _ hx
  cases hx
  exact hseek j f hj ha

theorem src_calls_return (hP : Unbounded c.contentLength P) (hb : c.batchSize ≠ 0)
    (hd : ∀ n, c.contentLength = some n → n = remote.length) {w0 : XSys R P.S} (hi : XInv V w0)
    (h0 : Starts P c w0.sys) {r : Nat → XSys R P.S} {act : Nat → Option (XAct R)} (h : XRun c W w0 r act)
    (hw : XWorking r act) (hmax : ∀ j, Ev.request (two64 - 1) ∉ (r j).sys.log) {i : Nat}
    (hc : (r i).sys.rpc.inCall = true) :
    ∃ j, i ≤ j ∧ ((r j).sys.rpc = .idle ∨ (r j).sys.rpc = .panicked) := by
  obtain ⟨act', h1, h2, h3, h4, h5, h6, h7⟩ := src_exec V (b := 0) hi h
  exact C63_calls_return_finite (c := c.on remote 0) (m := remote.length) hP hb ⟨rfl, fun n hn => hd n hn⟩ h0
    h1 h4 h5 (h6 hw) (fun i a ha => (h2 i a ha).choose_spec.2.2) h7 hmax hc

theorem src_reading_ends (hP : Unbounded c.contentLength P) (hb : c.batchSize ≠ 0) (hk : c.KeepsErrors)
    (hd : ∀ n, c.contentLength = some n → n = remote.length) {w0 : XSys R P.S} (hi : XInv V w0)
    (h0 : Starts P c w0.sys) {r : Nat → XSys R P.S} {act : Nat → Option (XAct R)} (h : XRun c W w0 r act)
    (hw : XWorking r act) (hns : ∀ j f, act j ≠ some (.sys (.seek f)))
    (hn : ∀ j n, act j = some (.sys (.read n)) → remote.length + n < two64 - 1)
    (hread : Reading (fun i => (r i).sys) fun j n => act j = some (.sys (.read n))) :
    ∃ i, ReadFailed (r i).sys.log ∨ delivered (r i).sys.log = remote := by
  obtain ⟨act', h1, h2, h3, h4, h5, h6, h7⟩ := src_exec V (b := 0) hi h
  have := C72_reading_ends_unbounded (c := c.on remote 0) (m := remote.length) hP hb hk ⟨rfl, fun n hn => hd n hn⟩
    h0 h1 h4 h5 (h6 hw) (fun i a ha => (h2 i a ha).choose_spec.2.2) h7
    (fun j f hx => by
      obtain ⟨a, ha, hx, -⟩ := h2 j _ hx
      cases hx
      exact hns j f ha)
    (fun j n hx => by
      obtain ⟨a, ha, hx, -⟩ := h2 j _ hx
      cases hx
      exact hn j n ha)
    (XAct.Is.reading h3 hread)
  rwa [show slice (c.on remote 0).remote 0 remote.length = remote from slice_getD remote 0] at this

theorem src_reading_ends_bounded {F : Provider} {checks : Bool} {bufferSize : Nat}
    (hF : Sparing (some (Bnd.sizeFor bufferSize c.contentLength)) F) (hb : c.batchSize ≠ 0)
    (hbs : bufferSize ≠ 0) (hk : c.KeepsErrors) (hd : ∀ n, c.contentLength = some n → n = remote.length)
    {w0 : XSys R (bndStorage checks F.S)} (hi : XInv V w0) (h0 : Starts (bndProvider checks F bufferSize) c w0.sys)
    {r : Nat → XSys R (bndStorage checks F.S)} {act : Nat → Option (XAct R)} (h : XRun c W w0 r act)
    (hw : XWorking r act)
    (hcl : ∀ i a x, act i = some a → a.Is (r i).src x → CleanReconnect (r i).sys x)
    (hns : ∀ j f, act j ≠ some (.sys (.seek f)))
    (hn : ∀ j n, act j = some (.sys (.read n)) → remote.length + n < two64 - 1)
    (hread : Reading (fun i => (r i).sys) fun j n => act j = some (.sys (.read n))) :
    (∃ i, ReadFailed (r i).sys.log ∨ delivered (r i).sys.log = remote) ∧
      ∃ i, ReadFailed (r i).sys.log ∨ (r i).sys.spc = .ended := by
  obtain ⟨act', h1, h2, h3, h4, h5, h6, h7⟩ := src_exec V (b := 0) hi h
  have := C72_reading_ends_bounded_partial (c := c.on remote 0) (m := remote.length) hF hb hbs hk
    ⟨rfl, fun n hn => hd n hn⟩ h0 h1 h4 h5
    ⟨fun i x hx => by
      obtain ⟨a, ha, hx, hf⟩ := h2 i _ hx
      exact ⟨hf, hcl i a x ha hx⟩,
    h7,
    fun j f hx => by
      obtain ⟨a, ha, hx, -⟩ := h2 j _ hx
      cases hx
      exact hns j f ha,
    fun j n hx => by
      obtain ⟨a, ha, hx, -⟩ := h2 j _ hx
      cases hx
      exact hn j n ha,
    h6 hw⟩
    (XAct.Is.reading h3 hread)
  rwa [show slice (c.on remote 0).remote 0 remote.length = remote from slice_getD remote 0] at this

end

/-! ### OpenDAL -/

/-- C71 for OpenDAL and storage that keeps everything, with finitely many seeks. -/
theorem C71_opendal_download_ends (hP : Unbounded c.contentLength P) (hb : c.batchSize ≠ 0)
    {object : List Byte} {w0 : XSys opendalSource P.S} (h0 : OStarts P c object w0)
    {r : Nat → XSys opendalSource P.S} {act : Nat → Option (XAct opendalSource)}
    (h : XRun c (storeWorld object) w0 r act) (hw : XWorking r act) {i0 : Nat}
    (hseek : ∀ j f, i0 ≤ j → act j ≠ some (.sys (.seek f))) : ∃ j, (r j).sys.spc = .ended :=
  src_download_ends (opendalServes object) hP hb (fun _ hn => h0.real hn) (XInv.opendal h0) h0.2.2 h hw hseek

/-- C63 for OpenDAL and storage that keeps everything. -/
theorem C63_opendal_calls_return (hP : Unbounded c.contentLength P) (hb : c.batchSize ≠ 0)
    {object : List Byte} {w0 : XSys opendalSource P.S} (h0 : OStarts P c object w0)
    {r : Nat → XSys opendalSource P.S} {act : Nat → Option (XAct opendalSource)}
    (h : XRun c (storeWorld object) w0 r act) (hw : XWorking r act)
    (hmax : ∀ j, Ev.request (two64 - 1) ∉ (r j).sys.log) {i : Nat} (hc : (r i).sys.rpc.inCall = true) :
    ∃ j, i ≤ j ∧ ((r j).sys.rpc = .idle ∨ (r j).sys.rpc = .panicked) :=
  src_calls_return (opendalServes object) hP hb (fun _ hn => h0.real hn) (XInv.opendal h0) h0.2.2 h hw hmax hc

/-- C72 for OpenDAL and storage that keeps everything. -/
theorem C72_opendal_reading_ends (hP : Unbounded c.contentLength P) (hb : c.batchSize ≠ 0) (hk : c.KeepsErrors)
    {object : List Byte} {w0 : XSys opendalSource P.S} (h0 : OStarts P c object w0)
    {r : Nat → XSys opendalSource P.S} {act : Nat → Option (XAct opendalSource)}
    (h : XRun c (storeWorld object) w0 r act) (hw : XWorking r act)
    (hns : ∀ j f, act j ≠ some (.sys (.seek f)))
    (hn : ∀ j n, act j = some (.sys (.read n)) → object.length + n < two64 - 1)
    (hread : Reading (fun i => (r i).sys) fun j n => act j = some (.sys (.read n))) :
    ∃ i, ReadFailed (r i).sys.log ∨ delivered (r i).sys.log = object :=
  src_reading_ends (opendalServes object) hP hb hk (fun _ hn => h0.real hn) (XInv.opendal h0) h0.2.2 h hw hns hn hread

/-- C72 for OpenDAL and bounded storage, if no reconnect takes place while received bytes wait to
be written (C35). -/
theorem C72_opendal_reading_ends_bounded_partial {F : Provider} {checks : Bool} {bufferSize : Nat}
    (hF : Sparing (some (Bnd.sizeFor bufferSize c.contentLength)) F) (hb : c.batchSize ≠ 0)
    (hbs : bufferSize ≠ 0) (hk : c.KeepsErrors) {object : List Byte}
    {w0 : XSys opendalSource (bndStorage checks F.S)} (h0 : OStarts (bndProvider checks F bufferSize) c object w0)
    {r : Nat → XSys opendalSource (bndStorage checks F.S)} {act : Nat → Option (XAct opendalSource)}
    (h : XRun c (storeWorld object) w0 r act) (hw : XWorking r act)
    (hcl : ∀ i a, act i = some a → XClean (r i) a) (hns : ∀ j f, act j ≠ some (.sys (.seek f)))
    (hn : ∀ j n, act j = some (.sys (.read n)) → object.length + n < two64 - 1)
    (hread : Reading (fun i => (r i).sys) fun j n => act j = some (.sys (.read n))) :
    (∃ i, ReadFailed (r i).sys.log ∨ delivered (r i).sys.log = object) ∧
      ∃ i, ReadFailed (r i).sys.log ∨ (r i).sys.spc = .ended :=
  src_reading_ends_bounded (opendalServes object) hF hb hbs hk (fun _ hn => h0.real hn) (XInv.opendal h0) h0.2.2 h hw
    (fun i a x ha hx => (hcl i a ha).is hx) hns hn hread

/-! ### Readers that do not fail -/

/-- C71 for a reader that does not fail, with a declared length that is right or absent, and
storage that keeps everything, with finitely many seeks. -/
theorem C71_reader_download_ends (hP : Unbounded c.contentLength P) (hb : c.batchSize ≠ 0)
    {bytes : List Byte} (hd : ∀ n, c.contentLength = some n → n = bytes.length)
    {w0 : XSys asyncReadSource P.S} (h0 : RStarts P c bytes w0)
    {r : Nat → XSys asyncReadSource P.S} {act : Nat → Option (XAct asyncReadSource)}
    (h : XRun c (readerWorld false) w0 r act) (hw : XWorking r act) {i0 : Nat}
    (hseek : ∀ j f, i0 ≤ j → act j ≠ some (.sys (.seek f))) : ∃ j, (r j).sys.spc = .ended :=
  src_download_ends (readerServes bytes false) hP hb hd (XInv.reader false h0) h0.2.2 h hw hseek

/-- C63 for such a reader. -/
theorem C63_reader_calls_return (hP : Unbounded c.contentLength P) (hb : c.batchSize ≠ 0)
    {bytes : List Byte} (hd : ∀ n, c.contentLength = some n → n = bytes.length)
    {w0 : XSys asyncReadSource P.S} (h0 : RStarts P c bytes w0)
    {r : Nat → XSys asyncReadSource P.S} {act : Nat → Option (XAct asyncReadSource)}
    (h : XRun c (readerWorld false) w0 r act) (hw : XWorking r act)
    (hmax : ∀ j, Ev.request (two64 - 1) ∉ (r j).sys.log) {i : Nat} (hc : (r i).sys.rpc.inCall = true) :
    ∃ j, i ≤ j ∧ ((r j).sys.rpc = .idle ∨ (r j).sys.rpc = .panicked) :=
  src_calls_return (readerServes bytes false) hP hb hd (XInv.reader false h0) h0.2.2 h hw hmax hc

/-- C72 for such a reader. -/
theorem C72_reader_reading_ends (hP : Unbounded c.contentLength P) (hb : c.batchSize ≠ 0) (hk : c.KeepsErrors)
    {bytes : List Byte} (hd : ∀ n, c.contentLength = some n → n = bytes.length)
    {w0 : XSys asyncReadSource P.S} (h0 : RStarts P c bytes w0)
    {r : Nat → XSys asyncReadSource P.S} {act : Nat → Option (XAct asyncReadSource)}
    (h : XRun c (readerWorld false) w0 r act) (hw : XWorking r act)
    (hns : ∀ j f, act j ≠ some (.sys (.seek f)))
    (hn : ∀ j n, act j = some (.sys (.read n)) → bytes.length + n < two64 - 1)
    (hread : Reading (fun i => (r i).sys) fun j n => act j = some (.sys (.read n))) :
    ∃ i, ReadFailed (r i).sys.log ∨ delivered (r i).sys.log = bytes :=
  src_reading_ends (readerServes bytes false) hP hb hk hd (XInv.reader false h0) h0.2.2 h hw hns hn hread

/-- C72 for such a reader and bounded storage. -/
theorem C72_reader_reading_ends_bounded {F : Provider} {checks : Bool} {bufferSize : Nat}
    (hF : Sparing (some (Bnd.sizeFor bufferSize c.contentLength)) F) (hb : c.batchSize ≠ 0)
    (hbs : bufferSize ≠ 0) (hk : c.KeepsErrors) {bytes : List Byte}
    (hd : ∀ n, c.contentLength = some n → n = bytes.length)
    {w0 : XSys asyncReadSource (bndStorage checks F.S)} (h0 : RStarts (bndProvider checks F bufferSize) c bytes w0)
    {r : Nat → XSys asyncReadSource (bndStorage checks F.S)} {act : Nat → Option (XAct asyncReadSource)}
    (h : XRun c (readerWorld false) w0 r act) (hw : XWorking r act)
    (hns : ∀ j f, act j ≠ some (.sys (.seek f)))
    (hn : ∀ j n, act j = some (.sys (.read n)) → bytes.length + n < two64 - 1)
    (hread : Reading (fun i => (r i).sys) fun j n => act j = some (.sys (.read n))) :
    (∃ i, ReadFailed (r i).sys.log ∨ delivered (r i).sys.log = bytes) ∧
      ∃ i, ReadFailed (r i).sys.log ∨ (r i).sys.spc = .ended :=
  src_reading_ends_bounded (readerServes bytes false) hF hb hbs hk hd (XInv.reader false h0) h0.2.2 h hw
    (fun i a x _ hx => readerClean hx) hns hn hread

/-! ### Histories that meet the hypotheses -/

section
variable {W A B : Type} (st : W → A → Option W) (g : W → B → Bool) (f : W → B → A)

/-- The action that `b` stands for, if it passes the test and can happen. -/
def pick (w : W) (b : B) : Option A := if g w b && (st w (f w b)).isSome then some (f w b) else none

/-- The states of a finite history, in which actions that cannot happen are left out, and
after which nothing happens. -/
def trace (w0 : W) (bs : List B) (i : Nat) : W :=
  (bs.take i).foldl (fun w b => ((pick st g f w b).bind (st w)).getD w) w0

/-- Its actions. -/
def traceAct (w0 : W) (bs : List B) (i : Nat) : Option A := bs[i]?.bind (pick st g f (trace st g f w0 bs i))

variable {st g f}

theorem trace_succ {w0 : W} {bs : List B} {i : Nat} : trace st g f w0 bs (i + 1) =
    ((traceAct st g f w0 bs i).bind (st (trace st g f w0 bs i))).getD (trace st g f w0 bs i) := by
  unfold traceAct
  conv => lhs; unfold trace
  rw [List.take_add_one]
  cases h : bs[i]? with
  | none => simp [trace]
  | some b => simp [trace]

theorem trace_end {w0 : W} {bs : List B} {i : Nat} (h : bs.length ≤ i) :
    trace st g f w0 bs i = trace st g f w0 bs bs.length := by
  unfold trace
  rw [List.take_of_length_le h, List.take_of_length_le (Nat.le_refl _)]

theorem traceAct_some {w0 : W} {bs : List B} {i : Nat} {a : A} (h : traceAct st g f w0 bs i = some a) :
    ∃ b, bs[i]? = some b ∧ g (trace st g f w0 bs i) b = true ∧ a = f (trace st g f w0 bs i) b ∧
      (st (trace st g f w0 bs i) a).isSome = true := by
  unfold traceAct at h
  rw [Option.bind_eq_some_iff] at h
  obtain ⟨b, h1, h2⟩ := h
  unfold pick at h2
  split at h2
  · next hc =>
    rw [Bool.and_eq_true] at hc
    cases h2
    exact ⟨b, h1, hc.1, rfl, hc.2⟩
  · cases h2

theorem run_trace (w0 : W) (bs : List B) : Run st w0 (trace st g f w0 bs) (traceAct st g f w0 bs) where
  start := by simp [trace]
  pause i hi := by rw [trace_succ, hi]; rfl
  next i a ha := by
    obtain ⟨b, -, -, -, h⟩ := traceAct_some ha
    rw [trace_succ, ha]
    simp only [Option.bind_some]
    cases hs : st (trace st g f w0 bs i) a with
    | none => rw [hs] at h; cases h
    | some w => rfl

theorem fair_trace {w0 : W} {bs : List B} {a : A} (h : st (trace st g f w0 bs bs.length) a = none) :
    FairFor st (trace st g f w0 bs) (traceAct st g f w0 bs) a := by
  intro i hi
  refine absurd ?_ (hi (max i bs.length) (by omega))
  rw [trace_end (by omega)]
  exact h

theorem working_trace {S : Storage} {sys : W → Sys S} {w0 : W} {bs : List B} {p : Nat → Prop}
    (h : (sys (trace st g f w0 bs bs.length)).spc.awaits = false) :
    Working (fun i => sys (trace st g f w0 bs i)) p := by
  intro hi
  obtain ⟨j, hj, h'⟩ := hi bs.length
  dsimp only at h'
  rw [trace_end hj, h] at h'
  cases h'

/-- The test for `Reading`; `ev b` is the action of the system that `b` stands for. -/
def readingB {S : Storage} (st : W → A → Option W) (g : W → B → Bool) (f : W → B → A) (ev : B → Option Act)
    (sys : W → Sys S) (w0 : W) (bs : List B) : Bool :=
  (sys (trace st g f w0 bs bs.length)).log.any Ev.last &&
    (List.range bs.length).all fun i =>
      (sys (trace st g f w0 bs i)).rpc != .idle || (sys (trace st g f w0 bs i)).log.any Ev.last ||
        (List.range bs.length).any fun j => decide (i ≤ j) &&
          match bs[j]?.bind ev with
          | some (.read n) => decide (0 < n) && (traceAct st g f w0 bs j).isSome
          | _ => false

theorem reading_trace {S : Storage} {sys : W → Sys S} {ev : B → Option Act}
    {w0 : W} {bs : List B} {rd : Nat → A} (hf : ∀ w b n, ev b = some (.read n) → f w b = rd n)
    (h : readingB st g f ev sys w0 bs = true) :
    Reading (fun i => sys (trace st g f w0 bs i)) fun j n => traceAct st g f w0 bs j = some (rd n) := by
  intro i hi hl
  simp only [readingB, Bool.and_eq_true, List.any_eq_true, List.all_eq_true, List.mem_range] at h
  obtain ⟨⟨e, h1, h2⟩, h3⟩ := h
  rcases Nat.lt_or_ge i bs.length with hlt | hge
  · have := h3 i hlt
    simp only [Bool.or_eq_true, bne_iff_ne, ne_eq, List.any_eq_true, Bool.and_eq_true, decide_eq_true_eq,
      List.mem_range] at this
    rcases this with (h | ⟨e, h4, h5⟩) | ⟨j, h4, h5, h6⟩
    · exact absurd hi h
    · rw [hl e h4] at h5; cases h5
    · split at h6
      · next n e =>
        rw [Bool.and_eq_true, decide_eq_true_eq, Option.isSome_iff_exists] at h6
        obtain ⟨h6, a, h7⟩ := h6
        refine ⟨j, n, h5, h6, ?_⟩
        show traceAct st g f w0 bs j = _
        obtain ⟨b, h8, -, rfl, -⟩ := traceAct_some h7
        rw [h8, Option.bind_some] at e
        rw [h7, hf _ b n e]
      · cases h6
  · dsimp only at hl
    rw [trace_end hge] at hl
    rw [hl e h1] at h2
    cases h2

/-- No seeks. -/
def seekless (ev : B → Option Act) (bs : List B) : Bool :=
  bs.all fun b => match ev b with | some (.seek _) => false | _ => true

theorem seekless_trace {ev : B → Option Act} {w0 : W} {bs : List B}
    {sk : SeekFrom → A} (hf : ∀ w b k, f w b = sk k → ev b = some (.seek k)) (h : seekless ev bs = true) (j : Nat)
    (k : SeekFrom) : traceAct st g f w0 bs j ≠ some (sk k) := by
  intro e
  obtain ⟨b, h4, -, h5, -⟩ := traceAct_some e
  have h6 := hf _ _ _ h5.symm
  simp only [seekless, List.all_eq_true] at h
  have := h _ (List.mem_of_getElem? h4)
  rw [h6] at this
  cases this

/-- All buffers are short. -/
def shortReads (ev : B → Option Act) (m : Nat) (bs : List B) : Bool :=
  bs.all fun b => match ev b with | some (.read n) => decide (m + n < two64 - 1) | _ => true

theorem short_trace {ev : B → Option Act} {w0 : W} {bs : List B}
    {rd : Nat → A} (hf : ∀ w b k, f w b = rd k → ev b = some (.read k)) {m : Nat} (h : shortReads ev m bs = true)
    (j n : Nat) (e : traceAct st g f w0 bs j = some (rd n)) : m + n < two64 - 1 := by
  obtain ⟨b, h4, -, h5, -⟩ := traceAct_some e
  have h6 := hf _ _ _ h5.symm
  simp only [shortReads, List.all_eq_true] at h
  have := h _ (List.mem_of_getElem? h4)
  rw [h6] at this
  simpa using this

theorem trace_stops {st : W → A → Option W} {g : W → B → Bool} {f : W → B → A} {w0 : W} {bs : List B} {j : Nat}
    (h : bs.length ≤ j) : traceAct st g f w0 bs j = none := by
  unfold traceAct
  rw [List.getElem?_eq_none h]
  rfl

theorem guard_trace {st : W → A → Option W} {g : W → B → Bool} {f : W → B → A} {w0 : W} {bs : List B}
    {G : W → A → Prop} (hG : ∀ w b, g w b = true → G w (f w b)) (i : Nat) (a : A)
    (h : traceAct st g f w0 bs i = some a) : G (trace st g f w0 bs i) a := by
  obtain ⟨b, -, h1, rfl, -⟩ := traceAct_some h
  exact hG _ _ h1

end

theorem toHAct_seek {answer : Answer} (b : Act) (k : SeekFrom) (h : toHAct answer b = .sys (.seek k)) :
    some b = some (.seek k) := by
  cases b <;> simp [toHAct] at h
  rw [h]

theorem toHAct_read {answer : Answer} (b : Act) (n : Nat) (h : toHAct answer b = .sys (.read n)) :
    some b = some (.read n) := by
  cases b <;> simp [toHAct] at h
  rw [h]

/-- The test that a body is complete. -/
def wholeB {S : Storage} (w : HSys S) (a : Act) : Bool := a != .eof || w.http.stream.isEmpty

theorem hrun_trace {S : Storage} {remote : List Byte} {answer : Answer} (hA : RangeServer remote answer)
    {g : HSys S → Act → Bool} (hg : ∀ w a, g w a = true → wholeB w a = true) {w0 : HSys S} {bs : List Act}
    (h : (fun w : HSys S => (hstep c w (.sys .src)).isNone && (hstep c w (.sys .rdr)).isNone && !w.sys.spc.awaits)
      (trace (hstep c) g (fun _ => toHAct answer) w0 bs bs.length) = true) :
    HRun c (RangeServer remote) w0 (trace (hstep c) g (fun _ => toHAct answer) w0 bs)
      (traceAct (hstep c) g (fun _ => toHAct answer) w0 bs) ∧
    HWorking (trace (hstep c) g (fun _ => toHAct answer) w0 bs)
      (traceAct (hstep c) g (fun _ => toHAct answer) w0 bs) ∧
    WholeBodies (trace (hstep c) g (fun _ => toHAct answer) w0 bs)
      (traceAct (hstep c) g (fun _ => toHAct answer) w0 bs) := by
  simp only [Bool.and_eq_true, Option.isNone_iff_eq_none, Bool.not_eq_true'] at h
  refine ⟨⟨run_trace _ _, fun i a an ha he => ?_, fair_trace h.1.1, fair_trace h.1.2⟩, working_trace h.2,
    fun i ha => ?_⟩
  · obtain ⟨b, -, -, rfl, -⟩ := traceAct_some ha
    cases b <;> simp [HAct.answer, toHAct] at he <;> subst he <;> exact hA
  · obtain ⟨b, -, h1, h2, -⟩ := traceAct_some ha
    have h3 : b = .eof := by cases b <;> simp [toHAct] at h2 <;> rfl
    have := hg _ _ h1
    rw [h3] at this
    simpa [wholeB] using this

/-- The hypotheses of the theorems about HTTP without seeks: 20 bytes, an error, a stall and a
reconnect at 2; the consumer reads to the end. -/
example : ∃ (w0 : HSys memStorage) (r : Nat → HSys memStorage) (act : Nat → Option HAct),
    HStarts memProvider cfg20 (fun _ => none) (server20 headers20) w0 ∧
      HRun cfg20 (RangeServer bytes20) w0 r act ∧ HWorking r act ∧ WholeBodies r act ∧
      (∀ j f, act j ≠ some (.sys (.seek f))) ∧
      (∀ j n, act j = some (.sys (.read n)) → bytes20.length + n < two64 - 1) ∧
      (Reading (fun i => (r i).sys) fun j n => act j = some (.sys (.read n))) ∧
      (r 100).sys.spc = .ended ∧ ¬ ReadFailed (r 100).sys.log ∧ delivered (r 100).sys.log = bytes20 := by
  let w0 : HSys memStorage := { sys := init cfg20 demoMem20, http := stream20 headers20 (some 20) }
  let bs : List Act := [.read 8] ++ rdrs 3 ++ [.chunk 2] ++ srcs 8 ++ [.chunkErr, .timeout, .reconnOk 0, .chunk 10] ++
    srcs 10 ++ rdrs 8 ++ [.read 8] ++ rdrs 3 ++ [.chunk 8] ++ srcs 10 ++ rdrs 8 ++ [.read 8] ++ rdrs 9 ++ [.eof] ++
    srcs 9 ++ rdrs 9
  obtain ⟨h1, h2, h3⟩ := hrun_trace (c := cfg20) headers20_ok (g := wholeB) (fun _ _ h => h) (w0 := w0) (bs := bs)
    (by decide +kernel)
  refine ⟨w0, _, _, ⟨server20_new (by decide +kernel), rfl, rfl, rfl, demoMem20, rfl, rfl⟩, h1, h2, h3,
    seekless_trace (ev := some) (fun _ => toHAct_seek) (by decide +kernel), short_trace (ev := some) (fun _ => toHAct_read) (by decide +kernel),
    reading_trace (ev := some) (fun _ _ _ h => by cases h; rfl) (by decide +kernel), by decide +kernel, ?_, by decide +kernel⟩
  show ¬ ∃ e ∈ _, _
  decide +kernel

/-- The hypotheses of the theorems about HTTP with seeks: the consumer jumps to 8 and sleeps, the
task asks for the rest, and then for the gap. -/
example : ∃ (w0 : HSys memStorage) (r : Nat → HSys memStorage) (act : Nat → Option HAct),
    HStarts memProvider cfg20 (fun _ => none) (server20 headers20) w0 ∧
      HRun cfg20 (RangeServer bytes20) w0 r act ∧ HWorking r act ∧ WholeBodies r act ∧
      (∀ i a, act i = some a → RangesOk (r i) a) ∧ (∀ j f, 100 ≤ j → act j ≠ some (.sys (.seek f))) ∧
      (r 11).sys.rpc = .sWait 8 ∧ (r 100).sys.rpc = .idle ∧ (r 100).sys.spc = .ended := by
  let w0 : HSys memStorage := { sys := init cfg20 demoMem20, http := stream20 headers20 (some 20) }
  let bs : List Act := [.chunk 2] ++ srcs 6 ++ [.seek (.start 8)] ++ rdrs 3 ++
    [.recvSeek, .src, .chunkErr, .seekOk 0, .chunk 12] ++ srcs 8 ++ rdrs 9 ++ [.eof] ++ srcs 9 ++ [.seekOk 0, .chunk 6] ++
    srcs 9 ++ [.eof] ++ srcs 9 ++ rdrs 9
  obtain ⟨h1, h2, h3⟩ := hrun_trace (c := cfg20) headers20_ok (g := fun w a => wholeB w a && hrangesB cfg20 w a)
    (fun _ _ h => ((Bool.and_eq_true _ _).mp h).1) (w0 := w0) (bs := bs) (by decide +kernel)
  refine ⟨w0, _, _, ⟨server20_new (by decide +kernel), rfl, rfl, rfl, demoMem20, rfl, rfl⟩, h1, h2, h3,
    guard_trace (fun w b h => (hranges_of ((Bool.and_eq_true _ _).mp h).2).1), fun j f hj => ?_, by decide +kernel,
    by decide +kernel, by decide +kernel⟩
  rw [trace_stops (by simp [bs, srcs, rdrs]; omega)]
  simp

/-- The hypotheses of the theorem about HTTP and bounded storage: 20 bytes through a buffer of
10. -/
example : ∃ (w0 : HSys (bndStorage true memStorage)) (r : Nat → HSys (bndStorage true memStorage))
    (act : Nat → Option HAct),
    HStarts (bndProvider true memProvider 10) cfgB20 (fun _ => none) (server20 headers20) w0 ∧
      HRun cfgB20 (RangeServer bytes20) w0 r act ∧ HWorking r act ∧ WholeBodies r act ∧
      (∀ i a, act i = some a → HClean (r i) a) ∧ (∀ j f, act j ≠ some (.sys (.seek f))) ∧
      (∀ j n, act j = some (.sys (.read n)) → bytes20.length + n < two64 - 1) ∧
      (Reading (fun i => (r i).sys) fun j n => act j = some (.sys (.read n))) ∧
      (r 120).sys.spc = .ended ∧ ¬ ReadFailed (r 120).sys.log ∧ delivered (r 120).sys.log = bytes20 := by
  let w0 : HSys (bndStorage true memStorage) :=
    { sys := init cfgB20 demoBnd10, http := stream20 headers20 (some 20) }
  let bs : List Act := [.read 8] ++ rdrs 3 ++ [.chunk 2] ++ srcs 8 ++ [.chunkErr, .timeout, .reconnOk 0, .chunk 10] ++
    srcs 10 ++ rdrs 8 ++ [.read 8] ++ rdrs 3 ++ srcs 10 ++ [.chunk 8] ++ srcs 10 ++ rdrs 8 ++ [.read 8] ++ rdrs 9 ++
    srcs 10 ++ [.eof] ++ srcs 9 ++ rdrs 9
  obtain ⟨h1, h2, h3⟩ := hrun_trace (c := cfgB20) headers20_ok (g := fun w a => wholeB w a && hguardB w a)
    (fun _ _ h => ((Bool.and_eq_true _ _).mp h).1) (w0 := w0) (bs := bs) (by decide +kernel)
  refine ⟨w0, _, _, ⟨server20_new (by decide +kernel), rfl, rfl, rfl, demoBnd10, rfl, rfl⟩, h1, h2, h3,
    guard_trace (fun w b h => (hguard_of ((Bool.and_eq_true _ _).mp h).2).2),
    seekless_trace (ev := some) (fun _ => toHAct_seek) (by decide +kernel), short_trace (ev := some) (fun _ => toHAct_read) (by decide +kernel),
    reading_trace (ev := some) (fun _ _ _ h => by cases h; rfl) (by decide +kernel), by decide +kernel, ?_, by decide +kernel⟩
  show ¬ ∃ e ∈ _, _
  decide +kernel

theorem xrun_trace {R : Source} {S : Storage} {W : World R} {f : XSys R S → Act → XAct R}
    {g : XSys R S → Act → Bool} (hg : ∀ w a, g w a = true → W.Allows w (f w a)) {w0 : XSys R S} {bs : List Act}
    (h : (fun w : XSys R S => (xstep R c w (.sys .src)).isNone && (xstep R c w (.sys .rdr)).isNone &&
      !w.sys.spc.awaits) (trace (xstep R c) g f w0 bs bs.length) = true) :
    XRun c W w0 (trace (xstep R c) g f w0 bs) (traceAct (xstep R c) g f w0 bs) ∧
    XWorking (trace (xstep R c) g f w0 bs) (traceAct (xstep R c) g f w0 bs) := by
  simp only [Bool.and_eq_true, Option.isNone_iff_eq_none, Bool.not_eq_true'] at h
  exact ⟨⟨run_trace _ _, guard_trace hg, fair_trace h.1.1, fair_trace h.1.2⟩, working_trace h.2⟩

theorem toOAct_seek {S : Storage} {object : List Byte} (w : XSys opendalSource S) (b : Act) (k : SeekFrom)
    (h : toOAct object w b = .sys (.seek k)) :
    some b = some (.seek k) := by
  cases b <;> simp [toOAct] at h
  rw [h]

theorem toOAct_read {S : Storage} {object : List Byte} (w : XSys opendalSource S) (b : Act) (n : Nat)
    (h : toOAct object w b = .sys (.read n)) :
    some b = some (.read n) := by
  cases b <;> simp [toOAct] at h
  rw [h]

theorem toRAct_seek {S : Storage} (w : XSys asyncReadSource S) (b : Act) (k : SeekFrom)
    (h : toRAct w b = .sys (.seek k)) :
    some b = some (.seek k) := by
  cases b <;> simp [toRAct] at h
  rw [h]

theorem toRAct_read {S : Storage} (w : XSys asyncReadSource S) (b : Act) (n : Nat)
    (h : toRAct w b = .sys (.read n)) :
    some b = some (.read n) := by
  cases b <;> simp [toRAct] at h
  rw [h]

/-- The hypotheses of the theorems about OpenDAL and storage that keeps everything: an error and a
new reader. -/
example : ∃ (w0 : XSys opendalSource memStorage) (r : Nat → XSys opendalSource memStorage)
    (act : Nat → Option (XAct opendalSource)), OStarts memProvider cfg20 bytes20 w0 ∧
      XRun cfg20 (storeWorld bytes20) w0 r act ∧ XWorking r act ∧ (∀ j f, act j ≠ some (.sys (.seek f))) ∧
      (∀ j n, act j = some (.sys (.read n)) → bytes20.length + n < two64 - 1) ∧
      (Reading (fun i => (r i).sys) fun j n => act j = some (.sys (.read n))) ∧
      (r 4).sys.rpc = .rWait 8 8 ∧ (r 120).sys.spc = .ended ∧ ¬ ReadFailed (r 120).sys.log ∧
      delivered (r 120).sys.log = bytes20 := by
  let w0 : XSys opendalSource memStorage := { sys := init cfg20 demoMem20, src := objStream bytes20 }
  let bs : List Act := [.read 8] ++ rdrs 3 ++ [.chunk 2] ++ srcs 8 ++ [.chunkErr, .timeout, .reconnOk 0, .chunk 6] ++
    srcs 10 ++ rdrs 8 ++ [.read 8] ++ rdrs 3 ++ [.chunk 8] ++ srcs 10 ++ rdrs 8 ++ [.read 8] ++ rdrs 9 ++ [.chunk 4] ++
    srcs 10 ++ [.eof] ++ srcs 9 ++ rdrs 9
  obtain ⟨h1, h2⟩ := xrun_trace (c := cfg20) (W := storeWorld bytes20) (f := toOAct bytes20) (g := okO)
    (fun _ _ h => okO_of h) (w0 := w0) (bs := bs) (by decide +kernel)
  refine ⟨w0, _, _, ⟨⟨fun n => n, 8, fun n => Nat.le_refl n, by decide, rfl, rfl⟩, rfl, rfl, demoMem20, rfl, rfl⟩,
    h1, h2, seekless_trace (ev := some) toOAct_seek (by decide +kernel), short_trace (ev := some) toOAct_read (by decide +kernel),
    reading_trace (ev := some) (fun _ _ _ h => by cases h; rfl) (by decide +kernel), by decide +kernel, by decide +kernel, ?_, by decide +kernel⟩
  show ¬ ∃ e ∈ _, _
  decide +kernel

/-- The hypotheses of the theorem about OpenDAL and bounded storage. -/
example : ∃ (w0 : XSys opendalSource (bndStorage true memStorage))
    (r : Nat → XSys opendalSource (bndStorage true memStorage)) (act : Nat → Option (XAct opendalSource)),
      OStarts (bndProvider true memProvider 10) cfgB20 bytes20 w0 ∧
      XRun cfgB20 (storeWorld bytes20) w0 r act ∧ XWorking r act ∧
      (∀ i a, act i = some a → XClean (r i) a) ∧ (∀ j f, act j ≠ some (.sys (.seek f))) ∧
      (∀ j n, act j = some (.sys (.read n)) → bytes20.length + n < two64 - 1) ∧
      (Reading (fun i => (r i).sys) fun j n => act j = some (.sys (.read n))) ∧
      (r 130).sys.spc = .ended ∧ ¬ ReadFailed (r 130).sys.log ∧ delivered (r 130).sys.log = bytes20 := by
  let w0 : XSys opendalSource (bndStorage true memStorage) :=
    { sys := init cfgB20 demoBnd10, src := objStream bytes20 }
  let bs : List Act := [.read 8] ++ rdrs 3 ++ [.chunk 2] ++ srcs 8 ++ [.chunkErr, .timeout, .reconnOk 0, .chunk 6] ++
    srcs 10 ++ rdrs 8 ++ [.read 8] ++ rdrs 3 ++ [.chunk 8] ++ srcs 10 ++ rdrs 8 ++ [.read 8] ++ rdrs 9 ++ [.chunk 4] ++
    srcs 10 ++ [.eof] ++ srcs 9 ++ rdrs 9
  obtain ⟨h1, h2⟩ := xrun_trace (c := cfgB20) (W := storeWorld bytes20) (f := toOAct bytes20)
    (g := fun w a => okO w a && (cleanB w.sys a && decide (a ≠ .reconnFail)))
    (fun _ _ h => okO_of ((Bool.and_eq_true _ _).mp h).1) (w0 := w0) (bs := bs) (by decide +kernel)
  refine ⟨w0, _, _, ⟨⟨fun n => n, 8, fun n => Nat.le_refl n, by decide, rfl, rfl⟩, rfl, rfl, demoBnd10, rfl, rfl⟩,
    h1, h2, guard_trace (fun w b h => ?_), seekless_trace (ev := some) toOAct_seek (by decide +kernel),
    short_trace (ev := some) toOAct_read (by decide +kernel),
    reading_trace (ev := some) (fun _ _ _ h => by cases h; rfl) (by decide +kernel), by decide +kernel, ?_, by decide +kernel⟩
  · rw [Bool.and_eq_true, Bool.and_eq_true] at h
    exact toOAct_clean h.2.1 (of_decide_eq_true h.2.2)
  · show ¬ ∃ e ∈ _, _
    decide +kernel

/-- The hypotheses of the theorems about readers: 10 bytes of unknown length into a file. -/
example : ∃ (w0 : XSys asyncReadSource tmpStorage) (r : Nat → XSys asyncReadSource tmpStorage)
    (act : Nat → Option (XAct asyncReadSource)), RStarts tmpProvider cfgOpen bytes10 w0 ∧
      XRun cfgOpen (readerWorld false) w0 r act ∧ XWorking r act ∧ (∀ j f, act j ≠ some (.sys (.seek f))) ∧
      (∀ j n, act j = some (.sys (.read n)) → bytes10.length + n < two64 - 1) ∧
      (Reading (fun i => (r i).sys) fun j n => act j = some (.sys (.read n))) ∧
      (r 4).sys.rpc = .rWait 6 6 ∧ (r 100).sys.spc = .ended ∧ ¬ ReadFailed (r 100).sys.log ∧
      delivered (r 100).sys.log = bytes10 := by
  let w0 : XSys asyncReadSource tmpStorage :=
    { sys := init cfgOpen { file := [], wp := 0, fp := 0, rbuf := [] }, src := asyncReadNew bytes10 none }
  let bs : List Act := [.read 6] ++ rdrs 3 ++ [.chunk 4] ++ srcs 9 ++ [.chunk 4] ++ srcs 9 ++ rdrs 9 ++ [.read 6] ++
    rdrs 3 ++ [.chunk 2] ++ srcs 9 ++ [.eof] ++ srcs 9 ++ rdrs 9
  obtain ⟨h1, h2⟩ := xrun_trace (c := cfgOpen) (W := readerWorld false) (f := toRAct) (g := okR false)
    (fun _ _ h => okR_of h) (w0 := w0) (bs := bs) (by decide +kernel)
  refine ⟨w0, _, _, ⟨rfl, rfl, rfl, _, rfl, rfl⟩, h1, h2, seekless_trace (ev := some) toRAct_seek (by decide +kernel),
    short_trace (ev := some) toRAct_read (by decide +kernel), reading_trace (ev := some) (fun _ _ _ h => by cases h; rfl) (by decide +kernel),
    by decide +kernel, by decide +kernel, ?_, by decide +kernel⟩
  show ¬ ∃ e ∈ _, _
  decide +kernel

/-- The hypotheses of the theorem about readers and bounded storage. -/
example : ∃ (w0 : XSys asyncReadSource (bndStorage true memStorage))
    (r : Nat → XSys asyncReadSource (bndStorage true memStorage)) (act : Nat → Option (XAct asyncReadSource)),
      RStarts (bndProvider true memProvider 4) cfgOpen4 bytes10 w0 ∧
      XRun cfgOpen4 (readerWorld false) w0 r act ∧ XWorking r act ∧ (∀ j f, act j ≠ some (.sys (.seek f))) ∧
      (∀ j n, act j = some (.sys (.read n)) → bytes10.length + n < two64 - 1) ∧
      (Reading (fun i => (r i).sys) fun j n => act j = some (.sys (.read n))) ∧
      (r 120).sys.spc = .ended ∧ ¬ ReadFailed (r 120).sys.log ∧ delivered (r 120).sys.log = bytes10 := by
  let w0 : XSys asyncReadSource (bndStorage true memStorage) :=
    { sys := init cfgOpen4 demoBnd4, src := asyncReadNew bytes10 none }
  let bs : List Act := [.chunk 4] ++ srcs 9 ++ [.read 4] ++ rdrs 5 ++ [.chunk 4] ++ srcs 9 ++ [.read 4] ++ rdrs 6 ++
    [.chunk 2] ++ srcs 9 ++ [.eof] ++ srcs 9 ++ [.read 4] ++ rdrs 9
  obtain ⟨h1, h2⟩ := xrun_trace (c := cfgOpen4) (W := readerWorld false) (f := toRAct) (g := okR false)
    (fun _ _ h => okR_of h) (w0 := w0) (bs := bs) (by decide +kernel)
  refine ⟨w0, _, _, ⟨rfl, rfl, rfl, _, rfl, rfl⟩, h1, h2, seekless_trace (ev := some) toRAct_seek (by decide +kernel),
    short_trace (ev := some) toRAct_read (by decide +kernel), reading_trace (ev := some) (fun _ _ _ h => by cases h; rfl) (by decide +kernel),
    by decide +kernel, ?_, by decide +kernel⟩
  show ¬ ∃ e ∈ _, _
  decide +kernel

end SD
