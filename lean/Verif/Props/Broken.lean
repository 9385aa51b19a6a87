import Verif.Props.CalmSystem

/-!
# Property C82: connections that break off

A connection may end anywhere, any number of times.  If the length is known and the source can be asked
for a part of the resource, then it is enough that the connections get somewhere: the download ends, calls
return, and a consumer that reads to the end receives the whole resource.
-/

set_option linter.unusedVariables false

namespace SD

variable {P : Provider} {c : Cfg}

/-- The missing part can be asked for: the length is known, and the source is seekable. -/
def Cfg.Repairs (c : Cfg) : Prop := c.supportsSeek = true ∧ c.contentLength ≠ none

theorem Cfg.Repairs.whole {S : Storage} (h : c.Repairs) (s : Sys S) (a : Act) : EndsWhole c s a :=
  ⟨fun _ hs => absurd hs (by rw [h.1]; decide), fun hn => absurd hn h.2⟩

/-! ### The system -/

/-- C82 for storage that keeps everything: connections may end anywhere, and the download ends all the
same, whatever the consumer does, if it seeks only finitely often. -/
theorem C82_download_ends_unbounded (hP : Unbounded c.contentLength P) (hb : c.batchSize ≠ 0) {m : Nat}
    (hfin : c.Finite m) {s0 : Sys P.S} (h0 : Starts P c s0) {r : Nat → Sys P.S} {act : Nat → Option Act}
    (he : Exec c s0 r act) (hfs : Fair c r act .src) (hp : Advancing c r act)
    (hG : ∀ i a, act i = some a → Honest (r i) a) (hne : ∀ j, act j ≠ some (.chunk 0)) {i0 : Nat}
    (hseek : ∀ j f, i0 ≤ j → act j ≠ some (.seek f)) : ∃ j, (r j).spc = .ended :=
  keeps_download_ends hP hb hfin h0 he hfs hp hG hne hseek

/-- C82: every call returns. -/
theorem C82_calls_return (hP : Unbounded c.contentLength P) (hb : c.batchSize ≠ 0) {m : Nat}
    (hfin : c.Finite m) {s0 : Sys P.S} (h0 : Starts P c s0) {r : Nat → Sys P.S} {act : Nat → Option Act}
    (he : Exec c s0 r act) (hfs : Fair c r act .src) (hfr : Fair c r act .rdr) (hp : Advancing c r act)
    (hG : ∀ i a, act i = some a → Honest (r i) a) (hne : ∀ j, act j ≠ some (.chunk 0))
    (hmax : ∀ j, Ev.request (two64 - 1) ∉ (r j).log) {i : Nat} (hc : (r i).rpc.inCall = true) :
    ∃ j, i ≤ j ∧ ((r j).rpc = .idle ∨ (r j).rpc = .panicked) :=
  keeps_calls_return_finite hP hb hfin h0 he hfs hfr hp hG hne hmax hc

/-- C82: a consumer that reads to the end receives the whole resource, or a read fails. -/
theorem C82_reading_ends_unbounded (hP : Unbounded c.contentLength P) (hb : c.batchSize ≠ 0)
    (hk : c.KeepsErrors) (hc : c.Repairs) {m : Nat} (hfin : c.Finite m) {s0 : Sys P.S} (h0 : Starts P c s0)
    {r : Nat → Sys P.S} {act : Nat → Option Act} (he : Exec c s0 r act) (hfs : Fair c r act .src)
    (hfr : Fair c r act .rdr) (hp : Advancing c r act) (hG : ∀ i a, act i = some a → Honest (r i) a)
    (hne : ∀ j, act j ≠ some (.chunk 0)) (hns : ∀ j f, act j ≠ some (.seek f))
    (hn : ∀ j n, act j = some (.read n) → m + n < two64 - 1) (hread : ReadsToEnd r act) :
    ∃ i, ReadFailed (r i).log ∨ delivered (r i).log = slice c.remote 0 m :=
  reading_ends_unbounded hP hb hk hfin h0 he hfs hfr hp (fun i a ha => ⟨hG i a ha, hc.whole _ _⟩) hne hns hn hread

/-- C82 for bounded storage, if no reconnect succeeds while received bytes wait to be written (C35):
moreover the download ends. -/
theorem C82_reading_ends_bounded_partial {F : Provider} {checks : Bool} {bufferSize : Nat}
    (hF : Sparing (some (Bnd.sizeFor bufferSize c.contentLength)) F) (hb : c.batchSize ≠ 0)
    (hbs : bufferSize ≠ 0) (hk : c.KeepsErrors) (hc : c.Repairs) {m : Nat} (hfin : c.Finite m)
    {s0 : Sys (bndStorage checks F.S)} (h0 : Starts (bndProvider checks F bufferSize) c s0)
    {r : Nat → Sys (bndStorage checks F.S)} {act : Nat → Option Act} (he : Exec c s0 r act)
    (hfs : Fair c r act .src) (hfr : Fair c r act .rdr) (hp : Advancing c r act)
    (hG : ∀ i a, act i = some a → Honest (r i) a ∧ CleanReconnect (r i) a)
    (hne : ∀ j, act j ≠ some (.chunk 0)) (hns : ∀ j f, act j ≠ some (.seek f))
    (hn : ∀ j n, act j = some (.read n) → m + n < two64 - 1) (hread : ReadsToEnd r act) :
    (∃ i, ReadFailed (r i).log ∨ delivered (r i).log = slice c.remote 0 m) ∧
      ∃ i, ReadFailed (r i).log ∨ (r i).spc = .ended :=
  reading_ends_bounded hF hb hbs hk hfin h0 he hfs hfr
    ⟨fun i a ha => ⟨(hG i a ha).1, (hG i a ha).2, hc.whole _ _⟩, hne, hns, hn, hp⟩ hread

/-- C82 for storage that keeps everything, if nobody cancels, no range request fails, and `on_finish` does not
turn success into an error: a consumer that reads to the end receives the whole resource. -/
theorem C82_whole_resource_unbounded (hP : Unbounded c.contentLength P) (hb : c.batchSize ≠ 0)
    (hk : c.KeepsErrors) (hf : c.Accepts) (hc : c.Repairs) {m : Nat} (hfin : c.Finite m) {s0 : Sys P.S}
    (h0 : Starts P c s0) {r : Nat → Sys P.S} {act : Nat → Option Act} (he : Exec c s0 r act)
    (hfs : Fair c r act .src) (hfr : Fair c r act .rdr) (hp : Advancing c r act)
    (hG : ∀ i a, act i = some a → Honest (r i) a ∧ Undisturbed (r i) a)
    (hne : ∀ j, act j ≠ some (.chunk 0)) (hns : ∀ j f, act j ≠ some (.seek f))
    (hn : ∀ j n, act j = some (.read n) → m + n < two64 - 1) (hread : ReadsToEnd r act) :
    ∃ i, delivered (r i).log = slice c.remote 0 m := by
  obtain ⟨i, h | h⟩ := C82_reading_ends_unbounded hP hb hk hc hfin h0 he hfs hfr hp (fun i a ha => (hG i a ha).1)
    hne hns hn hread
  · exact absurd h (C76_reads_succeed_unbounded hP hf h0
      (he.reachG (fun i a ha => ⟨(hG i a ha).2, fun f e => hns i f (by rw [ha, e])⟩) i))
  · exact ⟨i, h⟩

/-- C82 for bounded storage, in the same way, if no reconnect succeeds while received bytes wait to be
written (C35) and no buffer is longer than the configured size and the declared length (C24): moreover the
download ends. -/
theorem C82_whole_resource_bounded_partial {F : Provider} {checks : Bool} {bufferSize : Nat}
    (hF : Sparing (some (Bnd.sizeFor bufferSize c.contentLength)) F) (hb : c.batchSize ≠ 0)
    (hbs : bufferSize ≠ 0) (hk : c.KeepsErrors) (hf : c.Accepts) (hc : c.Repairs) {m : Nat} (hfin : c.Finite m)
    {s0 : Sys (bndStorage checks F.S)} (h0 : Starts (bndProvider checks F bufferSize) c s0)
    {r : Nat → Sys (bndStorage checks F.S)} {act : Nat → Option Act} (he : Exec c s0 r act)
    (hfs : Fair c r act .src) (hfr : Fair c r act .rdr) (hp : Advancing c r act)
    (hG : ∀ i a, act i = some a → Honest (r i) a ∧ CleanReconnect (r i) a ∧ Undisturbed (r i) a)
    (hne : ∀ j, act j ≠ some (.chunk 0)) (hns : ∀ j f, act j ≠ some (.seek f))
    (hm : ∀ j n, act j = some (.read n) → n ≤ Bnd.sizeFor bufferSize c.contentLength)
    (hn : ∀ j n, act j = some (.read n) → m + n < two64 - 1) (hread : ReadsToEnd r act) :
    (∃ i, delivered (r i).log = slice c.remote 0 m) ∧ ∃ i, (r i).spc = .ended := by
  have hno : ∀ i, ¬ ReadFailed (r i).log := fun i => C76_reads_succeed_bounded_partial hF hf h0
    (he.reachG (fun i a ha => ⟨(hG i a ha).2.2, fun f e => hns i f (by rw [ha, e]), fun n e => hm i n (by rw [ha, e])⟩) i)
  obtain ⟨⟨i, h1⟩, j, h2⟩ := C82_reading_ends_bounded_partial hF hb hbs hk hc hfin h0 he hfs hfr hp
    (fun i a ha => ⟨(hG i a ha).1, (hG i a ha).2.1⟩) hne hns hn hread
  exact ⟨⟨i, h1.resolve_left (hno i)⟩, j, h2.resolve_left (hno j)⟩

/-! ### HTTP -/

/-- C82 for HTTP, with finitely many seeks, as long as the task asks for proper ranges (C61): bodies may
break off anywhere. -/
theorem C82_http_download_ends_partial (hP : Unbounded c.contentLength P) (hb : c.batchSize ≠ 0)
    {remote : List Byte} {mime : Text → Option (Text × Text)} {answer : Answer} (hA : RangeServer remote answer)
    {w0 : HSys P.S} (h0 : HStarts P c mime answer w0) {r : Nat → HSys P.S} {act : Nat → Option HAct}
    (h : HRun c (RangeServer remote) w0 r act) (hw : HAdvancing r act)
    (hok : ∀ i a, act i = some a → RangesOk (r i) a) {i0 : Nat}
    (hseek : ∀ j f, i0 ≤ j → act j ≠ some (.sys (.seek f))) : ∃ j, (r j).sys.spc = .ended := by
  have hi := HInv.starts hA h0
  obtain ⟨act', h1, h2, h3, h4, h5, h6, h7⟩ := http_exec' (b := 0) hi h hok
  refine C82_download_ends_unbounded (c := c.on remote 0) hP hb (hi.finite 0) h0.2.2.2 h1 h4 (h6 hw)
    (fun i a ha => (h2 i a ha).choose_spec.2.2.1) h7 (i0 := i0) fun j f hj hx => ?_
  obtain ⟨a, ha, hx, -⟩ := h2 j _ hx
  cases hx
  exact hseek j f hj ha

/-- C82 for HTTP without seeks. -/
theorem C82_http_download_ends_sequential (hP : Unbounded c.contentLength P) (hb : c.batchSize ≠ 0)
    {remote : List Byte} {mime : Text → Option (Text × Text)} {answer : Answer} (hA : RangeServer remote answer)
    {w0 : HSys P.S} (h0 : HStarts P c mime answer w0) {r : Nat → HSys P.S} {act : Nat → Option HAct}
    (h : HRun c (RangeServer remote) w0 r act) (hw : HAdvancing r act)
    (hns : ∀ j f, act j ≠ some (.sys (.seek f))) : ∃ j, (r j).sys.spc = .ended :=
  C82_http_download_ends_partial hP hb hA h0 h hw (ranges_of_noSeek hA h0 h hns) (i0 := 0) fun j f _ => hns j f

/-- C82 for HTTP: every call returns, as long as the task asks for proper ranges. -/
theorem C82_http_calls_return_partial (hP : Unbounded c.contentLength P) (hb : c.batchSize ≠ 0)
    {remote : List Byte} {mime : Text → Option (Text × Text)} {answer : Answer} (hA : RangeServer remote answer)
    {w0 : HSys P.S} (h0 : HStarts P c mime answer w0) {r : Nat → HSys P.S} {act : Nat → Option HAct}
    (h : HRun c (RangeServer remote) w0 r act) (hw : HAdvancing r act)
    (hok : ∀ i a, act i = some a → RangesOk (r i) a) (hmax : ∀ j, Ev.request (two64 - 1) ∉ (r j).sys.log) {i : Nat}
    (hc : (r i).sys.rpc.inCall = true) :
    ∃ j, i ≤ j ∧ ((r j).sys.rpc = .idle ∨ (r j).sys.rpc = .panicked) := by
  have hi := HInv.starts hA h0
  obtain ⟨act', h1, h2, h3, h4, h5, h6, h7⟩ := http_exec' (b := 0) hi h hok
  exact C82_calls_return (c := c.on remote 0) hP hb (hi.finite 0) h0.2.2.2 h1 h4 h5 (h6 hw)
    (fun i a ha => (h2 i a ha).choose_spec.2.2.1) h7 hmax hc

/-- C82 for HTTP with a known length: a consumer that reads to the end receives the whole resource, or a
read fails, with bodies that break off anywhere. -/
theorem C82_http_reading_ends (hP : Unbounded c.contentLength P) (hb : c.batchSize ≠ 0) (hk : c.KeepsErrors)
    (hlen : c.contentLength ≠ none)
    {remote : List Byte} {mime : Text → Option (Text × Text)} {answer : Answer} (hA : RangeServer remote answer)
    {w0 : HSys P.S} (h0 : HStarts P c mime answer w0) {r : Nat → HSys P.S} {act : Nat → Option HAct}
    (h : HRun c (RangeServer remote) w0 r act) (hw : HAdvancing r act)
    (hns : ∀ j f, act j ≠ some (.sys (.seek f)))
    (hn : ∀ j n, act j = some (.sys (.read n)) → remote.length + n < two64 - 1)
    (hread : Reading (fun i => (r i).sys) fun j n => act j = some (.sys (.read n))) :
    ∃ i, ReadFailed (r i).sys.log ∨ delivered (r i).sys.log = remote := by
  have hi := HInv.starts hA h0
  obtain ⟨act', h1, h2, h3, h4, h5, h6, h7⟩ := http_exec' (b := 0) hi h (ranges_of_noSeek hA h0 h hns)
  have := C82_reading_ends_unbounded (c := c.on remote 0) hP hb hk ⟨h0.2.2.1, hlen⟩ (hi.finite 0) h0.2.2.2 h1 h4 h5
    (h6 hw) (fun i a ha => (h2 i a ha).choose_spec.2.2.1) h7
    (fun j f hx => by
      obtain ⟨a, ha, hx, -⟩ := h2 j _ hx
      cases hx
      exact hns j f ha)
    (fun j n hx => by
      obtain ⟨a, ha, hx, -⟩ := h2 j _ hx
      cases hx
      exact hn j n ha)
    (HAct.Is.reading h3 hread)
  rwa [show slice (c.on remote 0).remote 0 remote.length = remote from slice_getD remote 0] at this

/-- C82 for HTTP with a known length and bounded storage, if no reconnect takes place while received bytes
wait to be written (C35): moreover the download ends. -/
theorem C82_http_reading_ends_bounded_partial {F : Provider} {checks : Bool} {bufferSize : Nat}
    (hF : Sparing (some (Bnd.sizeFor bufferSize c.contentLength)) F) (hb : c.batchSize ≠ 0)
    (hbs : bufferSize ≠ 0) (hk : c.KeepsErrors) (hlen : c.contentLength ≠ none)
    {remote : List Byte} {mime : Text → Option (Text × Text)} {answer : Answer} (hA : RangeServer remote answer)
    {w0 : HSys (bndStorage checks F.S)} (h0 : HStarts (bndProvider checks F bufferSize) c mime answer w0)
    {r : Nat → HSys (bndStorage checks F.S)} {act : Nat → Option HAct}
    (h : HRun c (RangeServer remote) w0 r act) (hw : HAdvancing r act)
    (hcl : ∀ i a, act i = some a → HClean (r i) a)
    (hns : ∀ j f, act j ≠ some (.sys (.seek f)))
    (hn : ∀ j n, act j = some (.sys (.read n)) → remote.length + n < two64 - 1)
    (hread : Reading (fun i => (r i).sys) fun j n => act j = some (.sys (.read n))) :
    (∃ i, ReadFailed (r i).sys.log ∨ delivered (r i).sys.log = remote) ∧
      ∃ i, ReadFailed (r i).sys.log ∨ (r i).sys.spc = .ended := by
  have hi := HInv.starts hA h0
  obtain ⟨act', h1, h2, h3, h4, h5, h6, h7⟩ := http_exec' (b := 0) hi h (ranges_of_noSeek hA h0 h hns)
  have := C82_reading_ends_bounded_partial (c := c.on remote 0) hF hb hbs hk ⟨h0.2.2.1, hlen⟩ (hi.finite 0)
    h0.2.2.2 h1 h4 h5 (h6 hw)
    (fun i x hx => by
      obtain ⟨a, ha, hx, hf, -, -⟩ := h2 i _ hx
      refine ⟨hf, fun p hp => ?_⟩
      subst hp
      cases hx with
      | sys _ hf => simp [Act.ofTransport] at hf
      | reconnOk answer => exact hcl i _ ha answer rfl)
    h7
    (fun j f hx => by
      obtain ⟨a, ha, hx, -⟩ := h2 j _ hx
      cases hx
      exact hns j f ha)
    (fun j n hx => by
      obtain ⟨a, ha, hx, -⟩ := h2 j _ hx
      cases hx
      exact hn j n ha)
    (HAct.Is.reading h3 hread)
  rwa [show slice (c.on remote 0).remote 0 remote.length = remote from slice_getD remote 0] at this

/-- No request for a part of the resource fails: the server can be reached and answers with success. -/
def Answered {S : Storage} (r : Nat → HSys S) (act : Nat → Option HAct) : Prop :=
  ∀ i answer start stop, act i = some (.seekRange answer) → (r i).sys.spc = .seeking start stop →
    ((r i).http.seekRange answer start stop).res = .ok ()

/-- C82 for HTTP with a known length, if nobody cancels, no request for a part fails, and `on_finish` does not
turn success into an error: a consumer that reads to the end receives the whole resource, with bodies that
break off anywhere. -/
theorem C82_http_whole_resource (hP : Unbounded c.contentLength P) (hb : c.batchSize ≠ 0) (hk : c.KeepsErrors)
    (hf : c.Accepts) (hlen : c.contentLength ≠ none)
    {remote : List Byte} {mime : Text → Option (Text × Text)} {answer : Answer} (hA : RangeServer remote answer)
    {w0 : HSys P.S} (h0 : HStarts P c mime answer w0) {r : Nat → HSys P.S} {act : Nat → Option HAct}
    (h : HRun c (RangeServer remote) w0 r act) (hw : HAdvancing r act) (hans : Answered r act)
    (hns : ∀ j f, act j ≠ some (.sys (.seek f))) (hc : ∀ j, act j ≠ some (.sys .cancel))
    (hn : ∀ j n, act j = some (.sys (.read n)) → remote.length + n < two64 - 1)
    (hread : Reading (fun i => (r i).sys) fun j n => act j = some (.sys (.read n))) :
    ∃ i, delivered (r i).sys.log = remote := by
  have hi := HInv.starts hA h0
  obtain ⟨act', h1, h2, h3, h4, h5, h6, h7⟩ := http_exec' (b := 0) hi h (ranges_of_noSeek hA h0 h hns)
  have := C82_whole_resource_unbounded (c := c.on remote 0) hP hb hk hf ⟨h0.2.2.1, hlen⟩ (hi.finite 0) h0.2.2.2 h1 h4 h5
    (h6 hw) (fun i x hx => by
      obtain ⟨a, ha, hi, hh, -, hu⟩ := h2 i x hx
      refine ⟨hh, fun e => ?_, fun k e => ?_⟩ <;> subst e
      · cases hi
        exact hc i ha
      · obtain ⟨answer, start, stop, e, h8, h9⟩ := hu k rfl
        exact h9 (hans i answer start stop (by rw [ha, e]) h8)) h7
    (fun j f hx => by
      obtain ⟨a, ha, hx, -⟩ := h2 j _ hx
      cases hx
      exact hns j f ha)
    (fun j n hx => by
      obtain ⟨a, ha, hx, -⟩ := h2 j _ hx
      cases hx
      exact hn j n ha)
    (HAct.Is.reading h3 hread)
  rwa [show slice (c.on remote 0).remote 0 remote.length = remote from slice_getD remote 0] at this

/-- C82 for HTTP with a known length and bounded storage: under the conditions of the two theorems above, and if
no buffer is longer than the configured size and the declared length (C24), the consumer receives the whole
resource and the download ends. -/
theorem C82_http_whole_resource_bounded_partial {F : Provider} {checks : Bool} {bufferSize : Nat}
    (hF : Sparing (some (Bnd.sizeFor bufferSize c.contentLength)) F) (hb : c.batchSize ≠ 0)
    (hbs : bufferSize ≠ 0) (hk : c.KeepsErrors) (hf : c.Accepts) (hlen : c.contentLength ≠ none)
    {remote : List Byte} {mime : Text → Option (Text × Text)} {answer : Answer} (hA : RangeServer remote answer)
    {w0 : HSys (bndStorage checks F.S)} (h0 : HStarts (bndProvider checks F bufferSize) c mime answer w0)
    {r : Nat → HSys (bndStorage checks F.S)} {act : Nat → Option HAct}
    (h : HRun c (RangeServer remote) w0 r act) (hw : HAdvancing r act) (hans : Answered r act)
    (hcl : ∀ i a, act i = some a → HClean (r i) a)
    (hns : ∀ j f, act j ≠ some (.sys (.seek f))) (hc : ∀ j, act j ≠ some (.sys .cancel))
    (hm : ∀ j n, act j = some (.sys (.read n)) → n ≤ Bnd.sizeFor bufferSize c.contentLength)
    (hn : ∀ j n, act j = some (.sys (.read n)) → remote.length + n < two64 - 1)
    (hread : Reading (fun i => (r i).sys) fun j n => act j = some (.sys (.read n))) :
    (∃ i, delivered (r i).sys.log = remote) ∧ ∃ i, (r i).sys.spc = .ended := by
  have hi := HInv.starts hA h0
  obtain ⟨act', h1, h2, h3, h4, h5, h6, h7⟩ := http_exec' (b := 0) hi h (ranges_of_noSeek hA h0 h hns)
  have := C82_whole_resource_bounded_partial (c := c.on remote 0) hF hb hbs hk hf ⟨h0.2.2.1, hlen⟩ (hi.finite 0)
    h0.2.2.2 h1 h4 h5 (h6 hw)
    (fun i x hx => by
      obtain ⟨a, ha, hi, hh, -, hu⟩ := h2 i x hx
      refine ⟨hh, fun p hp => ?_, fun e => ?_, fun k e => ?_⟩
      · subst hp
        cases hi with
        | sys _ hf => simp [Act.ofTransport] at hf
        | reconnOk answer => exact hcl i _ ha answer rfl
      · subst e
        cases hi
        exact hc i ha
      · subst e
        obtain ⟨answer, start, stop, e, h8, h9⟩ := hu k rfl
        exact h9 (hans i answer start stop (by rw [ha, e]) h8))
    h7
    (fun j f hx => by
      obtain ⟨a, ha, hx, -⟩ := h2 j _ hx
      cases hx
      exact hns j f ha)
    (fun j n hx => by
      obtain ⟨a, ha, hx, -⟩ := h2 j _ hx
      cases hx
      exact hm j n ha)
    (fun j n hx => by
      obtain ⟨a, ha, hx, -⟩ := h2 j _ hx
      cases hx
      exact hn j n ha)
    (HAct.Is.reading h3 hread)
  rwa [show slice (c.on remote 0).remote 0 remote.length = remote from slice_getD remote 0] at this

/-! ### Histories that meet the hypotheses -/

theorem advancing_of_run {S : Storage} {g : Sys S → Act → Bool} {as : List Act} {s0 s : Sys S}
    (h : runG g c s0 as = some s) (hs : s.spc.awaits = false) :
    Advancing c (after c s0 as) (fun i => as[i]?) := by
  intro hi
  obtain ⟨j, hj, h'⟩ := hi as.length
  rw [after_end hj, after_last h, hs] at h'
  cases h'

/-- What the theorems assume of the transport, for a history that stops. -/
theorem steady_of_run (st : P.S.σ) (as : List Act)
    (hcap : c.capacity = P.maxCapacity) (hst : P.create c.contentLength = .ok st)
    (h : (runG (fun s a => honestB s a && cleanB s a && decide (a ≠ .chunk 0)) c (init c st) as).any
      (stopped c) = true) :
    Starts P c (init c st) ∧ Exec c (init c st) (after c (init c st) as) (fun i => as[i]?) ∧
      Fair c (after c (init c st) as) (fun i => as[i]?) .src ∧
      Fair c (after c (init c st) as) (fun i => as[i]?) .rdr ∧
      Advancing c (after c (init c st) as) (fun i => as[i]?) ∧
      (∀ i a, as[i]? = some a → Honest (after c (init c st) as i) a ∧
        CleanReconnect (after c (init c st) as i) a) ∧
      ∀ i : Nat, as[i]? ≠ some (.chunk 0) := by
  cases hr : runG (fun s a => honestB s a && cleanB s a && decide (a ≠ .chunk 0)) c (init c st) as with
  | none => rw [hr] at h; simp at h
  | some s =>
    rw [hr] at h
    simp only [Option.any_some, stopped, Bool.and_eq_true, Option.isNone_iff_eq_none, Bool.not_eq_true'] at h
    refine ⟨⟨hcap, st, hst, rfl⟩, exec_of_run hr, fair_of_run hr h.1.1, fair_of_run hr h.1.2,
      advancing_of_run hr h.2, fun i a ha => ?_, fun i ha => ?_⟩
    · have := runG_guard hr i a ha
      simp only [Bool.and_eq_true] at this
      exact ⟨honest_of this.1.1, clean_of this.1.2⟩
    · have := runG_guard hr i (.chunk 0) ha
      simp at this

/-- Storage that keeps everything: the first connection breaks off after 2 bytes of 10, the second before
its first byte, the third after 5 more, the fourth delivers the rest.  The consumer reads in pieces of 4. -/
example : ∃ (s0 : Sys memStorage) (r : Nat → Sys memStorage) (act : Nat → Option Act),
    Starts memProvider demoCfg s0 ∧ Exec demoCfg s0 r act ∧ Fair demoCfg r act .src ∧ Fair demoCfg r act .rdr ∧
      Advancing demoCfg r act ∧ (∀ i a, act i = some a → Honest (r i) a) ∧ (∀ j, act j ≠ some (.chunk 0)) ∧
      (∀ i a, act i = some a → Undisturbed (r i) a) ∧ demoCfg.Repairs ∧ demoCfg.Finite 10 ∧
      (∀ j f, act j ≠ some (.seek f)) ∧ (∀ j n, act j = some (.read n) → 10 + n < two64 - 1) ∧
      ReadsToEnd r act ∧ ¬ ReadFailed (r 90).log ∧ delivered (r 90).log = [1, 2, 3, 4, 5, 6, 7, 8, 9, 10] ∧
      (r 90).spc = .ended ∧ act 11 = some .eof ∧ (r 11).tpos = 2 ∧ (r 11).tlim = none := by
  obtain ⟨h1, h2, h3, h4, h5, h6, h7⟩ := steady_of_run (P := memProvider) (c := demoCfg) demoMem10
    ([.read 4] ++ rdrs 3 ++ [.chunk 2] ++ srcs 6 ++ [.eof, .src, .seekOk 2, .eof, .src, .seekOk 2, .chunk 5] ++ srcs 8 ++ rdrs 5 ++
      [.eof, .src, .seekOk 7] ++ [.read 4] ++ rdrs 3 ++
      [.chunk 3] ++ srcs 8 ++ rdrs 5 ++ [.read 4] ++ rdrs 3 ++ [.eof] ++ srcs 6) rfl rfl (by decide +kernel)
  refine ⟨_, _, _, h1, h2, h3, h4, h5, fun i a ha => (h6 i a ha).1, h7, fun i a ha => by
      have ha := List.mem_of_getElem? ha
      refine ⟨?_, ?_⟩ <;> intros <;> rintro rfl <;> simp [srcs, rdrs, List.mem_replicate] at ha,
    ⟨rfl, nofun⟩, ⟨rfl, fun n hn => by cases hn; rfl⟩, ?_, ?_,
    reads_of (by decide +kernel), ?_, by decide +kernel, by decide +kernel, rfl, by decide +kernel, by decide +kernel⟩
  · intro j f e
    exact absurd (List.mem_of_getElem? e) (by simp [srcs, rdrs, List.mem_replicate])
  · intro j n e
    have := List.mem_of_getElem? e
    simp [srcs, rdrs, List.mem_replicate] at this
    subst this
    decide
  · show ¬ ∃ e ∈ _, _
    decide +kernel

/-- Bounded storage whose source is seekable. -/
def cfgBoundedSeek : Cfg := { cfgBounded with supportsSeek := true }

/-- Bounded storage: 10 bytes through a buffer of 4, with connections that break off at 4 and 7. -/
example : ∃ (s0 : Sys (bndStorage true memStorage)) (r : Nat → Sys (bndStorage true memStorage))
    (act : Nat → Option Act), Starts (bndProvider true memProvider 4) cfgBoundedSeek s0 ∧
      Exec cfgBoundedSeek s0 r act ∧ Fair cfgBoundedSeek r act .src ∧ Fair cfgBoundedSeek r act .rdr ∧
      Advancing cfgBoundedSeek r act ∧ (∀ i a, act i = some a → Honest (r i) a ∧ CleanReconnect (r i) a) ∧
      (∀ j, act j ≠ some (.chunk 0)) ∧ (∀ i a, act i = some a → Undisturbed (r i) a) ∧ cfgBoundedSeek.Repairs ∧ cfgBoundedSeek.Finite 10 ∧
      (∀ j f, act j ≠ some (.seek f)) ∧ (∀ j n, act j = some (.read n) → n ≤ 4 ∧ 10 + n < two64 - 1) ∧
      ReadsToEnd r act ∧ ¬ ReadFailed (r 60).log ∧ delivered (r 60).log = [1, 2, 3, 4, 5, 6, 7, 8, 9, 10] ∧
      (r 60).spc = .ended ∧ act 4 = some .eof ∧ (r 4).tpos = 4 ∧ (r 4).tlim = none := by
  obtain ⟨h1, h2, h3, h4, h5, h6, h7⟩ := steady_of_run (P := bndProvider true memProvider 4) (c := cfgBoundedSeek)
    demoBnd4
    ([.chunk 4] ++ srcs 3 ++ [.eof, .src, .seekOk 4, .chunk 3] ++ srcs 4 ++ [.read 3] ++ rdrs 4 ++ srcs 7 ++
      [.eof, .src, .seekOk 7, .chunk 3] ++ srcs 4 ++ [.read 4] ++ rdrs 4 ++ srcs 7 ++ [.read 4] ++ rdrs 4 ++ [.eof] ++
      srcs 6) rfl rfl (by decide +kernel)
  refine ⟨_, _, _, h1, h2, h3, h4, h5, h6, h7, fun i a ha => by
      have ha := List.mem_of_getElem? ha
      refine ⟨?_, ?_⟩ <;> intros <;> rintro rfl <;> simp [srcs, rdrs, List.mem_replicate] at ha,
    ⟨rfl, nofun⟩, ⟨rfl, fun n hn => by cases hn; rfl⟩, ?_, ?_,
    reads_of (by decide +kernel), ?_, by decide +kernel, by decide +kernel, rfl, by decide +kernel, by decide +kernel⟩
  · intro j f e
    exact absurd (List.mem_of_getElem? e) (by simp [srcs, rdrs, List.mem_replicate])
  · intro j n e
    have := List.mem_of_getElem? e
    simp [srcs, rdrs, List.mem_replicate] at this
    rcases this with rfl | rfl <;> decide
  · show ¬ ∃ e ∈ _, _
    decide +kernel

theorem hrun_trace_broken {S : Storage} {remote : List Byte} {answer : Answer} (hA : RangeServer remote answer)
    {g : HSys S → Act → Bool} {w0 : HSys S} {bs : List Act}
    (h : (fun w : HSys S => (hstep c w (.sys .src)).isNone && (hstep c w (.sys .rdr)).isNone && !w.sys.spc.awaits)
      (trace (hstep c) g (fun _ => toHAct answer) w0 bs bs.length) = true) :
    HRun c (RangeServer remote) w0 (trace (hstep c) g (fun _ => toHAct answer) w0 bs)
      (traceAct (hstep c) g (fun _ => toHAct answer) w0 bs) ∧
    HAdvancing (trace (hstep c) g (fun _ => toHAct answer) w0 bs)
      (traceAct (hstep c) g (fun _ => toHAct answer) w0 bs) := by
  simp only [Bool.and_eq_true, Option.isNone_iff_eq_none, Bool.not_eq_true'] at h
  refine ⟨⟨run_trace _ _, fun i a an ha he => ?_, fair_trace h.1.1, fair_trace h.1.2⟩, working_trace h.2⟩
  obtain ⟨b, -, -, rfl, -⟩ := traceAct_some ha
  cases b <;> simp [HAct.answer, toHAct] at he <;> subst he <;> exact hA

/-- The test that a request succeeds. -/
def answeredB {S : Storage} (answer : Answer) (w : HSys S) (a : Act) : Bool :=
  match a, w.sys.spc with
  | .seekOk _, .seeking start stop =>
    match (w.http.seekRange answer start stop).res with
    | .ok _ => true
    | _ => false
  | _, _ => true

theorem answered_of {S : Storage} {answer : Answer} {w : HSys S} {b : Act} (h : answeredB answer w b = true) :
    ∀ answer' start stop, toHAct answer b = .seekRange answer' → w.sys.spc = .seeking start stop →
      (w.http.seekRange answer' start stop).res = .ok () := by
  intro answer' start stop e hp
  cases b <;> simp [toHAct] at e
  subst e
  simp only [answeredB, hp] at h
  split at h
  · assumption
  · cases h

/-- HTTP without seeks: 20 bytes, and bodies that break off after 4, at once, and after 4 more. -/
example : ∃ (w0 : HSys memStorage) (r : Nat → HSys memStorage) (act : Nat → Option HAct),
    HStarts memProvider cfg20 (fun _ => none) (server20 headers20) w0 ∧
      HRun cfg20 (RangeServer bytes20) w0 r act ∧ HAdvancing r act ∧ Answered r act ∧ cfg20.contentLength ≠ none ∧
      (∀ j f, act j ≠ some (.sys (.seek f))) ∧ (∀ j, act j ≠ some (.sys .cancel)) ∧
      (∀ j n, act j = some (.sys (.read n)) → bytes20.length + n < two64 - 1) ∧
      (Reading (fun i => (r i).sys) fun j n => act j = some (.sys (.read n))) ∧
      (r 120).sys.spc = .ended ∧ ¬ ReadFailed (r 120).sys.log ∧ delivered (r 120).sys.log = bytes20 ∧
      (r 13).http.stream.length = 16 ∧ (r 14).sys.spc = .fin := by
  let w0 : HSys memStorage := { sys := init cfg20 demoMem20, http := stream20 headers20 (some 20) }
  let bs : List Act := [.read 8] ++ rdrs 3 ++ [.chunk 4] ++ srcs 8 ++ [.eof, .src, .seekOk 0, .eof, .src, .seekOk 0,
    .chunk 4] ++ srcs 10 ++ rdrs 8 ++ [.eof, .src, .seekOk 0, .read 8] ++ rdrs 3 ++ [.chunk 12] ++ srcs 10 ++ rdrs 8 ++
    [.read 8] ++ rdrs 9 ++ [.eof] ++ srcs 9 ++ rdrs 9
  obtain ⟨h1, h2⟩ := hrun_trace_broken (c := cfg20) headers20_ok (g := fun w a => answeredB (server20 headers20) w a && a != .cancel)
    (w0 := w0) (bs := bs) (by decide +kernel)
  refine ⟨w0, _, _, ⟨server20_new (by decide +kernel), rfl, rfl, rfl, demoMem20, rfl, rfl⟩, h1, h2,
    fun i answer start stop ha hp => guard_trace (G := fun w a => ∀ answer' start stop, a = .seekRange answer' →
      w.sys.spc = .seeking start stop → (w.http.seekRange answer' start stop).res = .ok ())
      (fun w b h => answered_of ((Bool.and_eq_true _ _).mp h).1) i _ ha _ _ _ rfl hp, nofun,
    seekless_trace (ev := some) (fun _ => toHAct_seek) (by decide +kernel),
    fun j ha => guard_trace (G := fun w a => a ≠ .sys .cancel) (fun w b h e => by
      have := ((Bool.and_eq_true _ _).mp h).2
      cases b <;> simp [toHAct] at e this <;> simp_all) j _ ha rfl,
    short_trace (ev := some) (fun _ => toHAct_read) (by decide +kernel),
    reading_trace (ev := some) (fun _ _ _ h => by cases h; rfl) (by decide +kernel), by decide +kernel, ?_,
    by decide +kernel, by decide +kernel, by decide +kernel⟩
  show ¬ ∃ e ∈ _, _
  decide +kernel

/-- HTTP with seeks: the consumer jumps to 8 and sleeps; the body of the rest breaks off before its
first byte, the next one too, and the third delivers what is missing. -/
example : ∃ (w0 : HSys memStorage) (r : Nat → HSys memStorage) (act : Nat → Option HAct),
    HStarts memProvider cfg20 (fun _ => none) (server20 headers20) w0 ∧
      HRun cfg20 (RangeServer bytes20) w0 r act ∧ HAdvancing r act ∧
      (∀ i a, act i = some a → RangesOk (r i) a) ∧ (∀ j f, 140 ≤ j → act j ≠ some (.sys (.seek f))) ∧
      (r 11).sys.rpc = .sWait 8 ∧ (r 140).sys.rpc = .idle ∧ (r 140).sys.spc = .ended ∧
      (r 140).sys.log.countP (fun e => match e with | .seekRange _ _ => true | _ => false) = 3 := by
  let w0 : HSys memStorage := { sys := init cfg20 demoMem20, http := stream20 headers20 (some 20) }
  let bs : List Act := [.chunk 4] ++ srcs 6 ++ [.seek (.start 8)] ++ rdrs 3 ++
    [.recvSeek, .src, .seekOk 0, .eof] ++ srcs 9 ++ [.seekOk 0, .eof] ++ srcs 9 ++ [.seekOk 0, .chunk 16] ++ srcs 9 ++
    rdrs 9 ++ [.eof] ++ srcs 9 ++ rdrs 9
  obtain ⟨h1, h2⟩ := hrun_trace_broken (c := cfg20) headers20_ok (g := fun w a => hrangesB cfg20 w a)
    (w0 := w0) (bs := bs) (by decide +kernel)
  refine ⟨w0, _, _, ⟨server20_new (by decide +kernel), rfl, rfl, rfl, demoMem20, rfl, rfl⟩, h1, h2,
    guard_trace (fun w b h => (hranges_of h).1), fun j f hj => ?_, by decide +kernel,
    by decide +kernel, by decide +kernel, by decide +kernel⟩
  rw [trace_stops (by simp [bs, srcs, rdrs]; omega)]
  simp

/-- HTTP and bounded storage: 20 bytes through a buffer of 10, and a body that breaks off after 8. -/
example : ∃ (w0 : HSys (bndStorage true memStorage)) (r : Nat → HSys (bndStorage true memStorage))
    (act : Nat → Option HAct),
    HStarts (bndProvider true memProvider 10) cfgB20 (fun _ => none) (server20 headers20) w0 ∧
      HRun cfgB20 (RangeServer bytes20) w0 r act ∧ HAdvancing r act ∧ Answered r act ∧ cfgB20.contentLength ≠ none ∧
      (∀ i a, act i = some a → HClean (r i) a) ∧ (∀ j f, act j ≠ some (.sys (.seek f))) ∧
      (∀ j, act j ≠ some (.sys .cancel)) ∧ (∀ j n, act j = some (.sys (.read n)) → n ≤ 10) ∧
      (∀ j n, act j = some (.sys (.read n)) → bytes20.length + n < two64 - 1) ∧
      (Reading (fun i => (r i).sys) fun j n => act j = some (.sys (.read n))) ∧
      (r 130).sys.spc = .ended ∧ ¬ ReadFailed (r 130).sys.log ∧ delivered (r 130).sys.log = bytes20 ∧
      (r 130).sys.log.countP (fun e => match e with | .seekRange _ _ => true | _ => false) = 1 := by
  let w0 : HSys (bndStorage true memStorage) :=
    { sys := init cfgB20 demoBnd10, http := stream20 headers20 (some 20) }
  let bs : List Act := [.read 8] ++ rdrs 3 ++ [.chunk 2] ++ srcs 8 ++ [.chunkErr, .timeout, .reconnOk 0, .chunk 6] ++
    srcs 10 ++ rdrs 8 ++ [.eof, .src, .seekOk 0, .read 8] ++ rdrs 3 ++ [.chunk 8] ++ srcs 10 ++ rdrs 8 ++ srcs 10 ++
    [.chunk 4] ++ srcs 10 ++ [.read 8] ++ rdrs 9 ++ srcs 10 ++ [.eof] ++ srcs 9 ++ rdrs 9
  obtain ⟨h1, h2⟩ := hrun_trace_broken (c := cfgB20) headers20_ok (g := fun w a => hguardB w a && (answeredB (server20 headers20) w a && a != .cancel)) (w0 := w0) (bs := bs)
    (by decide +kernel)
  refine ⟨w0, _, _, ⟨server20_new (by decide +kernel), rfl, rfl, rfl, demoBnd10, rfl, rfl⟩, h1, h2,
    fun i answer start stop ha hp => guard_trace (G := fun w a => ∀ answer' start stop, a = .seekRange answer' →
      w.sys.spc = .seeking start stop → (w.http.seekRange answer' start stop).res = .ok ())
      (fun w b h => answered_of ((Bool.and_eq_true _ _).mp ((Bool.and_eq_true _ _).mp h).2).1) i _ ha _ _ _ rfl hp, nofun,
    guard_trace (fun w b h => (hguard_of ((Bool.and_eq_true _ _).mp h).1).2),
    seekless_trace (ev := some) (fun _ => toHAct_seek) (by decide +kernel),
    fun j ha => guard_trace (G := fun w a => a ≠ .sys .cancel) (fun w b h e => by
      have := ((Bool.and_eq_true _ _).mp ((Bool.and_eq_true _ _).mp h).2).2
      cases b <;> simp [toHAct] at e this <;> simp_all) j _ ha rfl,
    fun j n ha => ?_,
    short_trace (ev := some) (fun _ => toHAct_read) (by decide +kernel),
    reading_trace (ev := some) (fun _ _ _ h => by cases h; rfl) (by decide +kernel), by decide +kernel, ?_,
    by decide +kernel, by decide +kernel⟩
  · obtain ⟨b, hb, -, e, -⟩ := traceAct_some ha
    cases toHAct_read _ _ e.symm
    have := List.mem_of_getElem? hb
    simp [bs, srcs, rdrs, List.mem_replicate] at this
    omega
  · show ¬ ∃ e ∈ _, _
    decide +kernel

end SD
