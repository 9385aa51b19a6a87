import Verif.Proof.CalmSystem
import Verif.Props.LiveProcess

/-!
# Properties C72, C76 and C77 over HTTP, OpenDAL, readers and processes

The consumer does not seek and nobody cancels.  Then no read fails, the task asks for no range,
and a consumer that reads to the end receives the whole resource.
-/

set_option linter.unusedVariables false

namespace SD

variable {P : Provider} {c : Cfg}

/-- Any length of a buffer. -/
def anyLength (_ : Nat) : Prop := True

/-- `on_finish` does not turn success into an error. -/
def Cfg.Accepts (c : Cfg) : Prop := c.onFinish none .completed = none

theorem smooth_unbounded (hP : Unbounded c.contentLength P) (hf : c.Accepts) {m : Nat} (hfin : c.Finite m)
    {s0 s : Sys P.S} (h0 : Starts P c s0) {fits : Nat → Prop} (h : Reach c (Smooth c fits) s0 s) :
    ¬ ReadFailed s.log ∧ ∀ a b, Ev.seekRange a b ∉ s.log :=
  ⟨C76_reads_succeed_unbounded hP hf h0 ((h.smooth (Or.inl hP) hfin h0).mono fun _ _ hg => ⟨hg.1, hg.2.1⟩),
    C77_no_range_requests (Or.inl hP) hfin h0 (h.mono fun _ _ hg => hg.1)⟩

theorem smooth_bounded {F : Provider} {checks : Bool} {bufferSize : Nat}
    (hF : Sparing (some (Bnd.sizeFor bufferSize c.contentLength)) F) (hf : c.Accepts) {m : Nat}
    (hfin : c.Finite m) {s0 s : Sys (bndStorage checks F.S)} (h0 : Starts (bndProvider checks F bufferSize) c s0)
    (h : Reach c (Smooth c (· ≤ Bnd.sizeFor bufferSize c.contentLength)) s0 s) :
    ¬ ReadFailed s.log ∧ ∀ a b, Ev.seekRange a b ∉ s.log :=
  ⟨C76_reads_succeed_bounded_partial hF hf h0
      (h.smooth (Or.inr (.bounded c.contentLength checks F bufferSize hF)) hfin h0),
    C77_no_range_requests (Or.inr (.bounded c.contentLength checks F bufferSize hF)) hfin h0
      (h.mono fun _ _ hg => hg.1)⟩

/-! ### HTTP -/

section
variable {remote : List Byte} {mime : Text → Option (Text × Text)} {answer : Answer}

/-- C76 and C77 for HTTP and storage that keeps everything: with a server that supports ranges
and sends complete bodies, no read of a consumer that does not seek fails, and no range is asked
for, with any errors, stalls and reconnects in between. -/
theorem C76_http_reads_succeed (hP : Unbounded c.contentLength P) (hf : c.Accepts)
    (hA : RangeServer remote answer) {w0 w : HSys P.S} (h0 : HStarts P c mime answer w0)
    (h : HReach c (RangeServer remote) (HCalm anyLength) w0 w) :
    ¬ ReadFailed w.sys.log ∧ ∀ a b, Ev.seekRange a b ∉ w.sys.log :=
  smooth_unbounded (c := c.on remote 0) hP hf ((HInv.starts hA h0).finite 0) h0.2.2.2 (http_smooth hA h0 h).1

/-- C76 and C77 for HTTP and bounded storage, if no buffer is longer than the configured size and
the declared length (C24). -/
theorem C76_http_reads_succeed_bounded_partial {F : Provider} {checks : Bool} {bufferSize : Nat}
    (hF : Sparing (some (Bnd.sizeFor bufferSize c.contentLength)) F) (hf : c.Accepts)
    (hA : RangeServer remote answer) {w0 w : HSys (bndStorage checks F.S)}
    (h0 : HStarts (bndProvider checks F bufferSize) c mime answer w0)
    (h : HReach c (RangeServer remote) (HCalm (· ≤ Bnd.sizeFor bufferSize c.contentLength)) w0 w) :
    ¬ ReadFailed w.sys.log ∧ ∀ a b, Ev.seekRange a b ∉ w.sys.log :=
  smooth_bounded (c := c.on remote 0) hF hf ((HInv.starts hA h0).finite 0) h0.2.2.2 (http_smooth hA h0 h).1

/-- C72 for HTTP and storage that keeps everything, if nobody cancels: a consumer that reads to
the end receives the whole resource. -/
theorem C72_http_whole_resource (hP : Unbounded c.contentLength P) (hb : c.batchSize ≠ 0) (hk : c.KeepsErrors)
    (hf : c.Accepts) (hA : RangeServer remote answer)
    {w0 : HSys P.S} (h0 : HStarts P c mime answer w0) {r : Nat → HSys P.S} {act : Nat → Option HAct}
    (h : HRun c (RangeServer remote) w0 r act) (hw : HWorking r act) (hwb : WholeBodies r act)
    (hns : ∀ j f, act j ≠ some (.sys (.seek f))) (hc : ∀ j, act j ≠ some (.sys .cancel))
    (hn : ∀ j n, act j = some (.sys (.read n)) → remote.length + n < two64 - 1)
    (hread : Reading (fun i => (r i).sys) fun j n => act j = some (.sys (.read n))) :
    ∃ i, delivered (r i).sys.log = remote := by
  obtain ⟨i, hi⟩ := C72_http_reading_ends hP hb hk hA h0 h hw hwb hns hn hread
  refine ⟨i, hi.resolve_left (C76_http_reads_succeed hP hf hA h0 (Run.hreach h (fun i a ha => ?_) i)).1⟩
  exact ⟨fun e => hc i (by rw [ha, e]), fun f e => hns i f (by rw [ha, e]), fun e => hwb i (by rw [ha, e]),
    fun _ _ => trivial⟩

/-- C72 for HTTP and bounded storage, if nobody cancels, no reconnect takes place while received
bytes wait to be written (C35), and no buffer is longer than the configured size and the declared
length (C24): the consumer receives the whole resource, and the download ends. -/
theorem C72_http_whole_resource_bounded_partial {F : Provider} {checks : Bool} {bufferSize : Nat}
    (hF : Sparing (some (Bnd.sizeFor bufferSize c.contentLength)) F) (hb : c.batchSize ≠ 0)
    (hbs : bufferSize ≠ 0) (hk : c.KeepsErrors) (hf : c.Accepts) (hA : RangeServer remote answer)
    {w0 : HSys (bndStorage checks F.S)} (h0 : HStarts (bndProvider checks F bufferSize) c mime answer w0)
    {r : Nat → HSys (bndStorage checks F.S)} {act : Nat → Option HAct}
    (h : HRun c (RangeServer remote) w0 r act) (hw : HWorking r act) (hwb : WholeBodies r act)
    (hcl : ∀ i a, act i = some a → HClean (r i) a)
    (hns : ∀ j f, act j ≠ some (.sys (.seek f))) (hc : ∀ j, act j ≠ some (.sys .cancel))
    (hm : ∀ j n, act j = some (.sys (.read n)) → n ≤ Bnd.sizeFor bufferSize c.contentLength)
    (hn : ∀ j n, act j = some (.sys (.read n)) → remote.length + n < two64 - 1)
    (hread : Reading (fun i => (r i).sys) fun j n => act j = some (.sys (.read n))) :
    (∃ i, delivered (r i).sys.log = remote) ∧ ∃ i, (r i).sys.spc = .ended := by
  have hno : ∀ i, ¬ ReadFailed (r i).sys.log := fun i =>
    (C76_http_reads_succeed_bounded_partial hF hf hA h0 (Run.hreach h (fun i a ha =>
      ⟨fun e => hc i (by rw [ha, e]), fun f e => hns i f (by rw [ha, e]), fun e => hwb i (by rw [ha, e]),
        fun n e => hm i n (by rw [ha, e])⟩) i)).1
  obtain ⟨⟨i, h1⟩, j, h2⟩ := C72_http_reading_ends_bounded_partial hF hb hbs hk hA h0 h hw hwb hcl hns hn hread
  exact ⟨⟨i, h1.resolve_left (hno i)⟩, j, h2.resolve_left (hno j)⟩

end

/-! ### Sources that are programs -/

theorem Run.xreach {R : Source} {S : Storage} {W : World R} {G : XSys R S → XAct R → Prop} {w0 : XSys R S}
    {r : Nat → XSys R S} {act : Nat → Option (XAct R)} (h : XRun c W w0 r act)
    (hG : ∀ i a, act i = some a → G (r i) a) (i : Nat) : XReach c W G w0 (r i) := by
  induction i with
  | zero => rw [h.run.start]; exact .refl
  | succ i ih =>
    cases ha : act i with
    | none => rw [h.run.pause i ha]; exact ih
    | some a => exact ih.step (h.world i a ha) (hG i a ha) (h.run.next i a ha)

/-- C76 and C77 for OpenDAL and storage that keeps everything. -/
theorem C76_opendal_reads_succeed (hP : Unbounded c.contentLength P) (hf : c.Accepts) {object : List Byte}
    {w0 w : XSys opendalSource P.S} (h0 : OStarts P c object w0)
    (h : XReach c (storeWorld object) (XCalm anyLength) w0 w) :
    ¬ ReadFailed w.sys.log ∧ ∀ a b, Ev.seekRange a b ∉ w.sys.log :=
  smooth_unbounded (c := c.on object 0) (m := object.length) hP hf ⟨rfl, fun n hn => h0.real hn⟩ h0.2.2
    (src_smooth (opendalServes object) (XInv.opendal h0) h).1

/-- C76 and C77 for OpenDAL and bounded storage, if no buffer is longer than the configured size
and the declared length (C24). -/
theorem C76_opendal_reads_succeed_bounded_partial {F : Provider} {checks : Bool} {bufferSize : Nat}
    (hF : Sparing (some (Bnd.sizeFor bufferSize c.contentLength)) F) (hf : c.Accepts) {object : List Byte}
    {w0 w : XSys opendalSource (bndStorage checks F.S)} (h0 : OStarts (bndProvider checks F bufferSize) c object w0)
    (h : XReach c (storeWorld object) (XCalm (· ≤ Bnd.sizeFor bufferSize c.contentLength)) w0 w) :
    ¬ ReadFailed w.sys.log ∧ ∀ a b, Ev.seekRange a b ∉ w.sys.log :=
  smooth_bounded (c := c.on object 0) (m := object.length) hF hf ⟨rfl, fun n hn => h0.real hn⟩ h0.2.2
    (src_smooth (opendalServes object) (XInv.opendal h0) h).1

/-- C72 for OpenDAL and storage that keeps everything, if nobody cancels. -/
theorem C72_opendal_whole_resource (hP : Unbounded c.contentLength P) (hb : c.batchSize ≠ 0) (hk : c.KeepsErrors)
    (hf : c.Accepts) {object : List Byte} {w0 : XSys opendalSource P.S} (h0 : OStarts P c object w0)
    {r : Nat → XSys opendalSource P.S} {act : Nat → Option (XAct opendalSource)}
    (h : XRun c (storeWorld object) w0 r act) (hw : XWorking r act)
    (hns : ∀ j f, act j ≠ some (.sys (.seek f))) (hc : ∀ j, act j ≠ some (.sys .cancel))
    (hn : ∀ j n, act j = some (.sys (.read n)) → object.length + n < two64 - 1)
    (hread : Reading (fun i => (r i).sys) fun j n => act j = some (.sys (.read n))) :
    ∃ i, delivered (r i).sys.log = object := by
  obtain ⟨i, hi⟩ := C72_opendal_reading_ends hP hb hk h0 h hw hns hn hread
  refine ⟨i, hi.resolve_left (C76_opendal_reads_succeed hP hf h0 (Run.xreach h (fun i a ha => ?_) i)).1⟩
  exact ⟨fun e => hc i (by rw [ha, e]), fun f e => hns i f (by rw [ha, e]), fun _ _ => trivial⟩

/-- C72 for OpenDAL and bounded storage, if nobody cancels, no reconnect takes place while
received bytes wait to be written (C35), and no buffer is longer than the configured size and the
declared length (C24). -/
theorem C72_opendal_whole_resource_bounded_partial {F : Provider} {checks : Bool} {bufferSize : Nat}
    (hF : Sparing (some (Bnd.sizeFor bufferSize c.contentLength)) F) (hb : c.batchSize ≠ 0)
    (hbs : bufferSize ≠ 0) (hk : c.KeepsErrors) (hf : c.Accepts) {object : List Byte}
    {w0 : XSys opendalSource (bndStorage checks F.S)} (h0 : OStarts (bndProvider checks F bufferSize) c object w0)
    {r : Nat → XSys opendalSource (bndStorage checks F.S)} {act : Nat → Option (XAct opendalSource)}
    (h : XRun c (storeWorld object) w0 r act) (hw : XWorking r act)
    (hcl : ∀ i a, act i = some a → XClean (r i) a)
    (hns : ∀ j f, act j ≠ some (.sys (.seek f))) (hc : ∀ j, act j ≠ some (.sys .cancel))
    (hm : ∀ j n, act j = some (.sys (.read n)) → n ≤ Bnd.sizeFor bufferSize c.contentLength)
    (hn : ∀ j n, act j = some (.sys (.read n)) → object.length + n < two64 - 1)
    (hread : Reading (fun i => (r i).sys) fun j n => act j = some (.sys (.read n))) :
    (∃ i, delivered (r i).sys.log = object) ∧ ∃ i, (r i).sys.spc = .ended := by
  have hno : ∀ i, ¬ ReadFailed (r i).sys.log := fun i =>
    (C76_opendal_reads_succeed_bounded_partial hF hf h0 (Run.xreach h (fun i a ha =>
      ⟨fun e => hc i (by rw [ha, e]), fun f e => hns i f (by rw [ha, e]), fun n e => hm i n (by rw [ha, e])⟩) i)).1
  obtain ⟨⟨i, h1⟩, j, h2⟩ := C72_opendal_reading_ends_bounded_partial hF hb hbs hk h0 h hw hcl hns hn hread
  exact ⟨⟨i, h1.resolve_left (hno i)⟩, j, h2.resolve_left (hno j)⟩

/-- C76 and C77 for a reader that does not fail, with a declared length that is right or absent,
and storage that keeps everything. -/
theorem C76_reader_reads_succeed (hP : Unbounded c.contentLength P) (hf : c.Accepts) {bytes : List Byte}
    (hd : ∀ n, c.contentLength = some n → n = bytes.length)
    {w0 w : XSys asyncReadSource P.S} (h0 : RStarts P c bytes w0)
    (h : XReach c (readerWorld false) (XCalm anyLength) w0 w) :
    ¬ ReadFailed w.sys.log ∧ ∀ a b, Ev.seekRange a b ∉ w.sys.log :=
  smooth_unbounded (c := c.on bytes 0) (m := bytes.length) hP hf ⟨rfl, fun n hn => hd n hn⟩ h0.2.2
    (src_smooth (readerServes bytes false) (XInv.reader false h0) h).1

/-- C76 and C77 for such a reader and bounded storage, if no buffer is longer than the configured
size and the declared length (C24). -/
theorem C76_reader_reads_succeed_bounded_partial {F : Provider} {checks : Bool} {bufferSize : Nat}
    (hF : Sparing (some (Bnd.sizeFor bufferSize c.contentLength)) F) (hf : c.Accepts) {bytes : List Byte}
    (hd : ∀ n, c.contentLength = some n → n = bytes.length)
    {w0 w : XSys asyncReadSource (bndStorage checks F.S)} (h0 : RStarts (bndProvider checks F bufferSize) c bytes w0)
    (h : XReach c (readerWorld false) (XCalm (· ≤ Bnd.sizeFor bufferSize c.contentLength)) w0 w) :
    ¬ ReadFailed w.sys.log ∧ ∀ a b, Ev.seekRange a b ∉ w.sys.log :=
  smooth_bounded (c := c.on bytes 0) (m := bytes.length) hF hf ⟨rfl, fun n hn => hd n hn⟩ h0.2.2
    (src_smooth (readerServes bytes false) (XInv.reader false h0) h).1

/-- C72 for such a reader and storage that keeps everything, if nobody cancels. -/
theorem C72_reader_whole_resource (hP : Unbounded c.contentLength P) (hb : c.batchSize ≠ 0) (hk : c.KeepsErrors)
    (hf : c.Accepts) {bytes : List Byte} (hd : ∀ n, c.contentLength = some n → n = bytes.length)
    {w0 : XSys asyncReadSource P.S} (h0 : RStarts P c bytes w0)
    {r : Nat → XSys asyncReadSource P.S} {act : Nat → Option (XAct asyncReadSource)}
    (h : XRun c (readerWorld false) w0 r act) (hw : XWorking r act)
    (hns : ∀ j f, act j ≠ some (.sys (.seek f))) (hc : ∀ j, act j ≠ some (.sys .cancel))
    (hn : ∀ j n, act j = some (.sys (.read n)) → bytes.length + n < two64 - 1)
    (hread : Reading (fun i => (r i).sys) fun j n => act j = some (.sys (.read n))) :
    ∃ i, delivered (r i).sys.log = bytes := by
  obtain ⟨i, hi⟩ := C72_reader_reading_ends hP hb hk hd h0 h hw hns hn hread
  refine ⟨i, hi.resolve_left (C76_reader_reads_succeed hP hf hd h0 (Run.xreach h (fun i a ha => ?_) i)).1⟩
  exact ⟨fun e => hc i (by rw [ha, e]), fun f e => hns i f (by rw [ha, e]), fun _ _ => trivial⟩

/-- C72 for such a reader and bounded storage, if nobody cancels and no buffer is longer than the
configured size and the declared length (C24). -/
theorem C72_reader_whole_resource_bounded_partial {F : Provider} {checks : Bool} {bufferSize : Nat}
    (hF : Sparing (some (Bnd.sizeFor bufferSize c.contentLength)) F) (hb : c.batchSize ≠ 0)
    (hbs : bufferSize ≠ 0) (hk : c.KeepsErrors) (hf : c.Accepts) {bytes : List Byte}
    (hd : ∀ n, c.contentLength = some n → n = bytes.length)
    {w0 : XSys asyncReadSource (bndStorage checks F.S)} (h0 : RStarts (bndProvider checks F bufferSize) c bytes w0)
    {r : Nat → XSys asyncReadSource (bndStorage checks F.S)} {act : Nat → Option (XAct asyncReadSource)}
    (h : XRun c (readerWorld false) w0 r act) (hw : XWorking r act)
    (hns : ∀ j f, act j ≠ some (.sys (.seek f))) (hc : ∀ j, act j ≠ some (.sys .cancel))
    (hm : ∀ j n, act j = some (.sys (.read n)) → n ≤ Bnd.sizeFor bufferSize c.contentLength)
    (hn : ∀ j n, act j = some (.sys (.read n)) → bytes.length + n < two64 - 1)
    (hread : Reading (fun i => (r i).sys) fun j n => act j = some (.sys (.read n))) :
    (∃ i, delivered (r i).sys.log = bytes) ∧ ∃ i, (r i).sys.spc = .ended := by
  have hno : ∀ i, ¬ ReadFailed (r i).sys.log := fun i =>
    (C76_reader_reads_succeed_bounded_partial hF hf hd h0 (Run.xreach h (fun i a ha =>
      ⟨fun e => hc i (by rw [ha, e]), fun f e => hns i f (by rw [ha, e]), fun n e => hm i n (by rw [ha, e])⟩) i)).1
  obtain ⟨⟨i, h1⟩, j, h2⟩ := C72_reader_reading_ends_bounded hF hb hbs hk hd h0 h hw hns hn hread
  exact ⟨⟨i, h1.resolve_left (hno i)⟩, j, h2.resolve_left (hno j)⟩

/-! ### Processes -/

theorem finishing_accepts {env : Proc.ProcEnv} (he : env.wait ≠ none) : (c.finishing env).Accepts := by
  unfold Cfg.Accepts
  cases hw : env.wait with
  | none => exact absurd hw he
  | some b => simp [Proc.procOnFinish, hw]

section
variable {os : Proc.Os} {cmds : List Proc.Command} {bytes : List Byte}

/-- C76 and C77 for a pipeline of processes whose output is read without errors, with a
declared length that is right or absent, and storage that keeps everything: whatever exit status
the processes have. -/
theorem C76_process_reads_succeed (hP : Unbounded c.contentLength P)
    (hd : ∀ n, c.contentLength = some n → n = bytes.length) {w0 w : PSys P.S}
    (h0 : PStarts P c os cmds bytes w0) (h : PReach c (readerWorld false) (PCalm anyLength) w0 w) :
    ¬ ReadFailed w.x.sys.log ∧ ∀ a b, Ev.seekRange a b ∉ w.x.sys.log := by
  obtain ⟨-, env, he, hx⟩ := preach_good h
  exact C76_reader_reads_succeed (c := c.finishing env) hP (finishing_accepts he) hd (h0.reader env) hx

/-- C76 and C77 for such a pipeline and bounded storage, if no buffer is longer than the configured
size and the declared length (C24). -/
theorem C76_process_reads_succeed_bounded_partial {F : Provider} {checks : Bool} {bufferSize : Nat}
    (hF : Sparing (some (Bnd.sizeFor bufferSize c.contentLength)) F)
    (hd : ∀ n, c.contentLength = some n → n = bytes.length) {w0 w : PSys (bndStorage checks F.S)}
    (h0 : PStarts (bndProvider checks F bufferSize) c os cmds bytes w0)
    (h : PReach c (readerWorld false) (PCalm (· ≤ Bnd.sizeFor bufferSize c.contentLength)) w0 w) :
    ¬ ReadFailed w.x.sys.log ∧ ∀ a b, Ev.seekRange a b ∉ w.x.sys.log := by
  obtain ⟨-, env, he, hx⟩ := preach_good h
  exact C76_reader_reads_succeed_bounded_partial (c := c.finishing env) hF (finishing_accepts he) hd
    (h0.reader env) hx

theorem Run.preachG {S : Storage} {W : World asyncReadSource} {G : PSys S → PAct → Prop} {w0 : PSys S}
    {r : Nat → PSys S} {act : Nat → Option PAct} (h : PRun c W w0 r act)
    (hG : ∀ i a, act i = some a → G (r i) a) (i : Nat) : PReach c W G w0 (r i) := by
  induction i with
  | zero => rw [h.run.start]; exact .refl
  | succ i ih =>
    cases ha : act i with
    | none => rw [h.run.pause i ha]; exact ih
    | some a => exact ih.step (h.world i a ha) (hG i a ha) (h.run.next i a ha)

/-- C72 for such a pipeline, if nobody cancels and the calls to the operating system succeed: a
consumer that reads to the end receives everything that the last process wrote. -/
theorem C72_process_whole_resource (hP : Unbounded c.contentLength P) (hb : c.batchSize ≠ 0)
    (hd : ∀ n, c.contentLength = some n → n = bytes.length) {w0 : PSys P.S}
    (h0 : PStarts P c os cmds bytes w0) {r : Nat → PSys P.S} {act : Nat → Option PAct}
    (h : PRun c (readerWorld false) w0 r act) (hw : PWorking r act)
    (hns : ∀ j f, act j ≠ some (.x (.sys (.seek f)))) (hc : ∀ j, act j ≠ some (.x (.sys .cancel)))
    (hos : ∀ j, act j ≠ some (.finish false))
    (hn : ∀ j n, act j = some (.x (.sys (.read n))) → bytes.length + n < two64 - 1)
    (hread : Reading (fun i => (r i).x.sys) fun j n => act j = some (.x (.sys (.read n)))) :
    ∃ i, delivered (r i).x.sys.log = bytes := by
  obtain ⟨i, hi⟩ := C72_process_reading_ends hP hb hd h0 h hw hns hn hread
  refine ⟨i, hi.resolve_left (C76_process_reads_succeed hP hd h0 (Run.preachG h (fun i a ha => ?_) i)).1⟩
  exact ⟨fun e => hc i (by rw [ha, e]), fun f e => hns i f (by rw [ha, e]), fun _ _ => trivial,
    fun e => hos i (by rw [ha, e])⟩

/-- C72 for such a pipeline and bounded storage, if moreover no buffer is longer than the
configured size and the declared length (C24): the download ends, and the end of the last process
has been collected. -/
theorem C72_process_whole_resource_bounded_partial {F : Provider} {checks : Bool} {bufferSize : Nat}
    (hF : Sparing (some (Bnd.sizeFor bufferSize c.contentLength)) F) (hb : c.batchSize ≠ 0)
    (hbs : bufferSize ≠ 0) (hd : ∀ n, c.contentLength = some n → n = bytes.length)
    {w0 : PSys (bndStorage checks F.S)} (h0 : PStarts (bndProvider checks F bufferSize) c os cmds bytes w0)
    {r : Nat → PSys (bndStorage checks F.S)} {act : Nat → Option PAct}
    (h : PRun c (readerWorld false) w0 r act) (hw : PWorking r act)
    (hns : ∀ j f, act j ≠ some (.x (.sys (.seek f)))) (hc : ∀ j, act j ≠ some (.x (.sys .cancel)))
    (hos : ∀ j, act j ≠ some (.finish false))
    (hm : ∀ j n, act j = some (.x (.sys (.read n))) → n ≤ Bnd.sizeFor bufferSize c.contentLength)
    (hn : ∀ j n, act j = some (.x (.sys (.read n))) → bytes.length + n < two64 - 1)
    (hread : Reading (fun i => (r i).x.sys) fun j n => act j = some (.x (.sys (.read n)))) :
    (∃ i, delivered (r i).x.sys.log = bytes) ∧ ∃ i, (r i).x.sys.spc = .ended ∧ (r i).last.reaped = true := by
  have hno : ∀ i, ¬ ReadFailed (r i).x.sys.log := fun i =>
    (C76_process_reads_succeed_bounded_partial hF hd h0 (Run.preachG h (fun i a ha =>
      ⟨fun e => hc i (by rw [ha, e]), fun f e => hns i f (by rw [ha, e]), fun n e => hm i n (by rw [ha, e]),
        fun e => hos i (by rw [ha, e])⟩) i)).1
  obtain ⟨⟨i, h1⟩, j, h2⟩ := C72_process_reading_ends_bounded hF hb hbs hd h0 h hw hns hn hread
  exact ⟨⟨i, h1.resolve_left (hno i)⟩, j, h2.resolve_left (hno j)⟩

end

/-! ### Histories that meet the hypotheses

They are those of C72; their states are reachable in the sense of C76 (`Run.hreach`, `Run.xreach`,
`Run.preachG`). -/

section
variable {W A B : Type} {st : W → A → Option W} {g : W → B → Bool} {f : W → B → A}

theorem absent_trace {ev : B → Option Act} {w0 : W} {bs : List B} {a : A} {x : Act}
    (hf : ∀ w b, f w b = a → ev b = some x) (h : (bs.all fun b => decide (ev b ≠ some x)) = true) (j : Nat) :
    traceAct st g f w0 bs j ≠ some a := by
  intro e
  obtain ⟨b, h1, -, h2, -⟩ := traceAct_some e
  rw [List.all_eq_true] at h
  exact of_decide_eq_true (h b (List.mem_of_getElem? h1)) (hf _ _ h2.symm)

/-- No buffer is longer than `limit`. -/
def smallReads (ev : B → Option Act) (limit : Nat) (bs : List B) : Bool :=
  bs.all fun b => match ev b with | some (.read n) => decide (n ≤ limit) | _ => true

theorem small_trace {ev : B → Option Act} {w0 : W} {bs : List B}
    {rd : Nat → A} (hf : ∀ w b k, f w b = rd k → ev b = some (.read k)) {limit : Nat}
    (h : smallReads ev limit bs = true)
    (j n : Nat) (e : traceAct st g f w0 bs j = some (rd n)) : n ≤ limit := by
  obtain ⟨b, h1, -, h2, -⟩ := traceAct_some e
  have h3 := hf _ _ _ h2.symm
  simp only [smallReads, List.all_eq_true] at h
  have := h _ (List.mem_of_getElem? h1)
  rw [h3] at this
  simpa using this

end

theorem toHAct_cancel {answer : Answer} (b : Act) (h : toHAct answer b = .sys .cancel) : some b = some .cancel := by
  cases b <;> simp [toHAct] at h
  rfl

theorem toOAct_cancel {S : Storage} {object : List Byte} (w : XSys opendalSource S) (b : Act)
    (h : toOAct object w b = .sys .cancel) : some b = some .cancel := by
  cases b <;> simp [toOAct] at h
  rfl

theorem toRAct_cancel {S : Storage} (w : XSys asyncReadSource S) (b : Act)
    (h : toRAct w b = .sys .cancel) : some b = some .cancel := by
  cases b <;> simp [toRAct] at h
  rfl

theorem toPAct_cancel {S : Storage} (w : PSys S) (b : PEvent)
    (h : b.toPAct w = .x (.sys .cancel)) : b.ev = some .cancel := by
  cases b with
  | act a => exact toRAct_cancel w.x a (by simpa [PEvent.toPAct] using h)
  | _ => cases h

theorem toPAct_finish {S : Storage} {g : PSys S → PEvent → Bool} {w0 : PSys S} {bs : List PEvent}
    (h : (bs.all fun b => match b with | .finish false => false | _ => true) = true) (j : Nat) :
    traceAct (pstep c) g PEvent.toPAct w0 bs j ≠ some (.finish false) := by
  intro e
  obtain ⟨b, h1, -, h2, -⟩ := traceAct_some e
  rw [List.all_eq_true] at h
  have h3 := h b (List.mem_of_getElem? h1)
  cases b with
  | finish ok => cases ok <;> simp_all [PEvent.toPAct]
  | _ => simp [PEvent.toPAct] at h2

/-- The hypotheses of the theorems about HTTP without seeks: 20 bytes, an error, a stall and a
reconnect at 2; the consumer reads to the end. -/
example : ∃ (w0 : HSys memStorage) (r : Nat → HSys memStorage) (act : Nat → Option HAct),
    HStarts memProvider cfg20 (fun _ => none) (server20 headers20) w0 ∧
      HRun cfg20 (RangeServer bytes20) w0 r act ∧ HWorking r act ∧ WholeBodies r act ∧
      (∀ j f, act j ≠ some (.sys (.seek f))) ∧
      (∀ j, act j ≠ some (.sys .cancel)) ∧
      (∀ j n, act j = some (.sys (.read n)) → bytes20.length + n < two64 - 1) ∧
      (Reading (fun i => (r i).sys) fun j n => act j = some (.sys (.read n))) ∧
      (r 100).sys.spc = .ended ∧ delivered (r 100).sys.log = bytes20 := by
  let w0 : HSys memStorage := { sys := init cfg20 demoMem20, http := stream20 headers20 (some 20) }
  let bs : List Act := [.read 8] ++ rdrs 3 ++ [.chunk 2] ++ srcs 8 ++ [.chunkErr, .timeout, .reconnOk 0, .chunk 10] ++
    srcs 10 ++ rdrs 8 ++ [.read 8] ++ rdrs 3 ++ [.chunk 8] ++ srcs 10 ++ rdrs 8 ++ [.read 8] ++ rdrs 9 ++ [.eof] ++
    srcs 9 ++ rdrs 9
  obtain ⟨h1, h2, h3⟩ := hrun_trace (c := cfg20) headers20_ok (g := wholeB) (fun _ _ h => h) (w0 := w0) (bs := bs)
    (by decide +kernel)
  refine ⟨w0, _, _, ⟨server20_new (by decide +kernel), rfl, rfl, rfl, demoMem20, rfl, rfl⟩, h1, h2, h3,
    seekless_trace (ev := some) (fun _ => toHAct_seek) (by decide +kernel),
    absent_trace (ev := some) (fun _ => toHAct_cancel) (by decide +kernel),
    short_trace (ev := some) (fun _ => toHAct_read) (by decide +kernel),
    reading_trace (ev := some) (fun _ _ _ h => by cases h; rfl) (by decide +kernel), by decide +kernel, by decide +kernel⟩

/-- The hypotheses of the theorem about HTTP and bounded storage: 20 bytes through a buffer of
10. -/
example : ∃ (w0 : HSys (bndStorage true memStorage)) (r : Nat → HSys (bndStorage true memStorage))
    (act : Nat → Option HAct),
    HStarts (bndProvider true memProvider 10) cfgB20 (fun _ => none) (server20 headers20) w0 ∧
      HRun cfgB20 (RangeServer bytes20) w0 r act ∧ HWorking r act ∧ WholeBodies r act ∧
      (∀ i a, act i = some a → HClean (r i) a) ∧ (∀ j f, act j ≠ some (.sys (.seek f))) ∧
      (∀ j, act j ≠ some (.sys .cancel)) ∧
      (∀ j n, act j = some (.sys (.read n)) → n ≤ Bnd.sizeFor 10 cfgB20.contentLength) ∧
      (∀ j n, act j = some (.sys (.read n)) → bytes20.length + n < two64 - 1) ∧
      (Reading (fun i => (r i).sys) fun j n => act j = some (.sys (.read n))) ∧
      (r 120).sys.spc = .ended ∧ delivered (r 120).sys.log = bytes20 := by
  let w0 : HSys (bndStorage true memStorage) :=
    { sys := init cfgB20 demoBnd10, http := stream20 headers20 (some 20) }
  let bs : List Act := [.read 8] ++ rdrs 3 ++ [.chunk 2] ++ srcs 8 ++ [.chunkErr, .timeout, .reconnOk 0, .chunk 10] ++
    srcs 10 ++ rdrs 8 ++ [.read 8] ++ rdrs 3 ++ srcs 10 ++ [.chunk 8] ++ srcs 10 ++ rdrs 8 ++ [.read 8] ++ rdrs 9 ++
    srcs 10 ++ [.eof] ++ srcs 9 ++ rdrs 9
  obtain ⟨h1, h2, h3⟩ := hrun_trace (c := cfgB20) headers20_ok (g := fun w a => wholeB w a && hguardB w a)
    (fun _ _ h => ((Bool.and_eq_true _ _).mp h).1) (w0 := w0) (bs := bs) (by decide +kernel)
  refine ⟨w0, _, _, ⟨server20_new (by decide +kernel), rfl, rfl, rfl, demoBnd10, rfl, rfl⟩, h1, h2, h3,
    guard_trace (fun w b h => (hguard_of ((Bool.and_eq_true _ _).mp h).2).2),
    seekless_trace (ev := some) (fun _ => toHAct_seek) (by decide +kernel),
    absent_trace (ev := some) (fun _ => toHAct_cancel) (by decide +kernel),
    small_trace (ev := some) (fun _ => toHAct_read) (by decide +kernel),
    short_trace (ev := some) (fun _ => toHAct_read) (by decide +kernel),
    reading_trace (ev := some) (fun _ _ _ h => by cases h; rfl) (by decide +kernel), by decide +kernel, by decide +kernel⟩

/-- The hypotheses of the theorems about OpenDAL and storage that keeps everything: an error and a
new reader. -/
example : ∃ (w0 : XSys opendalSource memStorage) (r : Nat → XSys opendalSource memStorage)
    (act : Nat → Option (XAct opendalSource)), OStarts memProvider cfg20 bytes20 w0 ∧
      XRun cfg20 (storeWorld bytes20) w0 r act ∧ XWorking r act ∧ (∀ j f, act j ≠ some (.sys (.seek f))) ∧
      (∀ j, act j ≠ some (.sys .cancel)) ∧
      (∀ j n, act j = some (.sys (.read n)) → bytes20.length + n < two64 - 1) ∧
      (Reading (fun i => (r i).sys) fun j n => act j = some (.sys (.read n))) ∧
      (r 4).sys.rpc = .rWait 8 8 ∧ (r 120).sys.spc = .ended ∧ delivered (r 120).sys.log = bytes20 := by
  let w0 : XSys opendalSource memStorage := { sys := init cfg20 demoMem20, src := objStream bytes20 }
  let bs : List Act := [.read 8] ++ rdrs 3 ++ [.chunk 2] ++ srcs 8 ++ [.chunkErr, .timeout, .reconnOk 0, .chunk 6] ++
    srcs 10 ++ rdrs 8 ++ [.read 8] ++ rdrs 3 ++ [.chunk 8] ++ srcs 10 ++ rdrs 8 ++ [.read 8] ++ rdrs 9 ++ [.chunk 4] ++
    srcs 10 ++ [.eof] ++ srcs 9 ++ rdrs 9
  obtain ⟨h1, h2⟩ := xrun_trace (c := cfg20) (W := storeWorld bytes20) (f := toOAct bytes20) (g := okO)
    (fun _ _ h => okO_of h) (w0 := w0) (bs := bs) (by decide +kernel)
  refine ⟨w0, _, _, ⟨⟨fun n => n, 8, fun n => Nat.le_refl n, by decide, rfl, rfl⟩, rfl, rfl, demoMem20, rfl, rfl⟩,
    h1, h2, seekless_trace (ev := some) toOAct_seek (by decide +kernel),
    absent_trace (ev := some) toOAct_cancel (by decide +kernel),
    short_trace (ev := some) toOAct_read (by decide +kernel),
    reading_trace (ev := some) (fun _ _ _ h => by cases h; rfl) (by decide +kernel), by decide +kernel, by decide +kernel, by decide +kernel⟩

/-- The hypotheses of the theorem about OpenDAL and bounded storage. -/
example : ∃ (w0 : XSys opendalSource (bndStorage true memStorage))
    (r : Nat → XSys opendalSource (bndStorage true memStorage)) (act : Nat → Option (XAct opendalSource)),
      OStarts (bndProvider true memProvider 10) cfgB20 bytes20 w0 ∧
      XRun cfgB20 (storeWorld bytes20) w0 r act ∧ XWorking r act ∧
      (∀ i a, act i = some a → XClean (r i) a) ∧ (∀ j f, act j ≠ some (.sys (.seek f))) ∧
      (∀ j, act j ≠ some (.sys .cancel)) ∧
      (∀ j n, act j = some (.sys (.read n)) → n ≤ Bnd.sizeFor 10 cfgB20.contentLength) ∧
      (∀ j n, act j = some (.sys (.read n)) → bytes20.length + n < two64 - 1) ∧
      (Reading (fun i => (r i).sys) fun j n => act j = some (.sys (.read n))) ∧
      (r 130).sys.spc = .ended ∧ delivered (r 130).sys.log = bytes20 := by
  let w0 : XSys opendalSource (bndStorage true memStorage) :=
    { sys := init cfgB20 demoBnd10, src := objStream bytes20 }
  let bs : List Act := [.read 8] ++ rdrs 3 ++ [.chunk 2] ++ srcs 8 ++ [.chunkErr, .timeout, .reconnOk 0, .chunk 6] ++
    srcs 10 ++ rdrs 8 ++ [.read 8] ++ rdrs 3 ++ [.chunk 8] ++ srcs 10 ++ rdrs 8 ++ [.read 8] ++ rdrs 9 ++ [.chunk 4] ++
    srcs 10 ++ [.eof] ++ srcs 9 ++ rdrs 9
  obtain ⟨h1, h2⟩ := xrun_trace (c := cfgB20) (W := storeWorld bytes20) (f := toOAct bytes20)
    (g := fun w a => okO w a && (cleanB w.sys a && decide (a ≠ .reconnFail)))
    (fun _ _ h => okO_of ((Bool.and_eq_true _ _).mp h).1) (w0 := w0) (bs := bs) (by decide +kernel)
  refine ⟨w0, _, _, ⟨⟨fun n => n, 8, fun n => Nat.le_refl n, by decide, rfl, rfl⟩, rfl, rfl, demoBnd10, rfl, rfl⟩,
    h1, h2, guard_trace (fun w b h => ?_), seekless_trace (ev := some) toOAct_seek (by decide +kernel),
    absent_trace (ev := some) toOAct_cancel (by decide +kernel),
    small_trace (ev := some) toOAct_read (by decide +kernel),
    short_trace (ev := some) toOAct_read (by decide +kernel),
    reading_trace (ev := some) (fun _ _ _ h => by cases h; rfl) (by decide +kernel), by decide +kernel, by decide +kernel⟩
  · rw [Bool.and_eq_true, Bool.and_eq_true] at h
    exact toOAct_clean h.2.1 (of_decide_eq_true h.2.2)

/-- The hypotheses of the theorems about readers: 10 bytes of unknown length into a file. -/
example : ∃ (w0 : XSys asyncReadSource tmpStorage) (r : Nat → XSys asyncReadSource tmpStorage)
    (act : Nat → Option (XAct asyncReadSource)), RStarts tmpProvider cfgOpen bytes10 w0 ∧
      XRun cfgOpen (readerWorld false) w0 r act ∧ XWorking r act ∧ (∀ j f, act j ≠ some (.sys (.seek f))) ∧
      (∀ j, act j ≠ some (.sys .cancel)) ∧
      (∀ j n, act j = some (.sys (.read n)) → bytes10.length + n < two64 - 1) ∧
      (Reading (fun i => (r i).sys) fun j n => act j = some (.sys (.read n))) ∧
      (r 4).sys.rpc = .rWait 6 6 ∧ (r 100).sys.spc = .ended ∧ delivered (r 100).sys.log = bytes10 := by
  let w0 : XSys asyncReadSource tmpStorage :=
    { sys := init cfgOpen { file := [], wp := 0, fp := 0, rbuf := [] }, src := asyncReadNew bytes10 none }
  let bs : List Act := [.read 6] ++ rdrs 3 ++ [.chunk 4] ++ srcs 9 ++ [.chunk 4] ++ srcs 9 ++ rdrs 9 ++ [.read 6] ++
    rdrs 3 ++ [.chunk 2] ++ srcs 9 ++ [.eof] ++ srcs 9 ++ rdrs 9
  obtain ⟨h1, h2⟩ := xrun_trace (c := cfgOpen) (W := readerWorld false) (f := toRAct) (g := okR false)
    (fun _ _ h => okR_of h) (w0 := w0) (bs := bs) (by decide +kernel)
  refine ⟨w0, _, _, ⟨rfl, rfl, rfl, _, rfl, rfl⟩, h1, h2, seekless_trace (ev := some) toRAct_seek (by decide +kernel),
    absent_trace (ev := some) toRAct_cancel (by decide +kernel),
    short_trace (ev := some) toRAct_read (by decide +kernel), reading_trace (ev := some) (fun _ _ _ h => by cases h; rfl) (by decide +kernel),
    by decide +kernel, by decide +kernel, by decide +kernel⟩

/-- The hypotheses of the theorem about readers and bounded storage. -/
example : ∃ (w0 : XSys asyncReadSource (bndStorage true memStorage))
    (r : Nat → XSys asyncReadSource (bndStorage true memStorage)) (act : Nat → Option (XAct asyncReadSource)),
      RStarts (bndProvider true memProvider 4) cfgOpen4 bytes10 w0 ∧
      XRun cfgOpen4 (readerWorld false) w0 r act ∧ XWorking r act ∧ (∀ j f, act j ≠ some (.sys (.seek f))) ∧
      (∀ j, act j ≠ some (.sys .cancel)) ∧
      (∀ j n, act j = some (.sys (.read n)) → n ≤ Bnd.sizeFor 4 cfgOpen4.contentLength) ∧
      (∀ j n, act j = some (.sys (.read n)) → bytes10.length + n < two64 - 1) ∧
      (Reading (fun i => (r i).sys) fun j n => act j = some (.sys (.read n))) ∧
      (r 120).sys.spc = .ended ∧ delivered (r 120).sys.log = bytes10 := by
  let w0 : XSys asyncReadSource (bndStorage true memStorage) :=
    { sys := init cfgOpen4 demoBnd4, src := asyncReadNew bytes10 none }
  let bs : List Act := [.chunk 4] ++ srcs 9 ++ [.read 4] ++ rdrs 5 ++ [.chunk 4] ++ srcs 9 ++ [.read 4] ++ rdrs 6 ++
    [.chunk 2] ++ srcs 9 ++ [.eof] ++ srcs 9 ++ [.read 4] ++ rdrs 9
  obtain ⟨h1, h2⟩ := xrun_trace (c := cfgOpen4) (W := readerWorld false) (f := toRAct) (g := okR false)
    (fun _ _ h => okR_of h) (w0 := w0) (bs := bs) (by decide +kernel)
  refine ⟨w0, _, _, ⟨rfl, rfl, rfl, _, rfl, rfl⟩, h1, h2, seekless_trace (ev := some) toRAct_seek (by decide +kernel),
    absent_trace (ev := some) toRAct_cancel (by decide +kernel),
    small_trace (ev := some) toRAct_read (by decide +kernel),
    short_trace (ev := some) toRAct_read (by decide +kernel), reading_trace (ev := some) (fun _ _ _ h => by cases h; rfl) (by decide +kernel),
    by decide +kernel, by decide +kernel⟩

/-- The hypotheses of the theorems about processes: the second of two commands writes ten bytes
and ends, the consumer reads to the end. -/
example : ∃ (w0 : PSys tmpStorage) (r : Nat → PSys tmpStorage) (act : Nat → Option PAct),
    PStarts tmpProvider cfgOpen goodOs twoCmds bytes10 w0 ∧ PRun cfgOpen (readerWorld false) w0 r act ∧
      PWorking r act ∧ (∀ j f, act j ≠ some (.x (.sys (.seek f)))) ∧
      (∀ j, act j ≠ some (.x (.sys .cancel))) ∧ (∀ j, act j ≠ some (.finish false)) ∧
      (∀ j n, act j = some (.x (.sys (.read n))) → bytes10.length + n < two64 - 1) ∧
      (Reading (fun i => (r i).x.sys) fun j n => act j = some (.x (.sys (.read n)))) ∧
      (r 4).x.sys.rpc = .rWait 6 6 ∧ (r 100).x.sys.spc = .ended ∧ delivered (r 100).x.sys.log = bytes10 := by
  let bs : List PEvent := acts ([.read 6] ++ rdrs 3 ++ [.chunk 4] ++ srcs 9 ++ [.chunk 4] ++ srcs 9 ++ rdrs 9 ++
    [.read 6] ++ rdrs 3 ++ [.chunk 2] ++ srcs 9 ++ [.eof] ++ srcs 9) ++ [.exit true, .finish true] ++ acts (srcs 4 ++
    rdrs 9)
  obtain ⟨h1, h2⟩ := prun_trace (c := cfgOpen) (w0 := procWorld) (bs := bs) (by decide +kernel)
  refine ⟨procWorld, _, _, procWorld_starts, h1, h2, seekless_trace toPAct_seek (by decide +kernel),
    absent_trace (ev := PEvent.ev) toPAct_cancel (by decide +kernel), toPAct_finish (by decide +kernel),
    short_trace toPAct_read (by decide +kernel),
    reading_trace (ev := PEvent.ev) (sys := fun w : PSys tmpStorage => w.x.sys) (fun w b n h => ?_) (by decide +kernel),
    by decide +kernel, by decide +kernel, by decide +kernel⟩
  · cases b <;> simp [PEvent.ev] at h
    rw [h]; rfl

/-- The same through a buffer of 4. -/
example : ∃ (w0 : PSys (bndStorage true memStorage)) (r : Nat → PSys (bndStorage true memStorage))
    (act : Nat → Option PAct),
    PStarts (bndProvider true memProvider 4) cfgOpen4 goodOs twoCmds bytes10 w0 ∧
      PRun cfgOpen4 (readerWorld false) w0 r act ∧
      PWorking r act ∧ (∀ j f, act j ≠ some (.x (.sys (.seek f)))) ∧
      (∀ j, act j ≠ some (.x (.sys .cancel))) ∧ (∀ j, act j ≠ some (.finish false)) ∧
      (∀ j n, act j = some (.x (.sys (.read n))) → n ≤ Bnd.sizeFor 4 cfgOpen4.contentLength) ∧
      (∀ j n, act j = some (.x (.sys (.read n))) → bytes10.length + n < two64 - 1) ∧
      (Reading (fun i => (r i).x.sys) fun j n => act j = some (.x (.sys (.read n)))) ∧
      (r 120).x.sys.spc = .ended ∧ delivered (r 120).x.sys.log = bytes10 := by
  let w0 : PSys (bndStorage true memStorage) :=
    { x := { sys := init cfgOpen4 demoBnd4, src := asyncReadNew bytes10 none }, early := [.started], last := .started }
  let bs : List PEvent := acts ([.chunk 4] ++ srcs 9 ++ [.read 4] ++ rdrs 5 ++ [.chunk 4] ++ srcs 9 ++ [.read 4] ++
    rdrs 6 ++ [.chunk 2] ++ srcs 9 ++ [.eof] ++ srcs 9) ++ [.exit true, .finish true] ++ acts (srcs 4 ++ [.read 4] ++
    rdrs 9)
  obtain ⟨h1, h2⟩ := prun_trace (c := cfgOpen4) (w0 := w0) (bs := bs) (by decide +kernel)
  refine ⟨w0, _, _, ⟨⟨1, _, rfl, rfl, rfl⟩, rfl, rfl, rfl, _, rfl, rfl⟩, h1, h2,
    seekless_trace toPAct_seek (by decide +kernel),
    absent_trace (ev := PEvent.ev) toPAct_cancel (by decide +kernel), toPAct_finish (by decide +kernel),
    small_trace (ev := PEvent.ev) toPAct_read (by decide +kernel),
    short_trace toPAct_read (by decide +kernel),
    reading_trace (ev := PEvent.ev) (sys := fun w : PSys (bndStorage true memStorage) => w.x.sys)
      (fun w b n h => ?_) (by decide +kernel),
    by decide +kernel, by decide +kernel⟩
  · cases b <;> simp [PEvent.ev] at h
    rw [h]; rfl

end SD
