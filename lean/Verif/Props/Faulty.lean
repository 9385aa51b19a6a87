import Verif.Proof.Faulty
import Verif.Props.Finish

/-!
# Property C78: storage that fails

The storage may fail at any time: `f` says which reads, writes and seeks do, and how
(`Verif/Model/Faulty.lean`).
-/

set_option linter.unusedVariables false

namespace SD

/-- What is true of all states of a history may be assumed of every step. -/
theorem Reach.also {S : Storage} {c : Cfg} {G : Sys S → Act → Prop} {I : Sys S → Prop} {s0 s : Sys S}
    (hI : ∀ s, Reach c G s0 s → I s) (h : Reach c G s0 s) : Reach c (fun s a => G s a ∧ I s) s0 s := by
  induction h with
  | refl => exact .refl
  | @step s s' a hr hg hs ih => exact ih.step ⟨hg, hI s hr⟩ hs

/-- Without seeks, there is nothing to fail. -/
theorem noSeek_works {S : Storage} {full : Bool} {L : Lawful S full} {c : Cfg} {G : Sys S → Act → Prop} :
    SeekWorks c L (fun s a => G s a ∧ s.rpc.target = none) := by
  intro s W a p hg _ _ hp
  have := hg.2
  rw [hp] at this
  cases this

theorem noSeek_also {P : Provider} {c : Cfg} {G : Sys P.S → Act → Prop} (hG : ∀ s a, G s a → NoSeek s a)
    {s0 s : Sys P.S} (h0 : Starts P c s0) (h : Reach c G s0 s) :
    Reach c (fun s a => G s a ∧ s.rpc.target = none) s0 s := by
  refine Reach.also (fun s hr => ?_) h
  obtain ⟨-, st, -, rfl⟩ := h0
  exact (noSeek_reach hG hr).1

variable {P : Provider} {c : Cfg} {f : Faults}

theorem noSure (f : Faults) : false = true → ∀ i, f.seek i = none := fun h => by cases h

/-! ### What reads return -/

/-- C78, sequential reads, for storage that keeps everything: whatever fails, what the reads
that succeed return is, put together, a prefix of the resource.  Nothing is lost or repeated when a
read that failed is repeated.  Missing, as in C01: sources that cannot seek and end before their
declared length. -/
theorem C78_sequential_unbounded_partial (hP : Unbounded c.contentLength P) (hb : c.batchSize ≠ 0)
    (hlen : c.LengthHonest) (hk : c.KeepsErrors) {s0 s : Sys (faulty P.S)}
    (h0 : Starts (faultyProvider f P) c s0)
    (h : Reach c (fun s a => Honest s a ∧ NoSeek s a ∧ Delivers c s a) s0 s) :
    delivered s.log = slice c.remote 0 (delivered s.log).length := by
  obtain ⟨LP, hTot, -⟩ := keeps_lawful hP
  obtain ⟨PP⟩ := keeps_positional hP
  have hfw : ∀ s a, NoSeek (S := faulty P.S) s a → Connected c s a := fun s a hn f p hf => absurd hf (hn f)
  have h1 := (fwd_log (faultyLawfulProvider false f (noSure f) LP) noSeek_works hb hlen hk
    (fun s a hg => ⟨hg.1.1, fun _ => hg.1.2.2, fun _ => hfw s a hg.1.2.1⟩) h0
    (noSeek_also (P := faultyProvider f P) (fun _ _ hg => hg.2.1) h0 h)).2
  have h2 := (PosInv.reach (faultyPositionalProvider f PP) h0 h).rule
  have h3 := h0
  obtain ⟨-, st, -, rfl⟩ := h3
  have h4 := (noSeek_reach (fun _ _ hg => hg.2.1) h).2
  exact (delivered_exact (readsExact_of_rule (h1.mono fun _ _ => readRule_exact)) h2 h4).2

/-- The same for storage that starts with nothing to read; no restriction on where the transport
ends. -/
theorem C78_sequential_blank (hP : Blank c.contentLength P) (hb : c.batchSize ≠ 0)
    (hlen : c.LengthHonest) (hk : c.KeepsErrors) {s0 s : Sys (faulty P.S)}
    (h0 : Starts (faultyProvider f P) c s0) (h : Reach c (fun s a => Honest s a ∧ NoSeek s a) s0 s) :
    delivered s.log = slice c.remote 0 (delivered s.log).length := by
  obtain ⟨LP, hTot, -, hE⟩ := keeps_lawful hP
  obtain ⟨PP⟩ := keeps_positional hP
  have hfw : ∀ s a, NoSeek (S := faulty P.S) s a → Connected c s a := fun s a hn f p hf => absurd hf (hn f)
  have h1 := (fwd_log (faultyLawfulProvider false f (noSure f) LP) noSeek_works hb hlen hk
    (fun s a hg => ⟨hg.1.1, fun hne => absurd (faulty_empty (hE rfl)) hne, fun _ => hfw s a hg.1.2⟩) h0
    (noSeek_also (P := faultyProvider f P) (fun _ _ hg => hg.2) h0 h)).2
  have h2 := (PosInv.reach (faultyPositionalProvider f PP) h0 h).rule
  have h3 := h0
  obtain ⟨-, st, -, rfl⟩ := h3
  have h4 := (noSeek_reach (fun _ _ hg => hg.2) h).2
  exact (delivered_exact (readsExact_of_rule (h1.mono fun _ _ => readRule_exact)) h2 h4).2

/-- The same for storage that keeps a window. -/
theorem C78_sequential_bounded (hP : Windowed c.contentLength P) {s0 s : Sys (faulty P.S)}
    (h0 : Starts (faultyProvider f P) c s0)
    (h : Reach c (fun s a => Honest s a ∧ NoSeek s a ∧ CleanReconnect s a) s0 s) :
    delivered s.log = slice c.remote 0 (delivered s.log).length := by
  obtain ⟨LP⟩ := windowed_lawful hP
  obtain ⟨PP⟩ := windowed_positional hP
  have h1 := (win_log (faultyLawfulProvider false f (noSure f) LP)
    (fun s a hg => ⟨hg.1, hg.2.2, fun _ => hg.2.1⟩) h0 h).2
  have h2 := (PosInv.reach (faultyPositionalProvider f PP) h0 h).rule
  have h3 := h0
  obtain ⟨-, st, -, rfl⟩ := h3
  have h4 := (noSeek_reach (fun _ _ hg => hg.2.1) h).2
  exact (delivered_exact (readsExact_of_rule h1) h2 h4).2

/-- C78, reading to the end, for storage that keeps everything: a failure never looks like the end of
the stream.  Once a read has returned fewer bytes than asked for, the reads have together returned
the whole resource. -/
theorem C78_read_to_end_unbounded (hP : Unbounded c.contentLength P) (hb : c.batchSize ≠ 0)
    (hk : c.KeepsErrors) {N : Nat} (hN : c.contentLength = some N) (hm : c.remoteLen = some N)
    {s0 s : Sys (faulty P.S)} (h0 : Starts (faultyProvider f P) c s0)
    (h : Reach c (fun s a => Honest s a ∧ NoSeek s a ∧ Delivers c s a) s0 s)
    {later earlier : List Ev} {pos len : Nat} {fast : Bool} {bs : List Byte}
    (hl : s.log = later ++ .readRet pos len fast (.ok bs) :: earlier) (hlt : bs.length < len) :
    delivered (.readRet pos len fast (.ok bs) :: earlier) = slice c.remote 0 N ∧
      delivered s.log = slice c.remote 0 N := by
  have hlen : c.LengthHonest := fun n hn => ⟨N, hm, by rw [hN] at hn; cases hn; exact Nat.le_refl _⟩
  have hfw : ∀ s a, NoSeek (S := faulty P.S) s a → Connected c s a := fun s a hn f p hf => absurd hf (hn f)
  obtain ⟨LP, hTot, hE, -⟩ := keeps_lawful hP
  obtain ⟨PP⟩ := keeps_positional hP
  have h' := noSeek_also (P := faultyProvider f P) (fun _ _ hg => hg.2.1) h0 h
  have hshort := (((whole_log (faultyLawfulProvider false f (noSure f) LP) noSeek_works hb hlen hk hN
    (fun s a hg => ⟨hg.1.1, hg.1.2.2, fun _ => hfw s a hg.1.2.1⟩) h0 h').2.split hl) hlt).resolve_right (hE rfl _ _)
  have hp := (PosInv.reach (faultyPositionalProvider f PP) h0 h).rule
  refine all_of_short hl (fun b => ?_) hp ?_ hshort
  · exact readsExact_of_rule (((fwd_log (c := c.beyond N b) (faultyLawfulProvider false f (noSure f) LP)
      noSeek_works hb hlen hk (fun s a hg => ⟨hg.1.1, fun _ => hg.1.2.2, fun _ => hfw s a hg.1.2.1⟩) h0
      (reach_beyond hm h')).2).mono fun _ _ => readRule_exact)
  · obtain ⟨-, st, -, rfl⟩ := h0
    exact (noSeek_reach (fun _ _ hg => hg.2.1) h).2

/-- The same for storage that keeps a window. -/
theorem C78_read_to_end_bounded_partial (hP : Windowed c.contentLength P)
    (hk : c.KeepsErrors) {N : Nat} (hN : c.contentLength = some N) (hm : c.remoteLen = some N)
    {s0 s : Sys (faulty P.S)} (h0 : Starts (faultyProvider f P) c s0)
    (h : Reach c (fun s a => Honest s a ∧ CleanReconnect s a ∧ NoSeek s a ∧ Delivers c s a) s0 s)
    {later earlier : List Ev} {pos len : Nat} {fast : Bool} {bs : List Byte}
    (hl : s.log = later ++ .readRet pos len fast (.ok bs) :: earlier) (hlt : bs.length < len) :
    delivered (.readRet pos len fast (.ok bs) :: earlier) = slice c.remote 0 N ∧
      delivered s.log = slice c.remote 0 N := by
  obtain ⟨LP⟩ := windowed_lawful hP
  obtain ⟨PP⟩ := windowed_positional hP
  have hshort := (((win_whole_log (faultyLawfulProvider false f (noSure f) LP) hk hN
    (fun s a hg => ⟨⟨hg.1, hg.2.1, fun _ => hg.2.2.1⟩,
      fun f p hf => absurd hf (hg.2.2.1 f), hg.2.2.2⟩) h0 h).2.split hl) hlt).resolve_right id
  have hp := (PosInv.reach (faultyPositionalProvider f PP) h0 h).rule
  refine all_of_short hl (fun b => ?_) hp ?_ hshort
  · exact readsExact_of_rule (win_log (c := c.beyond N b) (faultyLawfulProvider false f (noSure f) LP)
      (fun s a hg => ⟨hg.1, hg.2.1, fun _ => hg.2.2.1⟩) h0 (reach_beyond hm h)).2
  · obtain ⟨-, st, -, rfl⟩ := h0
    exact (noSeek_reach (fun _ _ hg => hg.2.2.1) h).2

/-- C78 for HTTP: with a server that serves ranges and declares the length, whatever fails in the
storage, once a read has returned fewer bytes than asked for the consumer has received exactly the
resource. -/
theorem C78_http_read_to_end_unbounded (hP : Unbounded c.contentLength P) (hb : c.batchSize ≠ 0)
    (hk : c.KeepsErrors) {N : Nat} (hN : c.contentLength = some N) {remote : List Byte}
    {mime : Text → Option (Text × Text)} {answer : Answer} (hA : RangeServer remote answer)
    {w0 w : HSys (faulty P.S)} (h0 : HStarts (faultyProvider f P) c mime answer w0)
    (h : HReach c (RangeServer remote) HNoSeek w0 w)
    {later earlier : List Ev} {pos len : Nat} {fast : Bool} {bs : List Byte}
    (hl : w.sys.log = later ++ .readRet pos len fast (.ok bs) :: earlier) (hlt : bs.length < len) :
    delivered (.readRet pos len fast (.ok bs) :: earlier) = remote ∧ delivered w.sys.log = remote := by
  have hi := HInv.starts hA h0
  obtain ⟨-, -, hss, hst⟩ := h0
  have hst' : Starts (faultyProvider f P) (c.on remote 0) w0.sys := hst
  obtain ⟨hR, -⟩ := hreach_sim (b := 0) (G' := NoSeek) (fun w a x hg hx f hf => by
      subst hf; cases hx; exact hg f rfl) hi
    (fun w a hR _ _ start e hp => by
      obtain ⟨-, st, -, hst2⟩ := hst'
      rw [hst2] at hR
      exact Or.inl (noSeek_ranges (hR.mono fun _ _ hg => hg.2) start e hp)) h
  have := C78_read_to_end_unbounded (c := c.on remote 0) hP hb hk hN
    (by rw [hi.real N hN]; rfl) hst'
    (hR.mono fun s a hg => ⟨hg.1, hg.2, fun _ hf => absurd hf (by
      rw [show (c.on remote 0).supportsSeek = c.supportsSeek from rfl, hss]; simp)⟩) hl hlt
  rw [hi.real N hN] at this
  have e : slice (c.on remote 0).remote 0 remote.length = remote := slice_getD remote 0
  rw [e] at this
  exact this

/-- C78, reads after seeks, for storage that keeps everything: with the restrictions of C03, and if on
a seekable source no seek of the storage's reader fails, every read that succeeds returns the
bytes of the resource, whatever else fails. -/
theorem C78_reads_after_seeks_partial (hP : Unbounded c.contentLength P) (hb : c.batchSize ≠ 0)
    (hlen : c.LengthHonest) (hk : c.KeepsErrors) (hf : c.supportsSeek = true → ∀ i, f.seek i = none)
    {s0 s : Sys (faulty P.S)} (h0 : Starts (faultyProvider f P) c s0)
    (h : Reach c (fun s a => Honest s a ∧ Delivers c s a ∧ (c.supportsSeek = true → Connected c s a)) s0 s) :
    ReadsExact c.remote s.log := by
  obtain ⟨LP, hTot, -⟩ := keeps_lawful hP
  have h1 := (fwd_log (faultyLawfulProvider c.supportsSeek f hf LP) (faulty_works hTot.toSeekTotal id) hb hlen hk
    (fun s a hg => ⟨hg.1, fun _ => hg.2.1, hg.2.2⟩) h0 h).2
  exact readsExact_of_rule (h1.mono fun _ _ => readRule_exact)

/-- The same for storage that keeps a window and sources that cannot seek: arbitrary seeks of the
consumer, any of which may fail. -/
theorem C78_reads_after_seeks_bounded_partial (hP : Windowed c.contentLength P)
    (hs : c.supportsSeek = false) {s0 s : Sys (faulty P.S)} (h0 : Starts (faultyProvider f P) c s0)
    (h : Reach c (fun s a => Honest s a ∧ CleanReconnect s a) s0 s) : ReadsExact c.remote s.log := by
  obtain ⟨LP⟩ := windowed_lawful hP
  have h1 := (win_log (faultyLawfulProvider false f (noSure f) LP)
    (fun s a hg => ⟨hg.1, hg.2, fun ht => absurd ht (by simp [hs])⟩) h0 h).2
  exact readsExact_of_rule h1

/-- A reader whose second seek fails. -/
def seekFault : Faults :=
  { read := fun _ => none, write := fun _ => none, wseek := fun _ => none
    seek := fun i => if i = 1 then some .other else none }

/-- C78 fails for a forward seek on a seekable source whose last step, moving the storage's reader,
fails.  The task has already jumped to 5.  The consumer learns that the seek failed, and reads from
where it is: 0.  The next chunk, written at 7, releases the read, which wants 2 to be reached: it
returns two zeros, nothing before 5 was ever downloaded. -/
theorem C78_reads_after_seeks_violated :
    ∃ s0 s : Sys (faulty memStorage), Starts (faultyProvider seekFault memProvider) demoCfg s0 ∧
      Reach demoCfg (fun s a => Honest s a ∧ Delivers demoCfg s a ∧ Connected demoCfg s a) s0 s ∧
      Ev.seekRet 5 (.err .other) ∈ s.log ∧ ¬ ReadsExact demoCfg.remote s.log := by
  have h := exists_of_runG (P := faultyProvider seekFault memProvider) (c := demoCfg)
    (g := fun s a => honestB s a && deliversB demoCfg s a && connectedB demoCfg s a)
    (G := fun s a => Honest s a ∧ Delivers demoCfg s a ∧ Connected demoCfg s a)
    (fun s a h => by
      rw [Bool.and_eq_true, Bool.and_eq_true] at h
      exact ⟨honest_of h.1.1, delivers_of h.1.2, connected_of h.2⟩)
    { st := demoMem10, faults := seekFault, calls := 0, ops := 0 }
    ([.seek (.start 5)] ++ rdrs 3 ++ [.recvSeek, .src, .seekOk 5, .chunk 1] ++ srcs 3 ++
      [.chunk 1] ++ srcs 8 ++ rdrs 3 ++ [.read 2] ++ rdrs 4 ++ [.chunk 1] ++ srcs 8 ++ rdrs 3)
    (fun s => decide (Ev.seekRet 5 (.err .other) ∈ s.log ∧ Ev.readRet 0 2 false (.ok [0, 0]) ∈ s.log)) rfl rfl
    (by decide +kernel)
  obtain ⟨s0, s, h1, h2, h3⟩ := h
  obtain ⟨h3, h4⟩ := of_decide_eq_true h3
  exact ⟨s0, s, h1, h2, h3, fun hre => absurd (hre 0 2 false [0, 0] h4) (by decide +kernel)⟩

/-- C78, in every history (any seeks, any of which may fail), for storage that keeps everything: a
read that did not have to wait fails, or returns exactly the bytes of the resource, all it asked for
up to the end of the resource. -/
theorem C78_unblocked_read_exact (hP : Unbounded c.contentLength P) (hb : c.batchSize ≠ 0)
    (hlen : c.LengthHonest) {s0 s : Sys (faulty P.S)} (h0 : Starts (faultyProvider f P) c s0)
    (h : Reach c Honest s0 s) {pos len : Nat} {bs : List Byte}
    (hr : Ev.readRet pos len true (.ok bs) ∈ s.log) :
    bs = slice c.remote pos (c.normalize (pos + len) - pos) := by
  obtain ⟨LP, hTot, hE, -⟩ := keeps_lawful hP
  have key : (∃ W, Full c (faultyLawfulProvider false f (noSure f) LP).law W s) ∧
      Always (fun e _ => ∀ pos len bs, e = .readRet pos len true (.ok bs) →
        bs = slice c.remote pos (c.normalize (pos + len) - pos)) s.log := by
    refine Reach.inv (P := fun s => (∃ W, Full c (faultyLawfulProvider false f (noSure f) LP).law W s) ∧
      Always (fun e _ => ∀ pos len bs, e = .readRet pos len true (.ok bs) →
        bs = slice c.remote pos (c.normalize (pos + len) - pos)) s.log) h ⟨⟨∅, Full.init _ h0⟩, ?_⟩ ?_
    · obtain ⟨-, st, -, rfl⟩ := h0; trivial
    · rintro s s' a ⟨⟨W, hW⟩, hl⟩ hg ht
      obtain ⟨W', -, h'⟩ := hW.step hb hlen hg ht
      refine ⟨⟨W', h'⟩, always_step ht hl ?_⟩
      rintro e he pos len bs rfl
      obtain ⟨h4, h5⟩ := hW.fast_read ht he
      rw [h5.resolve_right (hE rfl _ _)] at h4
      exact h4
  obtain ⟨-, l2, -, h2⟩ := key.2.mem hr
  exact h2 pos len bs rfl

/-! ### Nobody is left waiting -/

/-- C78: failures do not make the task panic; storage that keeps everything.  Missing, as in C39:
empty chunks. -/
theorem C78_no_panic_unbounded_partial (hP : Unbounded c.contentLength P) (hb : c.batchSize ≠ 0)
    {s0 s : Sys (faulty P.S)} (h0 : Starts (faultyProvider f P) c s0) (h : Reach c NonEmpty s0 s) :
    s.spc ≠ .panicked := by
  obtain ⟨LP, hTot, -⟩ := keeps_lawful hP
  obtain ⟨PP⟩ := keeps_positional hP
  have hinv := fun s hr => (Keep.reach (s := s) hb (faultyLawfulProvider false f (noSure f) LP) h0
    (G := NonEmpty) hr).inv
  refine no_panic (faultyPositionalProvider f PP) (fun _ _ h => h) h0 h ?_ ?_
  · intro s bs hr hp
    obtain ⟨W, hi⟩ := hinv s hr
    obtain ⟨r, h1⟩ := hTot.write_total (bs := bs) hi.1
    rw [flt_write_panic hp] at h1; cases h1
  · intro s start stop hr _ hp
    obtain ⟨W, hi⟩ := hinv s hr
    obtain ⟨r, h1⟩ := hTot.wseek_total (p := start) hi.1
    rw [flt_wseek_panic hp] at h1; cases h1

/-- The same for storage that keeps a window and sources that cannot seek. -/
theorem C78_no_panic_windowed_partial (hP : Windowed c.contentLength P) (hss : c.supportsSeek = false)
    {s0 s : Sys (faulty P.S)} (h0 : Starts (faultyProvider f P) c s0) (h : Reach c NonEmpty s0 s) :
    s.spc ≠ .panicked := by
  obtain ⟨RP⟩ := windowed_ring hP
  obtain ⟨PP⟩ := windowed_positional hP
  refine no_panic (faultyPositionalProvider f PP) (fun _ _ h => h) h0 h ?_ ?_
  · intro s bs hr hp
    exact (faultyRingProvider f RP).ring.write_safe (bs := bs) (ring_reach (faultyRingProvider f RP) h0 hr).1 hp
  · intro s start stop hr h1
    obtain ⟨-, st, -, rfl⟩ := h0
    exact absurd h1 (unseekable_src hss hr start stop)

/-- C78, storage that keeps everything: whatever fails, every call of the consumer returns. -/
theorem C78_calls_return_unbounded_partial (hP : Unbounded c.contentLength P) (hb : c.batchSize ≠ 0)
    {s0 : Sys (faulty P.S)} (h0 : Starts (faultyProvider f P) c s0) {r : Nat → Sys (faulty P.S)}
    {act : Nat → Option Act} (he : Exec c s0 r act) (hfs : Fair c r act .src) (hfr : Fair c r act .rdr)
    (hk : KeepsDelivering r act) (hne : ∀ j, act j ≠ some (.chunk 0))
    (hmax : ∀ j, Ev.request (two64 - 1) ∉ (r j).log) {i : Nat} (hc : (r i).rpc.inCall = true) :
    ∃ j, i ≤ j ∧ ((r j).rpc = .idle ∨ (r j).rpc = .panicked) := by
  obtain ⟨LP, hTot, -⟩ := keeps_lawful hP
  obtain ⟨PP⟩ := keeps_positional hP
  refine call_returns (faultyPositionalProvider f PP) h0 he hfs hfr hk ?_ hmax hc ?_
  · intro j
    refine C78_no_panic_unbounded_partial hP hb h0 (he.reachG (fun i a ha e => ?_) j)
    exact hne i (by rw [ha, e])
  · intro j p w _ _ _ _ _ _ _ pos l t h
    have := (Keep.reach hb (faultyLawfulProvider false f (noSure f) LP) h0 (he.reach j)).ok
    simp [h, SrcPc.fullOk] at this

/-- C78, bounded storage: whatever fails, every `read` returns. -/
theorem C78_reads_return_bounded_partial {F : Provider} {checks : Bool} {bufferSize : Nat}
    (hF : Sparing (some (Bnd.sizeFor bufferSize c.contentLength)) F) (hb : c.batchSize ≠ 0)
    (hbs : bufferSize ≠ 0) {s0 : Sys (faulty (bndStorage checks F.S))}
    (h0 : Starts (faultyProvider f (bndProvider checks F bufferSize)) c s0)
    {r : Nat → Sys (faulty (bndStorage checks F.S))} {act : Nat → Option Act} (he : Exec c s0 r act)
    (hfs : Fair c r act .src) (hfr : Fair c r act .rdr) (hk : KeepsDelivering r act)
    (hpan : ∀ j, (r j).spc ≠ .panicked) (hmax : ∀ j, Ev.request (two64 - 1) ∉ (r j).log) {i : Nat}
    (hc : (r i).rpc.inReadCall = true) : ∃ j, i ≤ j ∧ ((r j).rpc = .idle ∨ (r j).rpc = .panicked) := by
  obtain ⟨LF, TF, -⟩ := keeps_lawful hF
  obtain ⟨PP⟩ := windowed_positional (.bounded c.contentLength checks F bufferSize hF)
  refine read_returns (faultyPositionalProvider f PP)
    (faultyRingProvider f (bndRingProvider checks bufferSize c.contentLength LF TF (keeps_read_le hF))) hb hbs h0
    he hfs hfr hk hpan hmax ?_ hc
  intro j n w _ hx
  have := h0.1
  have hx : n ≤ bufferSize := by simpa [Cfg.excessiveRead, this] using hx
  exact hx

/-- C78, storage that keeps everything: whatever fails, the download of a finite resource ends. -/
theorem C78_download_ends_unbounded_partial (hP : Unbounded c.contentLength P) (hb : c.batchSize ≠ 0) {m : Nat}
    (hfin : c.Finite m) {s0 : Sys (faulty P.S)} (h0 : Starts (faultyProvider f P) c s0)
    {r : Nat → Sys (faulty P.S)} {act : Nat → Option Act} (he : Exec c s0 r act) (hfs : Fair c r act .src)
    (hp : Productive r act) (hG : ∀ i a, act i = some a → Faithful c (r i) a)
    (hne : ∀ j, act j ≠ some (.chunk 0)) {i0 : Nat} (hseek : ∀ j f, i0 ≤ j → act j ≠ some (.seek f)) :
    ∃ j, (r j).spc = .ended := by
  obtain ⟨LP, -, -⟩ := keeps_lawful hP
  obtain ⟨PP⟩ := keeps_positional hP
  let LQ := faultyLawfulProvider false f (noSure f) LP
  let PQ := faultyPositionalProvider f PP
  obtain ⟨i, hi⟩ := awaits_finally hfin LQ PQ hb h0 he (hp.advancing fun i a ha => (hG i a ha).2) (fun i a ha => (hG i a ha).1)
    hseek
  obtain ⟨j, -, hj⟩ := ends_of_busy he hfs (fun j => (Track.reach PQ h0 (he.reach j)).1.1) hi
    (fun j _ p l t h => by
      have := (Keep.reach hb LQ h0 (he.reach j)).ok
      simp [h, SrcPc.fullOk] at this)
  refine ⟨j, hj.resolve_right ?_⟩
  exact C78_no_panic_unbounded_partial hP hb h0 (he.reachG (fun i a ha e => hne i (by rw [ha, e])) j)

/-! ### A write that fails -/

/-- The task is about to write `bs`. -/
def Writing {S : Storage} (c : Cfg) (s : Sys S) (bs : List Byte) : Prop :=
  ∃ todo, bs = todo.take (min c.batchSize todo.length) ∧
    ((∃ len, s.spc = .pfWrite len todo) ∨ ∃ pos0 len bw, s.spc = .wWrite pos0 len todo bw)

/-- The task is ending, with error `k`. -/
def EndsWith {S : Storage} (k : Kind) (s : Sys S) : Prop :=
  s.spc = .onFin (some k) .completed ∨ (s.spc.over = true ∧ finishOf s.log = some (some k, .completed))

theorem EndsWith.step {S : Storage} {c : Cfg} {k : Kind} {s s' : Sys S} {a : Act} (h : EndsWith k s)
    (ht : Tr c s a s') : EndsWith k s' := by
  unfold EndsWith at h ⊢
  cases ht <;> grind [SrcPc.over, finishOf]

theorem finishOf_mem {r : Option Kind} {o : Outcome} {l : List Ev} (h : finishOf l = some (r, o)) :
    Ev.onFinish r o ∈ l := by
  induction l with
  | nil => cases h
  | cons e l ih =>
    cases e
    case onFinish r' o' => cases h; simp
    all_goals exact List.mem_cons_of_mem _ (ih h)

theorem write_err_step {S : Storage} {s s' : Sys S} {bs : List Byte} {k : Kind} (hw : Writing c s bs)
    (hf : S.write s.st bs = .err k) (hs : srcStep c s = some s') : s'.spc = .onFin (some k) .completed := by
  obtain ⟨todo, rfl, ⟨len, e⟩ | ⟨p, len, bw, e⟩⟩ := hw <;>
  · simp only [srcStep, e, hf, Option.some.injEq] at hs
    rw [← hs]

theorem wseek_err_step {S : Storage} {s s' : Sys S} {start pos : Nat} {stop : Option Nat} {k : Kind}
    (hw : s.spc = .seeking start stop) (hf : S.wseek s.st start = .err k)
    (hs : SD.step c s (.seekOk pos) = some s') : s'.spc = .onFin (some k) .completed := by
  simp only [SD.step, hw, hf, Option.some.injEq] at hs
  rw [← hs]

theorem ends_with {Q : Provider} (PP : PositionalProvider Q c.contentLength) (hk : c.KeepsErrors) {s0 : Sys Q.S}
    (h0 : Starts Q c s0) {r : Nat → Sys Q.S} {act : Nat → Option Act} (he : Exec c s0 r act)
    (hfs : Fair c r act .src) {i : Nat} {k : Kind} (h1 : (r i).spc = .onFin (some k) .completed) :
    ∃ j, i ≤ j ∧ (r j).spc = .ended ∧ (r j).failed = true ∧ (r j).done = true ∧
      Ev.onFinish (some k) .completed ∈ (r j).log := by
  have h2 : ∀ j, i ≤ j → EndsWith k (r j) := by
    intro j hj
    induction hj with
    | refl => exact Or.inl h1
    | @step j hj ih =>
      cases hx : act j with
      | none => rw [he.pause j hx]; exact ih
      | some a => exact ih.step (tr_of_step (he.next j a hx))
  obtain ⟨j, hj, h3⟩ := ends_of_busy he hfs (fun j => (Track.reach PP h0 (he.reach j)).1.1) (i0 := i)
    (fun j hj => by
      rcases h2 j hj with h | ⟨h, -⟩
      · rw [h]; rfl
      · revert h; cases (r j).spc <;> simp [SrcPc.over, SrcPc.awaits])
    (fun j hj p l t h => by
      rcases h2 j hj with h' | ⟨h', -⟩ <;> rw [h] at h' <;> cases h')
  have h4 : (r j).spc = .ended := by
    rcases h3 with h3 | h3
    · exact h3
    · rcases h2 j hj with h' | ⟨h', -⟩ <;> rw [h3] at h' <;> cases h'
  rcases h2 j hj with h5 | ⟨-, h5⟩
  · rw [h4] at h5; cases h5
  have h6 := he.reach j
  obtain ⟨-, st, -, rfl⟩ := h0
  obtain ⟨r', o', e1, -, -, -, e2, e3⟩ := (endLog_reach h6).isOver (by rw [h4]; rfl)
  rw [h5] at e1
  cases e1
  exact ⟨j, hj, h4, (e2 (by rw [h4]; simp)).mpr (hk _ _), e3 (Or.inr h4), finishOf_mem h5⟩

/-- C78: a write that fails ends the download; any storage, any history.  `on_finish` is called with
that error, the download is marked as failed (from then on every call fails, C10) and as over, which
releases a waiting consumer. -/
theorem C78_failed_write_ends (hP : Supported c.contentLength P) (hk : c.KeepsErrors)
    {s0 : Sys (faulty P.S)} (h0 : Starts (faultyProvider f P) c s0) {r : Nat → Sys (faulty P.S)}
    {act : Nat → Option Act} (he : Exec c s0 r act) (hfs : Fair c r act .src) {i : Nat} {bs : List Byte}
    {k : Kind} (ha : act i = some .src) (hw : Writing c (r i) bs) (hf : (faulty P.S).write (r i).st bs = .err k) :
    ∃ j, i < j ∧ (r j).spc = .ended ∧ (r j).failed = true ∧ (r j).done = true ∧
      Ev.onFinish (some k) .completed ∈ (r j).log := by
  obtain ⟨PP⟩ := supported_positional hP
  exact ends_with (faultyPositionalProvider f PP) hk h0 he hfs (write_err_step hw hf (he.next i _ ha))

/-- The same if the writer cannot be moved to where the source was moved to. -/
theorem C78_failed_writer_seek_ends (hP : Supported c.contentLength P) (hk : c.KeepsErrors)
    {s0 : Sys (faulty P.S)} (h0 : Starts (faultyProvider f P) c s0) {r : Nat → Sys (faulty P.S)}
    {act : Nat → Option Act} (he : Exec c s0 r act) (hfs : Fair c r act .src) {i start pos : Nat}
    {stop : Option Nat} {k : Kind} (ha : act i = some (.seekOk pos)) (hw : (r i).spc = .seeking start stop)
    (hf : (faulty P.S).wseek (r i).st start = .err k) :
    ∃ j, i < j ∧ (r j).spc = .ended ∧ (r j).failed = true ∧ (r j).done = true ∧
      Ev.onFinish (some k) .completed ∈ (r j).log := by
  obtain ⟨PP⟩ := supported_positional hP
  exact ends_with (faultyPositionalProvider f PP) hk h0 he hfs (wseek_err_step hw hf (he.next i _ ha))

/-! ### Histories that meet the hypotheses -/

/-- The consumer's second read fails, and the third write. -/
def someFaults : Faults :=
  { read := fun i => if i = 2 then some .other else none
    write := fun i => if i = 2 then some .other else none
    wseek := fun _ => none
    seek := fun _ => none }

/-- A read fails and is repeated; a write fails. -/
example : ∃ s0 s : Sys (faulty memStorage), Starts (faultyProvider someFaults memProvider) demoCfg s0 ∧
    Reach demoCfg (fun s a => Honest s a ∧ NoSeek s a ∧ Delivers demoCfg s a) s0 s ∧
    delivered s.log = [1, 2, 3, 4] ∧ Ev.readRet 2 2 true (.err .other) ∈ s.log ∧ s.failed = true := by
  have h := exists_of_runG (P := faultyProvider someFaults memProvider) (c := demoCfg)
    (g := fun s a => honestB s a && noSeekB s a && deliversB demoCfg s a)
    (G := fun s a => Honest s a ∧ NoSeek s a ∧ Delivers demoCfg s a)
    (fun s a h => by
      rw [Bool.and_eq_true, Bool.and_eq_true] at h
      exact ⟨honest_of h.1.1, noSeek_of h.1.2, delivers_of h.2⟩)
    { st := demoMem10, faults := someFaults, calls := 0, ops := 0 }
    ([.chunk 4] ++ srcs 6 ++ [.read 2] ++ rdrs 4 ++ [.read 2] ++ rdrs 3 ++ [.read 2] ++ rdrs 3 ++ [.chunk 2] ++ srcs 6)
    (fun s => decide (delivered s.log = [1, 2, 3, 4] ∧ Ev.readRet 2 2 true (.err .other) ∈ s.log ∧
      s.failed = true)) rfl rfl (by decide +kernel)
  obtain ⟨s0, s, h1, h2, h3⟩ := h
  exact ⟨s0, s, h1, h2, of_decide_eq_true h3⟩

/-- The consumer's first read fails. -/
def readFault : Faults :=
  { read := fun i => if i = 1 then some .other else none, write := fun _ => none, wseek := fun _ => none
    seek := fun _ => none }

/-- Reading to the end of bounded storage, although the first read fails. -/
example : ∃ s0 s : Sys (faulty (bndStorage true memStorage)),
    Starts (faultyProvider readFault (bndProvider true memProvider 4)) cfgBounded s0 ∧
    Reach cfgBounded (fun s a => Honest s a ∧ CleanReconnect s a ∧ NoSeek s a ∧ Delivers cfgBounded s a) s0 s ∧
    (∃ later earlier, s.log = later ++ Ev.readRet 8 4 true (.ok [9, 10]) :: earlier) ∧
    Ev.readRet 0 4 true (.err .other) ∈ s.log := by
  have h := exists_of_runG (P := faultyProvider readFault (bndProvider true memProvider 4)) (c := cfgBounded)
    (g := fun s a => honestB s a && cleanB s a && noSeekB s a && deliversB cfgBounded s a)
    (G := fun s a => Honest s a ∧ CleanReconnect s a ∧ NoSeek s a ∧ Delivers cfgBounded s a)
    (fun s a h => by
      simp only [Bool.and_eq_true] at h
      exact ⟨honest_of h.1.1.1, clean_of h.1.1.2, noSeek_of h.1.2, delivers_of h.2⟩)
    { st := demoBnd4, faults := readFault, calls := 0, ops := 0 }
    ([.chunk 6] ++ srcs 3 ++ [.chunk 4] ++ srcs 4 ++ [.read 4] ++ rdrs 4 ++ srcs 5 ++ [.read 4] ++ rdrs 4 ++ srcs 10 ++
      [.read 4] ++ rdrs 4 ++ srcs 7 ++ [.eof] ++ srcs 6 ++ [.read 4] ++ rdrs 4)
    (fun s => decide (Ev.readRet 8 4 true (.ok [9, 10]) ∈ s.log ∧ Ev.readRet 0 4 true (.err .other) ∈ s.log)) rfl rfl
    (by decide +kernel)
  obtain ⟨s0, s, h1, h2, h3⟩ := h
  obtain ⟨h3, h4⟩ := of_decide_eq_true h3
  exact ⟨s0, s, h1, h2, List.append_of_mem h3, h4⟩

/-- A seek that fails, and a read that does not have to wait after it. -/
example : ∃ s0 s : Sys (faulty memStorage), Starts (faultyProvider seekFault memProvider) demoCfg s0 ∧
    Reach demoCfg Honest s0 s ∧ Ev.seekRet 2 (.err .other) ∈ s.log ∧ Ev.readRet 0 2 true (.ok [1, 2]) ∈ s.log := by
  have h := exists_of_runG (P := faultyProvider seekFault memProvider) (c := demoCfg)
    (g := fun s a => honestB s a) (G := Honest) (fun s a h => honest_of h)
    { st := demoMem10, faults := seekFault, calls := 0, ops := 0 }
    ([.chunk 4] ++ srcs 6 ++ [.seek (.start 2)] ++ rdrs 2 ++ [.read 2] ++ rdrs 4)
    (fun s => decide (Ev.seekRet 2 (.err .other) ∈ s.log ∧ Ev.readRet 0 2 true (.ok [1, 2]) ∈ s.log)) rfl rfl
    (by decide +kernel)
  obtain ⟨s0, s, h1, h2, h3⟩ := h
  exact ⟨s0, s, h1, h2, of_decide_eq_true h3⟩

/-- A consumer that waits while a write fails, and is released. -/
example : ∃ (s0 : Sys (faulty memStorage)) (r : Nat → Sys (faulty memStorage)) (act : Nat → Option Act),
    Starts (faultyProvider { someFaults with write := fun _ => some .other } memProvider) demoCfg s0 ∧
      Exec demoCfg s0 r act ∧ Fair demoCfg r act .src ∧ Fair demoCfg r act .rdr ∧ KeepsDelivering r act ∧
      (∀ j, act j ≠ some (.chunk 0)) ∧ (∀ j, Ev.request (two64 - 1) ∉ (r j).log) ∧ (r 4).rpc = .rWait 4 4 ∧
      act 6 = some .src ∧ Writing demoCfg (r 6) [1, 2] ∧ (faulty memStorage).write (r 6).st [1, 2] = .err .other ∧
      Ev.readErr 4 .other ∈ (r 13).log := by
  have h := assumed_of_run (P := faultyProvider { someFaults with write := fun _ => some .other } memProvider)
    (c := demoCfg) (g := fun _ _ => true)
    { st := demoMem10, faults := { someFaults with write := fun _ => some .other }, calls := 0, ops := 0 }
    ([.read 4] ++ rdrs 3 ++ [.chunk 2] ++ srcs 6 ++ rdrs 2) rfl rfl (by decide +kernel) (by decide +kernel)
  obtain ⟨h1, h2, h3, h4, h5, h6, h7⟩ := h
  refine ⟨_, _, _, h1, h2, h3, h4, h5, ?_, h7, ?_, rfl, ⟨[1, 2], by decide, Or.inr ⟨0, 2, 0, ?_⟩⟩, ?_, ?_⟩
  · intro j e
    exact absurd (List.mem_of_getElem? e) (by decide +kernel)
  · decide +kernel
  · decide +kernel
  · rfl
  · decide +kernel

end SD
