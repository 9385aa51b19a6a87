import Verif.Proof.Sys.ReadLog
import Verif.Proof.Sys.Run

/-!
# Properties C01, C02, C03, C13, C32, C35: what reads return

Assumptions that recur, all defined in `Verif/Spec/System.lean`:

* `c.batchSize ≠ 0` holds by type in the code (`NonZeroUsize`);
* `c.LengthHonest`: the resource is not longer than its declared length;
* `c.KeepsErrors`: `on_finish` does not turn an error into success (true of the
  default);
* `Honest`: after a successful `seek_range` or `reconnect` the transport delivers
  the resource from the position it was asked for.
-/

set_option linter.unusedVariables false

namespace SD

/-! ### C01: sequential reads -/

/-- C01 for storage that keeps everything: whatever the reads have returned so far is
a prefix of the resource.  The restriction `Delivers` (a source that cannot seek
and declares a length delivers that much before it ends) is what is missing; it is
void for seekable sources and for unknown lengths. -/
theorem C01_sequential_unbounded_partial {P : Provider} {c : Cfg} (hP : Unbounded c.contentLength P)
    (hb : c.batchSize ≠ 0) (hlen : c.LengthHonest) (hk : c.KeepsErrors) {s0 s : Sys P.S}
    (h0 : Starts P c s0)
    (h : Reach c (fun s a => Honest s a ∧ NoSeek s a ∧ Delivers c s a) s0 s) :
    delivered s.log = slice c.remote 0 (delivered s.log).length := by
  obtain ⟨LP, hTot, -⟩ := keeps_lawful hP
  obtain ⟨PP⟩ := keeps_positional hP
  have hfw : ∀ s a, NoSeek (S := P.S) s a → Connected c s a := fun s a hn f p hf => absurd hf (hn f)
  have h1 := (fwd_log LP hTot.works hb hlen hk
    (fun s a hg => ⟨hg.1, fun _ => hg.2.2, fun _ => hfw s a hg.2.1⟩) h0 h).2
  have h2 := (PosInv.reach PP h0 h).rule
  have h3 := h0
  obtain ⟨-, st, -, rfl⟩ := h3
  have h4 := (noSeek_reach (fun _ _ hg => hg.2.1) h).2
  exact (delivered_exact (readsExact_of_rule (h1.mono fun _ _ => readRule_exact)) h2 h4).2

/-- C01 for storage that starts with nothing to read (temp file; memory if the length
is unknown): no restriction on where the transport ends. -/
theorem C01_sequential_blank {P : Provider} {c : Cfg} (hP : Blank c.contentLength P)
    (hb : c.batchSize ≠ 0) (hlen : c.LengthHonest) (hk : c.KeepsErrors) {s0 s : Sys P.S}
    (h0 : Starts P c s0) (h : Reach c (fun s a => Honest s a ∧ NoSeek s a) s0 s) :
    delivered s.log = slice c.remote 0 (delivered s.log).length := by
  obtain ⟨LP, hTot, -, hE⟩ := keeps_lawful hP
  obtain ⟨PP⟩ := keeps_positional hP
  have hfw : ∀ s a, NoSeek (S := P.S) s a → Connected c s a := fun s a hn f p hf => absurd hf (hn f)
  have h1 := (fwd_log LP hTot.works hb hlen hk
    (fun s a hg => ⟨hg.1, fun hne => absurd (hE rfl) hne, fun _ => hfw s a hg.2⟩) h0 h).2
  have h2 := (PosInv.reach PP h0 h).rule
  have h3 := h0
  obtain ⟨-, st, -, rfl⟩ := h3
  have h4 := (noSeek_reach (fun _ _ hg => hg.2) h).2
  exact (delivered_exact (readsExact_of_rule (h1.mono fun _ _ => readRule_exact)) h2 h4).2

/-- C01 for storage that keeps a window.  `CleanReconnect` only restricts successful
reconnects, which C01 does not ask for with bounded storage. -/
theorem C01_sequential_bounded {P : Provider} {c : Cfg} (hP : Windowed c.contentLength P)
    {s0 s : Sys P.S} (h0 : Starts P c s0)
    (h : Reach c (fun s a => Honest s a ∧ NoSeek s a ∧ CleanReconnect s a) s0 s) :
    delivered s.log = slice c.remote 0 (delivered s.log).length := by
  obtain ⟨LP⟩ := windowed_lawful hP
  obtain ⟨PP⟩ := windowed_positional hP
  have h1 := (win_log LP (fun s a hg => ⟨hg.1, hg.2.2, fun _ => hg.2.1⟩) h0 h).2
  have h2 := (PosInv.reach PP h0 h).rule
  have h3 := h0
  obtain ⟨-, st, -, rfl⟩ := h3
  have h4 := (noSeek_reach (fun _ _ hg => hg.2.1) h).2
  exact (delivered_exact (readsExact_of_rule h1) h2 h4).2

/-- 10 bytes that cannot be re-positioned. -/
def cfgUnseekable : Cfg := { demoCfg with supportsSeek := false }

/-- Memory storage for 10 bytes. -/
def demoMem10 : Mem := { buf := List.replicate 10 0, written := 0, rp := 0, wp := 0 }

/-- C01 fails with memory storage if the connection of a source that cannot seek ends
before the declared length: here the transport delivers 4 of 10 bytes and ends; the
reads return `1, 2, 3, 4` and then four zeros that were never received. -/
theorem C01_sequential_violated :
    ∃ s0 s : Sys memStorage, Starts memProvider cfgUnseekable s0 ∧
      Reach cfgUnseekable (fun s a => Honest s a ∧ NoSeek s a) s0 s ∧
      delivered s.log ≠ slice cfgUnseekable.remote 0 (delivered s.log).length := by
  obtain ⟨s0, s, h1, h2, h3⟩ := exists_of_runG (P := memProvider) (c := cfgUnseekable)
    (g := fun s a => honestB s a && noSeekB s a) (G := fun s a => Honest s a ∧ NoSeek s a)
    (fun s a h => by
      rw [Bool.and_eq_true] at h; exact ⟨honest_of h.1, noSeek_of h.2⟩)
    demoMem10
    ([.chunk 4] ++ srcs 6 ++ [.eof] ++ srcs 6 ++ [.read 6] ++ rdrs 9 ++ [.read 4] ++ rdrs 6)
    (fun s => decide (delivered s.log ≠ slice cfgUnseekable.remote 0 (delivered s.log).length))
    rfl rfl (by decide +kernel)
  exact ⟨s0, s, h1, h2, of_decide_eq_true h3⟩

/-- The hypotheses of the theorems above are met by a history in which 7 bytes are read
in pieces, across a reconnect. -/
example : ∃ s0 s : Sys memStorage, Starts memProvider cfgUnseekable s0 ∧
    Reach cfgUnseekable (fun s a => Honest s a ∧ NoSeek s a ∧ Delivers cfgUnseekable s a) s0 s ∧
    delivered s.log = [1, 2, 3, 4, 5, 6, 7] := by
  obtain ⟨s0, s, h1, h2, h3⟩ := exists_of_runG (P := memProvider) (c := cfgUnseekable)
    (g := fun s a => honestB s a && noSeekB s a && deliversB cfgUnseekable s a)
    (G := fun s a => Honest s a ∧ NoSeek s a ∧ Delivers cfgUnseekable s a)
    (fun s a h => by
      rw [Bool.and_eq_true, Bool.and_eq_true] at h
      exact ⟨honest_of h.1.1, noSeek_of h.1.2, delivers_of h.2⟩)
    demoMem10
    ([.chunk 4] ++ srcs 6 ++ [.read 3] ++ rdrs 4 ++ [.timeout, .reconnOk 4, .chunkErr, .chunk 5] ++
      srcs 6 ++ [.read 4] ++ rdrs 2)
    (fun s => decide (delivered s.log = [1, 2, 3, 4, 5, 6, 7])) rfl rfl (by decide +kernel)
  exact ⟨s0, s, h1, h2, of_decide_eq_true h3⟩

example : Unbounded cfgUnseekable.contentLength memProvider ∧
    Blank cfgUnseekable.contentLength tmpProvider ∧
    Windowed cfgUnseekable.contentLength (bndProvider true memProvider 4) :=
  ⟨.memory _ (by simp), .temp _, .bounded _ _ _ _ (.memory _ (by simp))⟩

example : cfgUnseekable.batchSize ≠ 0 ∧ cfgUnseekable.LengthHonest ∧ cfgUnseekable.KeepsErrors :=
  ⟨by decide, demo_lengthHonest, demo_keepsErrors⟩

/-- The same, 10 bytes through a bounded storage of 4. -/
def cfgBounded : Cfg := { demoCfg with supportsSeek := false, prefetchBytes := 4, capacity := some 4 }

/-- Bounded storage of size 4 over memory. -/
def demoBnd4 : Bnd memStorage :=
  { inner := { buf := List.replicate 4 0, written := 0, rp := 0, wp := 0 }
    read := 0, written := 0, rp := 0, wp := 0, size := 4 }

/-- A history for bounded storage: the task is paused by a full buffer and goes on. -/
example : ∃ s0 s : Sys (bndStorage true memStorage), Starts (bndProvider true memProvider 4) cfgBounded s0 ∧
    Reach cfgBounded (fun s a => Honest s a ∧ NoSeek s a ∧ CleanReconnect s a) s0 s ∧
    delivered s.log = [1, 2, 3, 4, 5, 6, 7] := by
  obtain ⟨s0, s, h1, h2, h3⟩ := exists_of_runG (P := bndProvider true memProvider 4) (c := cfgBounded)
    (g := fun s a => honestB s a && noSeekB s a && cleanB s a)
    (G := fun s a => Honest s a ∧ NoSeek s a ∧ CleanReconnect s a)
    (fun s a h => by
      rw [Bool.and_eq_true, Bool.and_eq_true] at h
      exact ⟨honest_of h.1.1, noSeek_of h.1.2, clean_of h.2⟩)
    demoBnd4
    ([.chunk 6] ++ srcs 3 ++ [.chunk 2] ++ srcs 4 ++ [.read 4] ++ rdrs 4 ++ srcs 5 ++ [.read 3] ++ rdrs 2)
    (fun s => decide (delivered s.log = [1, 2, 3, 4, 5, 6, 7])) rfl rfl (by decide +kernel)
  exact ⟨s0, s, h1, h2, of_decide_eq_true h3⟩

/-! ### C02: reads that do not have to wait -/

/-- C02, first half: if, when a read looks at the downloaded ranges, its position and
its whole range are recorded, it does not wait. -/
theorem C02_recorded_range_does_not_wait {P : Provider} {c : Cfg} (hP : Unbounded c.contentLength P)
    (hb : c.batchSize ≠ 0) (hlen : c.LengthHonest) {s0 s s' : Sys P.S} (h0 : Starts P c s0)
    (h : Reach c Honest s0 s) {n : Nat} (hr : s.rpc = .rDecide n)
    (hov : (P.S.tell s.st).1 + n < two64)
    (hpos : RSet.Mem s.dl (P.S.tell s.st).1)
    (hall : ∀ q, (P.S.tell s.st).1 ≤ q → q < c.normalize ((P.S.tell s.st).1 + n) → RSet.Mem s.dl q)
    (hs : step c s .rdr = some s') : s'.rpc = .rRead n true := by
  obtain ⟨LP, hTot, -⟩ := keeps_lawful hP
  obtain ⟨W, hF⟩ := Full.reach LP hb hlen (fun _ _ h => h) h0 h
  have hwf := hF.src.wf
  cases tr_of_step hs <;> simp_all
  next hnot =>
    exact absurd hov (by omega)
  next hnot =>
    cases hg : RSet.get s.dl (P.S.tell s.st).1 with
    | none => exact absurd hpos (RSet.get_none_iff.mp hg)
    | some r =>
      obtain ⟨a, b⟩ := r
      have h1 := hnot a b hg
      have h2 := (RSet.get_some_mem hg).2
      exact RSet.get_some_end_not_mem hwf hg (hall b (by omega) h1)

/-- C02, second half: in every history (forward and backward seeks, reconnects, gap
fills, any schedule), a read that did not have to wait succeeds and returns exactly
the bytes of the resource from its position on, all it asked for up to the end of the
resource. -/
theorem C02_unblocked_read_exact {P : Provider} {c : Cfg} (hP : Unbounded c.contentLength P)
    (hb : c.batchSize ≠ 0) (hlen : c.LengthHonest) {s0 s : Sys P.S} (h0 : Starts P c s0)
    (h : Reach c Honest s0 s) {pos len : Nat} {res : Res (List Byte)}
    (hr : Ev.readRet pos len true res ∈ s.log) :
    res = .ok (slice c.remote pos (c.normalize (pos + len) - pos)) := by
  obtain ⟨LP, hTot, hE, -⟩ := keeps_lawful hP
  have h1 := (full_fast_log LP hTot hb hlen (fun _ _ h => h) h0 h).2
  obtain ⟨-, l2, -, bs, rfl, h2, h3⟩ := h1.mem hr
  rw [h3.resolve_right (hE rfl _ _)] at h2
  rw [h2]

/-- A history with a forward and a backward seek in which a read does not wait. -/
example : ∃ s0 s : Sys memStorage, Starts memProvider demoCfg s0 ∧ Reach demoCfg Honest s0 s ∧
    Ev.readRet 5 2 true (.ok [6, 7]) ∈ s.log ∧ Ev.seekRange 5 (some 10) ∈ s.log := by
  obtain ⟨s0, s, h1, h2, h3⟩ := exists_of_runG (P := memProvider) (c := demoCfg)
    (g := fun s a => honestB s a) (G := Honest) (fun s a h => honest_of h) demoMem10
    ([.chunk 2] ++ srcs 6 ++ [.seek (.start 5)] ++ rdrs 3 ++ [.recvSeek, .src, .seekOk 5, .chunk 1] ++
      srcs 3 ++ [.chunk 1] ++ srcs 8 ++ rdrs 3 ++ [.seek (.start 0)] ++ rdrs 2 ++
      [.seek (.start 5)] ++ rdrs 2 ++ [.read 2] ++ rdrs 2)
    (fun s => decide (Ev.readRet 5 2 true (.ok [6, 7]) ∈ s.log ∧ Ev.seekRange 5 (some 10) ∈ s.log))
    rfl rfl (by decide +kernel)
  exact ⟨s0, s, h1, h2, of_decide_eq_true h3⟩

/-! ### C03: reads after seeks -/

/-- C03 for storage that keeps everything, with the two restrictions that are needed:
on a seekable source the consumer goes back only over bytes that it has read or that are
downloaded (forward it may go anywhere), and a source that cannot seek delivers its declared length. -/
theorem C03_reads_after_seeks_partial {P : Provider} {c : Cfg} (hP : Unbounded c.contentLength P)
    (hb : c.batchSize ≠ 0) (hlen : c.LengthHonest) (hk : c.KeepsErrors) {s0 s : Sys P.S}
    (h0 : Starts P c s0)
    (h : Reach c (fun s a => Honest s a ∧ Delivers c s a ∧ (c.supportsSeek = true → Connected c s a))
      s0 s) :
    ReadsExact c.remote s.log := by
  obtain ⟨LP, hTot, -⟩ := keeps_lawful hP
  have h1 := (fwd_log LP hTot.works hb hlen hk (fun s a hg => ⟨hg.1, fun _ => hg.2.1, hg.2.2⟩) h0 h).2
  exact readsExact_of_rule (h1.mono fun _ _ => readRule_exact)

/-- C03 for sources that cannot seek, with storage that keeps a window: arbitrary seeks
of the consumer; a read returns an error or the bytes of the resource. -/
theorem C03_reads_after_seeks_bounded_partial {P : Provider} {c : Cfg}
    (hP : Windowed c.contentLength P) (hs : c.supportsSeek = false) {s0 s : Sys P.S}
    (h0 : Starts P c s0) (h : Reach c (fun s a => Honest s a ∧ CleanReconnect s a) s0 s) :
    ReadsExact c.remote s.log := by
  obtain ⟨LP⟩ := windowed_lawful hP
  have h1 := (win_log LP
    (fun s a hg => ⟨hg.1, hg.2, fun ht => absurd ht (by simp [hs])⟩) h0 h).2
  exact readsExact_of_rule h1

/-- C03 fails for a backward seek on a seekable source.  The consumer seeks to 5, then
back to 0 and reads two bytes.  Both the backward seek and the read are released by
chunks that the task had already chosen when the seek message arrived (or chose over
it): the task only compares its write position, 8 and 9, with the requested positions,
0 and 2.  The read returns two zeros, nothing before 5 was ever downloaded. -/
theorem C03_reads_after_seeks_violated :
    ∃ s0 s : Sys memStorage, Starts memProvider demoCfg s0 ∧ Reach demoCfg Honest s0 s ∧
      ¬ ReadsExact demoCfg.remote s.log := by
  obtain ⟨s0, s, h1, h2, h3⟩ := exists_of_runG (P := memProvider) (c := demoCfg)
    (g := fun s a => honestB s a) (G := Honest) (fun s a h => honest_of h) demoMem10
    ([.seek (.start 5)] ++ rdrs 3 ++ [.recvSeek, .src, .seekOk 5, .chunk 1] ++ srcs 3 ++
      [.chunk 1] ++ srcs 8 ++ rdrs 3 ++ [.seek (.start 0)] ++ rdrs 3 ++ [.chunk 1] ++ srcs 8 ++
      rdrs 3 ++ [.read 2] ++ rdrs 4 ++ [.chunk 1] ++ srcs 8 ++ rdrs 3)
    (fun s => decide (Ev.readRet 0 2 false (.ok [0, 0]) ∈ s.log)) rfl rfl (by decide +kernel)
  refine ⟨s0, s, h1, h2, fun hre => ?_⟩
  have := hre 0 2 false [0, 0] (of_decide_eq_true h3)
  exact absurd this (by decide +kernel)

/-- The hypotheses of `C03_reads_after_seeks_partial` are met by a history with a forward
seek over a part that is not downloaded. -/
example : ∃ s0 s : Sys memStorage, Starts memProvider demoCfg s0 ∧
    Reach demoCfg (fun s a => Honest s a ∧ Delivers demoCfg s a ∧
      (demoCfg.supportsSeek = true → Connected demoCfg s a)) s0 s ∧
    Ev.seekRet 5 (.ok 5) ∈ s.log ∧ Ev.readRet 5 2 true (.ok [6, 7]) ∈ s.log := by
  obtain ⟨s0, s, h1, h2, h3⟩ := exists_of_runG (P := memProvider) (c := demoCfg)
    (g := fun s a => honestB s a && deliversB demoCfg s a && connectedB demoCfg s a)
    (G := fun s a => Honest s a ∧ Delivers demoCfg s a ∧
      (demoCfg.supportsSeek = true → Connected demoCfg s a))
    (fun s a h => by
      rw [Bool.and_eq_true, Bool.and_eq_true] at h
      exact ⟨honest_of h.1.1, delivers_of h.1.2, fun _ => connected_of h.2⟩)
    demoMem10
    ([.chunk 2] ++ srcs 6 ++ [.seek (.start 5)] ++ rdrs 3 ++ [.recvSeek, .src, .seekOk 5, .chunk 1] ++
      srcs 3 ++ [.chunk 1] ++ srcs 8 ++ rdrs 3 ++ [.read 2] ++ rdrs 2)
    (fun s => decide (Ev.seekRet 5 (.ok 5) ∈ s.log ∧ Ev.readRet 5 2 true (.ok [6, 7]) ∈ s.log))
    rfl rfl (by decide +kernel)
  exact ⟨s0, s, h1, h2, of_decide_eq_true h3⟩

/-- A history with a way back: the consumer jumps to 5, reads two bytes, goes back to 5 and
reads four, for which it has to wait. -/
example : ∃ s0 s : Sys memStorage, Starts memProvider demoCfg s0 ∧
    Reach demoCfg (fun s a => Honest s a ∧ Delivers demoCfg s a ∧
      (demoCfg.supportsSeek = true → Connected demoCfg s a)) s0 s ∧
    Ev.seekRet 5 (.ok 5) ∈ s.log ∧ Ev.readRet 5 2 true (.ok [6, 7]) ∈ s.log ∧
    Ev.readRet 5 4 false (.ok [6, 7, 8, 9]) ∈ s.log := by
  obtain ⟨s0, s, h1, h2, h3⟩ := exists_of_runG (P := memProvider) (c := demoCfg)
    (g := fun s a => honestB s a && deliversB demoCfg s a && connectedB demoCfg s a)
    (G := fun s a => Honest s a ∧ Delivers demoCfg s a ∧
      (demoCfg.supportsSeek = true → Connected demoCfg s a))
    (fun s a h => by
      rw [Bool.and_eq_true, Bool.and_eq_true] at h
      exact ⟨honest_of h.1.1, delivers_of h.1.2, fun _ => connected_of h.2⟩)
    demoMem10
    ([.chunk 2] ++ srcs 6 ++ [.seek (.start 5)] ++ rdrs 3 ++ [.recvSeek, .src, .seekOk 5, .chunk 1] ++
      srcs 3 ++ [.chunk 1] ++ srcs 8 ++ rdrs 3 ++ [.read 2] ++ rdrs 4 ++ [.seek (.start 5)] ++ rdrs 2 ++
      [.read 4] ++ rdrs 3 ++ [.chunk 2] ++ srcs 8 ++ rdrs 3)
    (fun s => decide (Ev.seekRet 5 (.ok 5) ∈ s.log ∧ Ev.readRet 5 2 true (.ok [6, 7]) ∈ s.log ∧
      Ev.readRet 5 4 false (.ok [6, 7, 8, 9]) ∈ s.log))
    rfl rfl (by decide +kernel)
  exact ⟨s0, s, h1, h2, of_decide_eq_true h3⟩

/-! ### C13: short reads -/

/-- C13 for storage that keeps everything: if the consumer goes back only over bytes that it
has read or that are downloaded, a read that returned fewer bytes than the buffer can hold has reached the declared length, or the transport
had ended before. -/
theorem C13_short_reads_unbounded {P : Provider} {c : Cfg} (hP : Unbounded c.contentLength P)
    (hb : c.batchSize ≠ 0) (hlen : c.LengthHonest) (hk : c.KeepsErrors) {s0 s : Sys P.S}
    (h0 : Starts P c s0)
    (h : Reach c (fun s a => Honest s a ∧ Delivers c s a ∧ Connected c s a) s0 s)
    {later earlier : List Ev} {pos len : Nat} {fast : Bool} {bs : List Byte}
    (hl : s.log = later ++ .readRet pos len fast (.ok bs) :: earlier) (hlt : bs.length < len) :
    (∃ N, c.contentLength = some N ∧ N ≤ pos + bs.length) ∨ Ev.eof ∈ earlier := by
  obtain ⟨LP, hTot, hE, -⟩ := keeps_lawful hP
  have h1 := (fwd_log LP hTot.works hb hlen hk (fun s a hg => ⟨hg.1, fun _ => hg.2.1, fun _ => hg.2.2⟩) h0 h).2
  exact ((h1.split hl).2 hlt).imp_right (Or.resolve_right · (hE rfl _ _))

/-- C13 for storage that keeps a window, without seeks. -/
theorem C13_short_reads_bounded {P : Provider} {c : Cfg} (hP : Windowed c.contentLength P)
    (hk : c.KeepsErrors) {s0 s : Sys P.S} (h0 : Starts P c s0)
    (h : Reach c (fun s a => Honest s a ∧ CleanReconnect s a ∧ NoSeek s a) s0 s)
    {later earlier : List Ev} {pos len : Nat} {fast : Bool} {bs : List Byte}
    (hl : s.log = later ++ .readRet pos len fast (.ok bs) :: earlier) (hlt : bs.length < len) :
    (∃ N, c.contentLength = some N ∧ N ≤ pos + bs.length) ∨ Ev.eof ∈ earlier := by
  obtain ⟨LP⟩ := windowed_lawful hP
  have h1 := (win_len_log LP hk
    (fun s a hg => ⟨⟨hg.1, hg.2.1, fun _ => hg.2.2⟩, fun f p hf => absurd hf (hg.2.2 f)⟩) h0 h).2
  exact ((h1.split hl).2 hlt).imp_right (Or.resolve_right · id)

/-- A short read that meets the hypotheses: 10 bytes, read with a buffer of 20. -/
example : ∃ s0 s : Sys memStorage, Starts memProvider demoCfg s0 ∧
    Reach demoCfg (fun s a => Honest s a ∧ Delivers demoCfg s a ∧ Connected demoCfg s a) s0 s ∧
    ∃ l, s.log = [] ++ Ev.readRet 0 20 true (.ok [1, 2, 3, 4, 5, 6, 7, 8, 9, 10]) :: l := by
  obtain ⟨s0, s, h1, h2, h3⟩ := exists_of_runG (P := memProvider) (c := demoCfg)
    (g := fun s a => honestB s a && deliversB demoCfg s a && connectedB demoCfg s a)
    (G := fun s a => Honest s a ∧ Delivers demoCfg s a ∧ Connected demoCfg s a)
    (fun s a h => by
      rw [Bool.and_eq_true, Bool.and_eq_true] at h
      exact ⟨honest_of h.1.1, delivers_of h.1.2, connected_of h.2⟩)
    demoMem10 ([.chunk 10] ++ srcs 6 ++ [.read 20] ++ rdrs 2)
    (fun s => decide (s.log.head? = some (Ev.readRet 0 20 true (.ok [1, 2, 3, 4, 5, 6, 7, 8, 9, 10]))))
    rfl rfl (by decide +kernel)
  refine ⟨s0, s, h1, h2, ?_⟩
  have := of_decide_eq_true h3
  cases hl : s.log with
  | nil => rw [hl] at this; simp at this
  | cons e l => rw [hl] at this; simp at this; exact ⟨l, by rw [this]; rfl⟩

/-! ### C32: unseekable sources -/

/-- C32: a source that does not support seeking is never asked to seek, in any history
with any storage; what reads then return is C03. -/
theorem C32_unseekable_never_asked {S : Storage} {c : Cfg} (hs : c.supportsSeek = false)
    {G : Sys S → Act → Prop} {st : S.σ} {s : Sys S} (h : Reach c G (init c st) s) (start : Nat)
    (stop : Option Nat) : Ev.seekRange start stop ∉ s.log := by
  revert start stop
  refine Reach.inv (P := fun s => ∀ start stop, Ev.seekRange start stop ∉ s.log) h (by simp [init]) ?_
  intro s s' a ih _ ht
  cases ht <;> simp_all [shouldSeek]

/-- C32, the consumer's side: seeks of the consumer on such a source, with storage that
keeps everything, just wait; every read returns the bytes of the resource. -/
theorem C32_unseekable_reads_exact {P : Provider} {c : Cfg} (hP : Unbounded c.contentLength P)
    (hs : c.supportsSeek = false) (hb : c.batchSize ≠ 0) (hlen : c.LengthHonest)
    (hk : c.KeepsErrors) {s0 s : Sys P.S} (h0 : Starts P c s0)
    (h : Reach c (fun s a => Honest s a ∧ Delivers c s a) s0 s) :
    ReadsExact c.remote s.log := by
  obtain ⟨LP, hTot, -⟩ := keeps_lawful hP
  have h1 := (fwd_log LP hTot.works hb hlen hk
    (fun s a hg => ⟨hg.1, fun _ => hg.2, fun ht => absurd ht (by simp [hs])⟩) h0 h).2
  exact readsExact_of_rule (h1.mono fun _ _ => readRule_exact)

/-- Seeks forward and backward on a source that cannot seek. -/
example : ∃ s0 s : Sys memStorage, Starts memProvider cfgUnseekable s0 ∧
    Reach cfgUnseekable (fun s a => Honest s a ∧ Delivers cfgUnseekable s a) s0 s ∧
    Ev.seekRet 5 (.ok 5) ∈ s.log ∧ Ev.seekRet 1 (.ok 1) ∈ s.log ∧
    Ev.readRet 1 2 true (.ok [2, 3]) ∈ s.log := by
  obtain ⟨s0, s, h1, h2, h3⟩ := exists_of_runG (P := memProvider) (c := cfgUnseekable)
    (g := fun s a => honestB s a && deliversB cfgUnseekable s a)
    (G := fun s a => Honest s a ∧ Delivers cfgUnseekable s a)
    (fun s a h => by
      rw [Bool.and_eq_true] at h
      exact ⟨honest_of h.1, delivers_of h.2⟩)
    demoMem10
    ([.chunk 2] ++ srcs 6 ++ [.seek (.start 5)] ++ rdrs 3 ++ [.recvSeek, .src, .chunk 4] ++
      srcs 8 ++ rdrs 3 ++ [.seek (.start 1)] ++ rdrs 2 ++ [.read 2] ++ rdrs 2)
    (fun s => decide (Ev.seekRet 5 (.ok 5) ∈ s.log ∧ Ev.seekRet 1 (.ok 1) ∈ s.log ∧
      Ev.readRet 1 2 true (.ok [2, 3]) ∈ s.log))
    rfl rfl (by decide +kernel)
  exact ⟨s0, s, h1, h2, of_decide_eq_true h3⟩

/-! ### C35: reconnecting -/

/-- C35 for storage that keeps everything: reconnects at any point do not disturb what
sequential reads return (`C01_sequential_unbounded_partial` and
`C01_sequential_blank` allow them); this is the version with seeks. -/
theorem C35_reconnect_unbounded {P : Provider} {c : Cfg} (hP : Unbounded c.contentLength P)
    (hb : c.batchSize ≠ 0) (hlen : c.LengthHonest) (hk : c.KeepsErrors) {s0 s : Sys P.S}
    (h0 : Starts P c s0)
    (h : Reach c (fun s a => Honest s a ∧ Delivers c s a ∧ Connected c s a) s0 s) :
    ReadsExact c.remote s.log :=
  C03_reads_after_seeks_partial hP hb hlen hk h0 (by
    induction h with
    | refl => exact .refl
    | step _ hg hs ih => exact ih.step ⟨hg.1, hg.2.1, fun _ => hg.2.2⟩ hs)

/-- C35 for storage that keeps a window, as long as no received bytes are waiting to be
written when the reconnect succeeds. -/
theorem C35_reconnect_bounded_partial {P : Provider} {c : Cfg} (hP : Windowed c.contentLength P)
    {s0 s : Sys P.S} (h0 : Starts P c s0)
    (h : Reach c (fun s a => Honest s a ∧ NoSeek s a ∧ CleanReconnect s a) s0 s) :
    delivered s.log = slice c.remote 0 (delivered s.log).length :=
  C01_sequential_bounded hP h0 h

/-- C35 fails for bounded storage if bytes of the prefetch are waiting to be written when
the task reconnects: they are written, and the bytes received after the reconnect,
which start with the same ones, are written behind them.  Here reads return
`1, 2, 3, 4, 5, 6, 5, 6`. -/
theorem C35_reconnect_violated :
    ∃ s0 s : Sys (bndStorage true memStorage), Starts (bndProvider true memProvider 4) cfgBounded s0 ∧
      Reach cfgBounded (fun s a => Honest s a ∧ NoSeek s a) s0 s ∧
      delivered s.log = [1, 2, 3, 4, 5, 6, 5, 6] ∧
      delivered s.log ≠ slice cfgBounded.remote 0 (delivered s.log).length := by
  obtain ⟨s0, s, h1, h2, h3⟩ := exists_of_runG (P := bndProvider true memProvider 4) (c := cfgBounded)
    (g := fun s a => honestB s a && noSeekB s a) (G := fun s a => Honest s a ∧ NoSeek s a)
    (fun s a h => by
      rw [Bool.and_eq_true] at h; exact ⟨honest_of h.1, noSeek_of h.2⟩)
    demoBnd4
    ([.chunk 6] ++ srcs 3 ++ [.timeout, .reconnOk 4] ++ [.read 4] ++ rdrs 3 ++ [.chunk 2] ++
      srcs 6 ++ [.read 4] ++ rdrs 2)
    (fun s => decide (delivered s.log = [1, 2, 3, 4, 5, 6, 5, 6] ∧
      delivered s.log ≠ slice cfgBounded.remote 0 (delivered s.log).length))
    rfl rfl (by decide +kernel)
  exact ⟨s0, s, h1, h2, of_decide_eq_true h3⟩

/-- The hypotheses of `C35_reconnect_bounded_partial` are met by a history with a
reconnect. -/
example : ∃ s0 s : Sys (bndStorage true memStorage), Starts (bndProvider true memProvider 4) cfgBounded s0 ∧
    Reach cfgBounded (fun s a => Honest s a ∧ NoSeek s a ∧ CleanReconnect s a) s0 s ∧
    Ev.onReconnect true ∈ s.log ∧ delivered s.log = [1, 2, 3, 4, 5, 6] := by
  obtain ⟨s0, s, h1, h2, h3⟩ := exists_of_runG (P := bndProvider true memProvider 4) (c := cfgBounded)
    (g := fun s a => honestB s a && noSeekB s a && cleanB s a)
    (G := fun s a => Honest s a ∧ NoSeek s a ∧ CleanReconnect s a)
    (fun s a h => by
      rw [Bool.and_eq_true, Bool.and_eq_true] at h
      exact ⟨honest_of h.1.1, noSeek_of h.1.2, clean_of h.2⟩)
    demoBnd4
    ([.chunk 4] ++ srcs 3 ++ [.timeout, .reconnOk 4] ++ [.read 4] ++ rdrs 3 ++ [.chunk 2] ++
      srcs 6 ++ [.read 2] ++ rdrs 2)
    (fun s => decide (Ev.onReconnect true ∈ s.log ∧ delivered s.log = [1, 2, 3, 4, 5, 6]))
    rfl rfl (by decide +kernel)
  exact ⟨s0, s, h1, h2, of_decide_eq_true h3⟩

end SD
