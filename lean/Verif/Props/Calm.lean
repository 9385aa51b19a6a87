import Verif.Proof.Calm
import Verif.Proof.Sys.Even
import Verif.Props.Finish

/-!
# Properties C76 and C77, and C72 without failing reads

A read of a consumer that only reads fails only for a reason, a download without seeks makes no
range requests, and a consumer that reads to the end of a resource receives it.
-/

set_option linter.unusedVariables false

namespace SD

theorem keeps_capacity {eager blank : Bool} {cl : Option Nat} {P : Provider} (h : Keeps eager blank cl P) :
    P.maxCapacity = none := by
  induction h <;> first | rfl | assumption

theorem supported_lawful {cl : Option Nat} {P : Provider} (h : Supported cl P) :
    ∃ full, Nonempty (LawfulProvider P full cl) := by
  rcases h with h | h
  · obtain ⟨LP, -⟩ := keeps_lawful h
    exact ⟨true, ⟨LP⟩⟩
  · exact ⟨false, windowed_lawful h⟩

/-- C76 for storage that keeps everything: nobody cancels, no range request fails, and
`on_finish` does not turn success into an error.  Then no read of a consumer that does not seek
fails, whatever the transport delivers, and with any errors, stalls and reconnects. -/
theorem C76_reads_succeed_unbounded {P : Provider} {c : Cfg} (hP : Unbounded c.contentLength P)
    (hf : c.onFinish none .completed = none) {s0 s : Sys P.S} (h0 : Starts P c s0)
    (h : Reach c (fun s a => Undisturbed s a ∧ NoSeek s a) s0 s) : ¬ ReadFailed s.log := by
  obtain ⟨CP⟩ := keeps_calm hP
  refine calm_log CP hf (fun n _ => ?_) (fun s a hg => ⟨hg.1, hg.2, fun _ _ => trivial⟩) h0 h
    (fun _ _ _ _ _ => Or.inl rfl)
  simp [Cfg.excessiveRead, h0.1, keeps_capacity hP]

/-- C76 for bounded storage, if no buffer is longer than the configured size and the declared
length (C24). -/
theorem C76_reads_succeed_bounded_partial {F : Provider} {checks : Bool} {bufferSize : Nat} {c : Cfg}
    (hF : Sparing (some (Bnd.sizeFor bufferSize c.contentLength)) F) (hf : c.onFinish none .completed = none)
    {s0 s : Sys (bndStorage checks F.S)} (h0 : Starts (bndProvider checks F bufferSize) c s0)
    (h : Reach c (fun s a => Undisturbed s a ∧ NoSeek s a ∧ BuffersUpTo (Bnd.sizeFor bufferSize c.contentLength) s a)
      s0 s) : ¬ ReadFailed s.log := by
  obtain ⟨CP⟩ := bounded_calm (cl := c.contentLength) checks hF
  obtain ⟨LP⟩ := windowed_lawful (.bounded c.contentLength checks F bufferSize hF)
  refine calm_log CP hf (fun n hn => ?_) (fun s a hg => ⟨hg.1, hg.2.1, hg.2.2⟩) h0 h
    (fun s p l hr hp => Or.inr ((seq_reach LP (fun _ _ hg => hg.2.1) h0 hr).seekAt p l hp).1)
  have : n ≤ bufferSize := by
    refine Nat.le_trans hn ?_
    unfold Bnd.sizeFor
    split <;> omega
  simp [Cfg.excessiveRead, h0.1, this]

/-- C76 for adaptive storage and a stream of unknown length, if no buffer is longer than the
storage (C26). -/
theorem C76_reads_succeed_adaptive_partial {F V : Provider} {checks : Bool} {bufferSize : Nat} {c : Cfg}
    (hF : Sparing (some bufferSize) F) (hV : Sparing (some bufferSize) V) (hcl : c.contentLength = none)
    (hf : c.onFinish none .completed = none) {s0 s : Sys (adpStorage checks F.S V.S)}
    (h0 : Starts (adpProvider checks F V bufferSize) c s0)
    (h : Reach c (fun s a => Undisturbed s a ∧ NoSeek s a ∧ BuffersUpTo bufferSize s a) s0 s) :
    ¬ ReadFailed s.log := by
  obtain ⟨CP⟩ : Nonempty (CalmProvider (adpProvider checks F V bufferSize) c.contentLength false
      fun n => n ≤ bufferSize) := by rw [hcl]; exact adaptive_calm checks hF
  obtain ⟨LP⟩ := windowed_lawful (.adaptive checks F V bufferSize hF hV)
  rw [← hcl] at LP
  refine calm_log CP hf (fun n hn => ?_) (fun s a hg => ⟨hg.1, hg.2.1, hg.2.2⟩) h0 h
    (fun s p l hr hp => Or.inr ((seq_reach LP (fun _ _ hg => hg.2.1) h0 hr).seekAt p l hp).1)
  simp [Cfg.excessiveRead, h0.1]

/-- C77: the consumer does not seek, and the transport resumes where it is asked to and ends only
at the end of the resource.  Then the task makes no range request. -/
theorem C77_no_range_requests {P : Provider} {c : Cfg} (hP : Supported c.contentLength P) {m : Nat}
    (hfin : c.Finite m) {s0 s : Sys P.S} (h0 : Starts P c s0)
    (h : Reach c (fun s a => Faithful c s a ∧ NoSeek s a) s0 s) : ∀ a b, Ev.seekRange a b ∉ s.log := by
  obtain ⟨full, ⟨LP⟩⟩ := supported_lawful hP
  exact (even_reach hfin LP (fun s a hg => ⟨hg.1.1, hg.2, hg.1.2⟩) h0 h).log

theorem no_ask {P : Provider} {c : Cfg} (hP : Supported c.contentLength P) {m : Nat}
    (hfin : c.Finite m) {s0 s : Sys P.S} (h0 : Starts P c s0)
    (h : Reach c (fun s a => Faithful c s a ∧ NoSeek s a) s0 s) : ∀ a b, s.spc ≠ .seeking a b := by
  obtain ⟨full, ⟨LP⟩⟩ := supported_lawful hP
  exact (even_reach hfin LP (fun s a hg => ⟨hg.1.1, hg.2, hg.1.2⟩) h0 h).ask

theorem undisturbed_exec {P : Provider} {c : Cfg} (hP : Supported c.contentLength P) {m : Nat}
    (hfin : c.Finite m) {s0 : Sys P.S} (h0 : Starts P c s0) {r : Nat → Sys P.S} {act : Nat → Option Act}
    (he : Exec c s0 r act) (hG : ∀ i a, act i = some a → Faithful c (r i) a)
    (hns : ∀ j f, act j ≠ some (.seek f)) (hc : ∀ j, act j ≠ some .cancel) :
    ∀ i a, act i = some a → Undisturbed (r i) a ∧ NoSeek (r i) a := by
  intro i a ha
  refine ⟨⟨fun e => hc i (by rw [ha, e]), fun k e => ?_⟩, fun f e => hns i f (by rw [ha, e])⟩
  subst e
  have hr := he.reachG (G := fun s a => Faithful c s a ∧ NoSeek s a)
    (fun i a ha => ⟨hG i a ha, fun f e => hns i f (by rw [ha, e])⟩) i
  have ht := tr_of_step (he.next i _ ha)
  generalize r (i + 1) = s' at ht
  cases ht
  case seekFail start stop heq => exact no_ask hP hfin h0 hr _ _ heq

/-- C72 for storage that keeps everything, if nobody cancels and `on_finish` does not turn success
into an error: a consumer that reads to the end receives the whole resource. -/
theorem C72_whole_resource_unbounded {P : Provider} {c : Cfg} (hP : Unbounded c.contentLength P)
    (hb : c.batchSize ≠ 0) (hk : c.KeepsErrors) (hf : c.onFinish none .completed = none) {m : Nat}
    (hfin : c.Finite m) {s0 : Sys P.S} (h0 : Starts P c s0) {r : Nat → Sys P.S} {act : Nat → Option Act}
    (he : Exec c s0 r act) (hfs : Fair c r act .src) (hfr : Fair c r act .rdr) (hp : Productive r act)
    (hG : ∀ i a, act i = some a → Faithful c (r i) a) (hne : ∀ j, act j ≠ some (.chunk 0))
    (hns : ∀ j f, act j ≠ some (.seek f)) (hn : ∀ j n, act j = some (.read n) → m + n < two64 - 1)
    (hc : ∀ j, act j ≠ some .cancel) (hread : ReadsToEnd r act) :
    ∃ i, delivered (r i).log = slice c.remote 0 m := by
  obtain ⟨i, h | h⟩ := C72_reading_ends_unbounded hP hb hk hfin h0 he hfs hfr hp hG hne hns hn hread
  · exact absurd h (C76_reads_succeed_unbounded hP hf h0
      (he.reachG (undisturbed_exec (Or.inl hP) hfin h0 he hG hns hc) i))
  · exact ⟨i, h⟩

/-- C72 for bounded storage, if nobody cancels, `on_finish` does not turn success into an error
and no buffer is longer than the configured size and the declared length (C24): the consumer
receives the whole resource, and the download ends. -/
theorem C72_whole_resource_bounded_partial {F : Provider} {checks : Bool} {bufferSize : Nat} {c : Cfg}
    (hF : Sparing (some (Bnd.sizeFor bufferSize c.contentLength)) F) (hb : c.batchSize ≠ 0)
    (hbs : bufferSize ≠ 0) (hk : c.KeepsErrors) (hf : c.onFinish none .completed = none) {m : Nat}
    (hfin : c.Finite m) {s0 : Sys (bndStorage checks F.S)} (h0 : Starts (bndProvider checks F bufferSize) c s0)
    {r : Nat → Sys (bndStorage checks F.S)} {act : Nat → Option Act} (he : Exec c s0 r act)
    (hfs : Fair c r act .src) (hfr : Fair c r act .rdr) (hs : Sequential c m r act)
    (hn : ∀ j n, act j = some (.read n) → n ≤ Bnd.sizeFor bufferSize c.contentLength)
    (hc : ∀ j, act j ≠ some .cancel) (hread : ReadsToEnd r act) :
    (∃ i, delivered (r i).log = slice c.remote 0 m) ∧ ∃ i, (r i).spc = .ended := by
  have hu := undisturbed_exec (Or.inr (.bounded c.contentLength checks F bufferSize hF)) hfin h0 he
    (fun i a ha => (hs.faithful i a ha).1) hs.noSeek hc
  have hno : ∀ i, ¬ ReadFailed (r i).log := fun i => C76_reads_succeed_bounded_partial hF hf h0
    (he.reachG (fun i a ha => ⟨(hu i a ha).1, (hu i a ha).2, fun n e => hn i n (by rw [ha, e])⟩) i)
  obtain ⟨⟨i, h1⟩, j, h2⟩ := C72_reading_ends_bounded_partial hF hb hbs hk hfin h0 he hfs hfr hs hread
  exact ⟨⟨i, h1.resolve_left (hno i)⟩, j, h2.resolve_left (hno j)⟩

/-- C72 for adaptive storage and a stream of unknown length, in the same way. -/
theorem C72_whole_resource_adaptive_partial {F V : Provider} {checks : Bool} {bufferSize : Nat} {c : Cfg}
    (hF : Sparing (some bufferSize) F) (hV : Sparing (some bufferSize) V) (hcl : c.contentLength = none)
    (hb : c.batchSize ≠ 0) (hbs : bufferSize ≠ 0) (hk : c.KeepsErrors) (hf : c.onFinish none .completed = none)
    {m : Nat} (hfin : c.Finite m)
    {s0 : Sys (adpStorage checks F.S V.S)} (h0 : Starts (adpProvider checks F V bufferSize) c s0)
    {r : Nat → Sys (adpStorage checks F.S V.S)} {act : Nat → Option Act} (he : Exec c s0 r act)
    (hfs : Fair c r act .src) (hfr : Fair c r act .rdr) (hs : Sequential c m r act)
    (hn : ∀ j n, act j = some (.read n) → n ≤ bufferSize) (hc : ∀ j, act j ≠ some .cancel)
    (hread : ReadsToEnd r act) :
    (∃ i, delivered (r i).log = slice c.remote 0 m) ∧ ∃ i, (r i).spc = .ended := by
  have hu := undisturbed_exec (Or.inr (by rw [hcl]; exact .adaptive checks F V bufferSize hF hV)) hfin h0 he
    (fun i a ha => (hs.faithful i a ha).1) hs.noSeek hc
  have hno : ∀ i, ¬ ReadFailed (r i).log := fun i => C76_reads_succeed_adaptive_partial hF hV hcl hf h0
    (he.reachG (fun i a ha => ⟨(hu i a ha).1, (hu i a ha).2, fun n e => hn i n (by rw [ha, e])⟩) i)
  obtain ⟨⟨i, h1⟩, j, h2⟩ := C72_reading_ends_adaptive_partial hF hV hcl hb hbs hk hfin h0 he hfs hfr hs hn hread
  exact ⟨⟨i, h1.resolve_left (hno i)⟩, j, h2.resolve_left (hno j)⟩

/-! ### What fails -/

/-- Bounded storage of 20 bytes for a resource of 10. -/
def cfgWide : Cfg := { demoCfg with capacity := some 20 }

/-- `Undisturbed`, without seeks, and with short buffers, as a test. -/
def calmB {S : Storage} (limit : Nat) (s : Sys S) (a : Act) : Bool :=
  match a with
  | .cancel | .seekFail _ | .seek _ => false
  | .read n => decide (n ≤ limit)
  | _ => true

theorem calm_of {S : Storage} {limit : Nat} {s : Sys S} {a : Act} (h : calmB limit s a = true) :
    Undisturbed s a ∧ NoSeek s a ∧ BuffersUpTo limit s a := by
  refine ⟨⟨?_, ?_⟩, ?_, ?_⟩
  · rintro rfl; simp [calmB] at h
  · rintro k rfl; simp [calmB] at h
  · rintro f rfl; simp [calmB] at h
  · rintro n rfl; simpa [calmB] using h

/-- C76 fails for bounded storage that is larger than the resource (C24): the configured size is
20 and the resource has 10 bytes; a read with a buffer of 12 bytes fails, although nothing has
gone wrong. -/
theorem C76_reads_succeed_violated : ∃ s0 s : Sys (bndStorage true memStorage),
    Starts (bndProvider true memProvider 20) cfgWide s0 ∧
      Reach cfgWide (fun s a => Undisturbed s a ∧ NoSeek s a ∧ BuffersUpTo 20 s a) s0 s ∧ ReadFailed s.log := by
  have h := exists_of_runG (P := bndProvider true memProvider 20) (c := cfgWide) (g := calmB 20)
    (fun _ _ => calm_of) demoBnd10
    ([.chunk 10] ++ srcs 6 ++ [.eof] ++ srcs 6 ++ [.read 12] ++ rdrs 4)
    (fun s => s.log.any Ev.failedRead) rfl rfl (by decide +kernel)
  obtain ⟨s0, s, h0, hr, hp⟩ := h
  exact ⟨s0, s, h0, hr, by simpa [ReadFailed] using hp⟩

/-! ### Histories that meet the hypotheses -/

/-- C76 for storage that keeps everything: an error, a stall, two reconnects (one of them fails);
the transport ends too early; three reads, of which two sleep. -/
example : ∃ s0 s : Sys memStorage, Starts memProvider demoCfg s0 ∧
    Reach demoCfg (fun s a => Undisturbed s a ∧ NoSeek s a) s0 s ∧
      delivered s.log = [1, 2, 3, 4, 5, 6, 7, 8, 9, 10] ∧ s.spc = .ended := by
  have h := exists_of_runG (P := memProvider) (c := demoCfg) (g := calmB 4)
    (G := fun s a => Undisturbed s a ∧ NoSeek s a) (fun s a h => ⟨(calm_of h).1, (calm_of h).2.1⟩) demoMem10
    ([.read 4] ++ rdrs 3 ++ [.chunkErr, .timeout, .reconnFail, .timeout, .reconnOk 0, .chunk 2] ++ srcs 6 ++
      [.chunk 5] ++ srcs 8 ++ rdrs 5 ++ [.read 4] ++ rdrs 3 ++ [.eof, .src, .seekOk 7, .chunk 3] ++ srcs 8 ++
      rdrs 5 ++ [.read 4] ++ rdrs 3 ++ [.eof] ++ srcs 6)
    (fun s => decide (delivered s.log = [1, 2, 3, 4, 5, 6, 7, 8, 9, 10] ∧ s.spc = .ended)) rfl rfl (by decide +kernel)
  obtain ⟨s0, s, h0, hr, hp⟩ := h
  exact ⟨s0, s, h0, hr, of_decide_eq_true hp⟩

/-- C76 for bounded storage: 10 bytes through a buffer of 4. -/
example : ∃ s0 s : Sys (bndStorage true memStorage), Starts (bndProvider true memProvider 4) cfgBounded s0 ∧
    Reach cfgBounded (fun s a => Undisturbed s a ∧ NoSeek s a ∧
      BuffersUpTo (Bnd.sizeFor 4 cfgBounded.contentLength) s a) s0 s ∧
      delivered s.log = [1, 2, 3, 4, 5, 6, 7, 8, 9, 10] := by
  have h := exists_of_runG (P := bndProvider true memProvider 4) (c := cfgBounded)
    (g := calmB (Bnd.sizeFor 4 cfgBounded.contentLength)) (fun _ _ => calm_of) demoBnd4
    ([.chunk 4] ++ srcs 3 ++ [.chunk 6] ++ srcs 4 ++ [.read 3] ++ rdrs 4 ++ [.read 4] ++ rdrs 3 ++ srcs 12 ++
      rdrs 5 ++ srcs 7 ++ [.read 4] ++ rdrs 3 ++ [.eof] ++ srcs 6)
    (fun s => decide (delivered s.log = [1, 2, 3, 4, 5, 6, 7, 8, 9, 10])) rfl rfl (by decide +kernel)
  obtain ⟨s0, s, h0, hr, hp⟩ := h
  exact ⟨s0, s, h0, hr, of_decide_eq_true hp⟩

/-- C76 for adaptive storage and an unknown length. -/
example : ∃ s0 s : Sys (adpStorage true memStorage memStorage),
    Starts (adpProvider true memProvider memProvider 4) cfgUnknown s0 ∧
    Reach cfgUnknown (fun s a => Undisturbed s a ∧ NoSeek s a ∧ BuffersUpTo 4 s a) s0 s ∧
      delivered s.log = [1, 2, 3, 4, 5, 6, 7, 8, 9, 10] := by
  have h := exists_of_runG (P := adpProvider true memProvider memProvider 4) (c := cfgUnknown)
    (g := calmB 4) (fun _ _ => calm_of) demoAdp4
    ([.chunk 4] ++ srcs 6 ++ [.chunk 6] ++ srcs 4 ++ [.read 3] ++ rdrs 4 ++ [.read 4] ++ rdrs 3 ++ srcs 12 ++
      rdrs 5 ++ srcs 7 ++ [.read 4] ++ rdrs 4 ++ [.eof] ++ srcs 6 ++ rdrs 5)
    (fun s => decide (delivered s.log = [1, 2, 3, 4, 5, 6, 7, 8, 9, 10])) rfl rfl (by decide +kernel)
  obtain ⟨s0, s, h0, hr, hp⟩ := h
  exact ⟨s0, s, h0, hr, of_decide_eq_true hp⟩

/-- C77 and C72: the resource is read in pieces of 4, with an error, a stall and a reconnect. -/
example : ∃ (s0 : Sys memStorage) (r : Nat → Sys memStorage) (act : Nat → Option Act),
    Starts memProvider demoCfg s0 ∧ Exec demoCfg s0 r act ∧ Fair demoCfg r act .src ∧ Fair demoCfg r act .rdr ∧
      Productive r act ∧ (∀ i a, act i = some a → Faithful demoCfg (r i) a) ∧ (∀ j, act j ≠ some (.chunk 0)) ∧
      (∀ j f, act j ≠ some (.seek f)) ∧ (∀ j n, act j = some (.read n) → 10 + n < two64 - 1) ∧
      (∀ j, act j ≠ some .cancel) ∧
      ReadsToEnd r act ∧ (r 64).spc = .ended ∧ delivered (r 64).log = [1, 2, 3, 4, 5, 6, 7, 8, 9, 10] := by
  obtain ⟨h1, h2, h3, h4, h5, h6, h7⟩ := faithful_of_run (P := memProvider) (c := demoCfg) demoMem10
    ([.read 4] ++ rdrs 3 ++ [.chunk 2] ++ srcs 6 ++ [.chunkErr, .timeout, .reconnOk 2, .chunk 5] ++ srcs 8 ++ rdrs 5 ++
      [.read 4] ++ rdrs 3 ++
      [.chunk 3] ++ srcs 8 ++ rdrs 5 ++ [.read 4] ++ rdrs 3 ++ [.eof] ++ srcs 6) rfl rfl (by decide +kernel)
  refine ⟨_, _, _, h1, h2, h3, h4, h5, fun i a ha => (h6 i a ha).1, h7, ?_, ?_, ?_, reads_of (by decide +kernel),
    by decide +kernel, by decide +kernel⟩
  · intro j f e
    exact absurd (List.mem_of_getElem? e) (by simp [srcs, rdrs, List.mem_replicate])
  · intro j n e
    have := List.mem_of_getElem? e
    simp [srcs, rdrs, List.mem_replicate] at this
    subst this
    decide
  · intro j e
    exact absurd (List.mem_of_getElem? e) (by simp [srcs, rdrs, List.mem_replicate])

/-- Bounded storage: 10 bytes through a buffer of 4. -/
example : ∃ (s0 : Sys (bndStorage true memStorage)) (r : Nat → Sys (bndStorage true memStorage))
    (act : Nat → Option Act), Starts (bndProvider true memProvider 4) cfgBounded s0 ∧ Exec cfgBounded s0 r act ∧
      Fair cfgBounded r act .src ∧ Fair cfgBounded r act .rdr ∧ Sequential cfgBounded 10 r act ∧
      (∀ j n, act j = some (.read n) → n ≤ Bnd.sizeFor 4 cfgBounded.contentLength) ∧
      (∀ j, act j ≠ some .cancel) ∧
      ReadsToEnd r act ∧ delivered (r 60).log = [1, 2, 3, 4, 5, 6, 7, 8, 9, 10] := by
  obtain ⟨h1, h2, h3, h4, h5, h6, h7⟩ := faithful_of_run (P := bndProvider true memProvider 4) (c := cfgBounded)
    demoBnd4
    ([.chunk 4] ++ srcs 3 ++ [.chunk 6] ++ srcs 4 ++ [.read 3] ++ rdrs 4 ++ [.read 4] ++ rdrs 3 ++ srcs 12 ++
      rdrs 5 ++ srcs 7 ++ [.read 4] ++ rdrs 4 ++ [.eof] ++ srcs 6) rfl rfl (by decide +kernel)
  refine ⟨_, _, _, h1, h2, h3, h4, ⟨h6, h7, ?_, ?_, h5⟩, ?_, ?_, reads_of (by decide +kernel), by decide +kernel⟩
  · intro j f e
    exact absurd (List.mem_of_getElem? e) (by simp [srcs, rdrs, List.mem_replicate])
  · intro j n e
    have := List.mem_of_getElem? e
    simp [srcs, rdrs, List.mem_replicate] at this
    rcases this with rfl | rfl <;> decide
  · intro j n e
    have := List.mem_of_getElem? e
    simp [srcs, rdrs, List.mem_replicate] at this
    rcases this with rfl | rfl <;> decide
  · intro j e
    exact absurd (List.mem_of_getElem? e) (by simp [srcs, rdrs, List.mem_replicate])

/-- Adaptive storage, unknown length. -/
example : ∃ (s0 : Sys (adpStorage true memStorage memStorage))
    (r : Nat → Sys (adpStorage true memStorage memStorage)) (act : Nat → Option Act),
      Starts (adpProvider true memProvider memProvider 4) cfgUnknown s0 ∧ Exec cfgUnknown s0 r act ∧
      Fair cfgUnknown r act .src ∧ Fair cfgUnknown r act .rdr ∧ Sequential cfgUnknown 10 r act ∧
      (∀ j n, act j = some (.read n) → n ≤ 4) ∧ (∀ j, act j ≠ some .cancel) ∧
      ReadsToEnd r act ∧ delivered (r 60).log = [1, 2, 3, 4, 5, 6, 7, 8, 9, 10] := by
  obtain ⟨h1, h2, h3, h4, h5, h6, h7⟩ := faithful_of_run (P := adpProvider true memProvider memProvider 4)
    (c := cfgUnknown) demoAdp4
    ([.chunk 4] ++ srcs 6 ++ [.chunk 6] ++ srcs 4 ++ [.read 3] ++ rdrs 4 ++ [.read 4] ++ rdrs 3 ++ srcs 12 ++
      rdrs 5 ++ srcs 7 ++ [.read 4] ++ rdrs 4 ++ [.eof] ++ srcs 6 ++ rdrs 5) rfl rfl (by decide +kernel)
  refine ⟨_, _, _, h1, h2, h3, h4, ⟨h6, h7, ?_, ?_, h5⟩, ?_, ?_, reads_of (by decide +kernel), by decide +kernel⟩
  · intro j f e
    exact absurd (List.mem_of_getElem? e) (by simp [srcs, rdrs, List.mem_replicate])
  · intro j n e
    have := List.mem_of_getElem? e
    simp [srcs, rdrs, List.mem_replicate] at this
    rcases this with rfl | rfl <;> decide
  · intro j n e
    have := List.mem_of_getElem? e
    simp [srcs, rdrs, List.mem_replicate] at this
    omega
  · intro j e
    exact absurd (List.mem_of_getElem? e) (by simp [srcs, rdrs, List.mem_replicate])

end SD
