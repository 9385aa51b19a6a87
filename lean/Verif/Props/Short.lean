import Verif.Props.Finish

/-!
# Property C80: storage that takes or returns less than it is asked to

`Sparing` providers keep everything, their writes may take part of what they are given, and their
reads may return part of what is there (`Verif/Model/Short.lean`).  That writes may be short is part
of all other properties: `Unbounded` providers include it, and `Windowed` ones may lie over `Sparing`
ones.
-/

set_option linter.unusedVariables false

namespace SD

variable {P : Provider} {c : Cfg}

/-! ### What reads return -/

/-- C80, sequential reads: what the reads have returned so far is a prefix of the resource.
Missing, as in C01: sources that cannot seek and end before their declared length. -/
theorem C80_sequential_partial (hP : Sparing c.contentLength P) (hb : c.batchSize ≠ 0)
    (hlen : c.LengthHonest) (hk : c.KeepsErrors) {s0 s : Sys P.S} (h0 : Starts P c s0)
    (h : Reach c (fun s a => Honest s a ∧ NoSeek s a ∧ Delivers c s a) s0 s) :
    delivered s.log = slice c.remote 0 (delivered s.log).length := by
  obtain ⟨LP, hTot, -⟩ := keeps_lawful hP
  obtain ⟨PP⟩ := keeps_positional hP
  have hfw : ∀ s a, NoSeek (S := P.S) s a → Connected c s a := fun s a hn f p hf => absurd hf (hn f)
  have h1 := (fwd_log LP hTot.works hb hlen hk
    (fun s a hg => ⟨hg.1, fun _ => hg.2.2, fun _ => hfw s a hg.2.1⟩) h0 h).2
  have h2 := (PosInv.reach PP h0 h).rule
  have h3 := h0
  obtain ⟨-, st, -, rfl⟩ := h3
  have h4 := (noSeek_reach (fun _ _ hg => hg.2.1) h).2
  exact (delivered_exact (readsExact_of_rule (h1.mono fun _ _ => readRule_exact)) h2 h4).2

/-- C80 for storage that starts with nothing to read: no restriction on where the transport ends. -/
theorem C80_sequential_blank (hP : SparingBlank c.contentLength P) (hb : c.batchSize ≠ 0)
    (hlen : c.LengthHonest) (hk : c.KeepsErrors) {s0 s : Sys P.S}
    (h0 : Starts P c s0) (h : Reach c (fun s a => Honest s a ∧ NoSeek s a) s0 s) :
    delivered s.log = slice c.remote 0 (delivered s.log).length := by
  obtain ⟨LP, hTot, -, hE⟩ := keeps_lawful hP
  obtain ⟨PP⟩ := keeps_positional hP
  have hfw : ∀ s a, NoSeek (S := P.S) s a → Connected c s a := fun s a hn f p hf => absurd hf (hn f)
  have h1 := (fwd_log LP hTot.works hb hlen hk
    (fun s a hg => ⟨hg.1, fun hne => absurd (hE rfl) hne, fun _ => hfw s a hg.2⟩) h0 h).2
  have h2 := (PosInv.reach PP h0 h).rule
  have h3 := h0
  obtain ⟨-, st, -, rfl⟩ := h3
  have h4 := (noSeek_reach (fun _ _ hg => hg.2) h).2
  exact (delivered_exact (readsExact_of_rule (h1.mono fun _ _ => readRule_exact)) h2 h4).2

/-- C80, reads after seeks: every read returns the bytes of the resource at its position.  Missing,
as in C03: seeks back on a seekable source, and sources that cannot seek and end early. -/
theorem C80_reads_after_seeks_partial (hP : Sparing c.contentLength P) (hb : c.batchSize ≠ 0)
    (hlen : c.LengthHonest) (hk : c.KeepsErrors) {s0 s : Sys P.S} (h0 : Starts P c s0)
    (h : Reach c (fun s a => Honest s a ∧ Delivers c s a ∧ (c.supportsSeek = true → Connected c s a)) s0 s) :
    ReadsExact c.remote s.log := by
  obtain ⟨LP, hTot, -⟩ := keeps_lawful hP
  have h1 := (fwd_log LP hTot.works hb hlen hk (fun s a hg => ⟨hg.1, fun _ => hg.2.1, hg.2.2⟩) h0 h).2
  exact readsExact_of_rule (h1.mono fun _ _ => readRule_exact)

/-- C80, reads that do not wait: in every history, such a read succeeds and returns bytes of the
resource from its position on, and it returns at least one if it asks for one before the end of
the resource. -/
theorem C80_unblocked_read (hP : Sparing c.contentLength P) (hb : c.batchSize ≠ 0) (hlen : c.LengthHonest)
    {s0 s : Sys P.S} (h0 : Starts P c s0) (h : Reach c Honest s0 s) {pos len : Nat} {res : Res (List Byte)}
    (hr : Ev.readRet pos len true res ∈ s.log) :
    ∃ bs, res = .ok bs ∧ bs = slice c.remote pos bs.length ∧
      (0 < len → (∀ N, c.contentLength = some N → pos < N) → bs ≠ []) := by
  obtain ⟨LP, hTot, -⟩ := keeps_lawful hP
  have h1 := (full_fast_log LP hTot hb hlen (fun _ _ h => h) h0 h).2
  obtain ⟨-, l2, -, bs, rfl, h2, h3⟩ := h1.mem hr
  refine ⟨bs, rfl, h2, fun hl hN e => ?_⟩
  subst e
  rcases h3 with h3 | h3
  · simp only [List.length_nil, Cfg.normalize] at h3
    cases hc : c.contentLength with
    | none => rw [hc] at h3; simp only at h3; omega
    | some N =>
      have := hN N hc
      rw [hc] at h3
      simp only at h3
      omega
  · exact absurd (LP.law.cut_pos h3) (Nat.lt_irrefl _)

/-! ### The end of the resource -/

/-- C80, known length `N`: a read into a buffer that is not empty returns nothing only at the end
of the resource. -/
theorem C80_nothing_only_at_end_partial (hP : Sparing c.contentLength P) (hb : c.batchSize ≠ 0)
    (hlen : c.LengthHonest) (hk : c.KeepsErrors) {N : Nat} (hN : c.contentLength = some N)
    {s0 s : Sys P.S} (h0 : Starts P c s0)
    (h : Reach c (fun s a => Honest s a ∧ Delivers c s a ∧ Connected c s a) s0 s)
    {pos len : Nat} {fast : Bool} (hr : Ev.readRet pos len fast (.ok []) ∈ s.log) (hl : 0 < len) :
    N ≤ pos := by
  obtain ⟨LP, hTot, -⟩ := keeps_lawful hP
  have h1 := (whole_log LP hTot.works hb hlen hk hN (fun s a hg => ⟨hg.1, hg.2.1, fun _ => hg.2.2⟩) h0 h).2
  obtain ⟨-, l2, -, h2⟩ := h1.mem hr
  exact (h2 hl).resolve_right fun hc => absurd (LP.law.cut_pos hc) (Nat.lt_irrefl _)

/-- C80, unknown length: the same, if the transport ends only at the end of the resource. -/
theorem C80_nothing_only_at_end_unknown_length_partial (hP : Sparing c.contentLength P) (hb : c.batchSize ≠ 0)
    (hk : c.KeepsErrors) {N : Nat} (hcl : c.contentLength = none) (hm : c.remoteLen = some N)
    {s0 s : Sys P.S} (h0 : Starts P c s0)
    (h : Reach c (fun s a => Honest s a ∧ EndsAtEnd c s a ∧ (c.supportsSeek = true → Connected c s a)) s0 s)
    {pos len : Nat} {fast : Bool} (hr : Ev.readRet pos len fast (.ok []) ∈ s.log) (hl : 0 < len) :
    N ≤ pos := by
  obtain ⟨LP, hTot, -⟩ := keeps_lawful hP
  have h1 := (uwhole_log LP hTot.works hb hk hcl hm (fun s a hg => hg) h0 h).2
  obtain ⟨-, l2, -, h2⟩ := h1.mem hr
  exact (h2 hl).resolve_right fun hc => absurd (LP.law.cut_pos hc) (Nat.lt_irrefl _)

/-- C80, reading to the end: the resource has `m` bytes (and that is its declared length, if it
declares one); the consumer only reads.  Once a read has returned nothing, the reads have together
returned the whole resource, and no later read adds to it. -/
theorem C80_read_to_end (hP : Sparing c.contentLength P) (hb : c.batchSize ≠ 0) (hk : c.KeepsErrors)
    {m : Nat} (hfin : c.Finite m) {s0 s : Sys P.S} (h0 : Starts P c s0)
    (h : Reach c (fun s a => Honest s a ∧ NoSeek s a ∧ Delivers c s a ∧
      (c.contentLength = none → EndsAtEnd c s a)) s0 s)
    {later earlier : List Ev} {pos len : Nat} {fast : Bool}
    (hl : s.log = later ++ .readRet pos len fast (.ok []) :: earlier) (hlt : 0 < len) :
    delivered earlier = slice c.remote 0 m ∧ delivered s.log = slice c.remote 0 m := by
  have hlen : c.LengthHonest := fun n hn => ⟨m, hfin.1, by rw [hfin.2 n hn]⟩
  have hfw : ∀ s a, NoSeek (S := P.S) s a → Connected c s a := fun s a hn f p hf => absurd hf (hn f)
  have hmem : Ev.readRet pos len fast (.ok []) ∈ s.log := by rw [hl]; simp
  have hend : m ≤ pos := by
    cases hcl : c.contentLength with
    | none =>
      exact C80_nothing_only_at_end_unknown_length_partial hP hb hk hcl hfin.1 h0
        (h.mono fun s a hg => ⟨hg.1, hg.2.2.2 hcl, fun _ => hfw s a hg.2.1⟩) hmem hlt
    | some n =>
      have := hfin.2 n hcl
      subst this
      exact C80_nothing_only_at_end_partial hP hb hlen hk hcl h0
        (h.mono fun s a hg => ⟨hg.1, hg.2.2.1, hfw s a hg.2.1⟩) hmem hlt
  obtain ⟨LP, hTot, -⟩ := keeps_lawful hP
  obtain ⟨PP⟩ := keeps_positional hP
  have hp := (PosInv.reach PP h0 h).rule
  have := all_of_short (c := c) hl (fun b => ?_) hp ?_ (by simpa using hend)
  · simpa [delivered] using this
  · exact readsExact_of_rule (((fwd_log (c := c.beyond m b) LP hTot.works hb hlen hk
      (fun s a hg => ⟨hg.1, fun _ => hg.2.2.1, fun _ => hfw s a hg.2.1⟩) h0 (reach_beyond hfin.1 h)).2).mono
        fun _ _ => readRule_exact)
  · obtain ⟨-, st, -, rfl⟩ := h0
    exact (noSeek_reach (fun _ _ hg => hg.2.1) h).2

/-! ### The download goes on -/

/-- C80: the task does not panic. -/
theorem C80_no_panic_partial (hP : Sparing c.contentLength P) (hb : c.batchSize ≠ 0) {s0 s : Sys P.S}
    (h0 : Starts P c s0) (h : Reach c NonEmpty s0 s) : s.spc ≠ .panicked :=
  keeps_no_panic hP hb h0 h

/-- C80: short transfers never make the task sleep. -/
theorem C80_never_pauses (hP : Sparing c.contentLength P) (hb : c.batchSize ≠ 0) {s0 s : Sys P.S}
    (h0 : Starts P c s0) (h : Reach c Any s0 s) : ¬ Paused c s :=
  keeps_never_pauses hP hb h0 h

/-- C80: every call returns. -/
theorem C80_calls_return (hP : Sparing c.contentLength P) (hb : c.batchSize ≠ 0) {s0 : Sys P.S}
    (h0 : Starts P c s0) {r : Nat → Sys P.S} {act : Nat → Option Act} (he : Exec c s0 r act)
    (hfs : Fair c r act .src) (hfr : Fair c r act .rdr) (hk : KeepsDelivering r act)
    (hne : ∀ j, act j ≠ some (.chunk 0)) (hmax : ∀ j, Ev.request (two64 - 1) ∉ (r j).log) {i : Nat}
    (hc : (r i).rpc.inCall = true) :
    ∃ j, i ≤ j ∧ ((r j).rpc = .idle ∨ (r j).rpc = .panicked) :=
  keeps_calls_return hP hb h0 he hfs hfr hk hne hmax hc

/-- C80: the download ends. -/
theorem C80_download_ends (hP : Sparing c.contentLength P) (hb : c.batchSize ≠ 0) {m : Nat}
    (hfin : c.Finite m) {s0 : Sys P.S} (h0 : Starts P c s0) {r : Nat → Sys P.S} {act : Nat → Option Act}
    (he : Exec c s0 r act) (hfs : Fair c r act .src) (hp : Productive r act)
    (hG : ∀ i a, act i = some a → Faithful c (r i) a) (hne : ∀ j, act j ≠ some (.chunk 0)) {i0 : Nat}
    (hseek : ∀ j f, i0 ≤ j → act j ≠ some (.seek f)) : ∃ j, (r j).spc = .ended :=
  keeps_download_ends hP hb hfin h0 he hfs (hp.advancing fun i a ha => (hG i a ha).2)
    (fun i a ha => (hG i a ha).1) hne hseek

/-- C80: a consumer that reads until nothing comes gets to the end, and unless a read failed, the
reads have returned the whole resource. -/
theorem C80_reading_ends (hP : Sparing c.contentLength P) (hb : c.batchSize ≠ 0) (hk : c.KeepsErrors)
    {m : Nat} (hfin : c.Finite m) {s0 : Sys P.S} (h0 : Starts P c s0) {r : Nat → Sys P.S}
    {act : Nat → Option Act} (he : Exec c s0 r act) (hfs : Fair c r act .src) (hfr : Fair c r act .rdr)
    (hp : Productive r act) (hG : ∀ i a, act i = some a → Faithful c (r i) a)
    (hne : ∀ j, act j ≠ some (.chunk 0)) (hns : ∀ j f, act j ≠ some (.seek f))
    (hn : ∀ j n, act j = some (.read n) → m + n < two64 - 1) (hread : ReadsDry r act) :
    ∃ i, ReadFailed (r i).log ∨ delivered (r i).log = slice c.remote 0 m := by
  have hw := keeps_whole_exec hP hb hk hfin h0 he (fun i a ha => ⟨(hG i a ha).1, whole_guard hfin h0
    (he.reachG (fun i a ha f e => hns i f (by rw [ha, e])) i) (hG i a ha)⟩) hns
  have hov := no_overflow he (by obtain ⟨-, st, -, h⟩ := h0; exact ⟨st, h⟩) hns (fun i => (hw i).1) hn
  have hlast : ∃ i, ∃ e ∈ (r i).log, e.dry = true := by
    obtain ⟨i, h | h⟩ := reads_progress_of dry_stops he (by obtain ⟨-, st, -, rfl⟩ := h0; rfl) hread
      (fun i => (hw i).2.1)
      (fun i hi => keeps_calls_return_finite hP hb hfin h0 he hfs hfr (hp.advancing fun i a ha => (hG i a ha).2)
        (fun i a ha => (hG i a ha).1) hne
        (fun j hj => absurd ((hov j).1 _ hj) (Nat.lt_irrefl _))
        (by revert hi; cases (r i).rpc <;> simp [RdrPc.inCall, RdrPc.inReadCall]))
    · obtain ⟨e, h1, -, h2⟩ := (hov i).2.2.2.1 h
      exact ⟨i, e, h1, h2⟩
    · exact ⟨i, h⟩
  obtain ⟨i, e, hm, hl⟩ := hlast
  refine ⟨i, ?_⟩
  cases e with
  | readRet pos len fast res =>
    cases res with
    | ok bs =>
      simp only [Ev.dry, decide_eq_true_eq] at hl
      obtain ⟨h1, h2⟩ := hl
      obtain rfl := List.length_eq_zero_iff.mp h2
      obtain ⟨later, earlier, h3⟩ := List.append_of_mem hm
      exact Or.inr (C80_read_to_end hP hb hk hfin h0 (hw i).2.2 h3 h1).2
    | err k => exact Or.inl ⟨_, hm, rfl⟩
    | panic => exact Or.inl ⟨_, hm, rfl⟩
  | readErr n k => exact Or.inl ⟨_, hm, rfl⟩
  | _ => simp [Ev.dry] at hl

/-! ### Histories that meet the hypotheses -/

/-- The test. -/
def dryB {S : Storage} (c : Cfg) (s0 : Sys S) (as : List Act) : Bool :=
  ((after c s0 as as.length).log.any Ev.dry) &&
    (List.range as.length).all fun i => ((after c s0 as i).rpc != .idle) || ((after c s0 as i).log.any Ev.dry) ||
      (List.range as.length).any fun j => decide (i ≤ j) &&
        match as[j]? with | some (.read n) => decide (0 < n) | _ => false

theorem dry_of {S : Storage} {c : Cfg} {s0 : Sys S} {as : List Act} (h : dryB c s0 as = true) :
    ReadsDry (after c s0 as) (fun i => as[i]?) := by
  intro i hi hl
  simp only [dryB, Bool.and_eq_true, List.any_eq_true, List.all_eq_true, List.mem_range] at h
  obtain ⟨⟨e, h1, h2⟩, h3⟩ := h
  rcases Nat.lt_or_ge i as.length with hlt | hge
  · have := h3 i hlt
    simp only [Bool.or_eq_true, bne_iff_ne, ne_eq, List.any_eq_true, Bool.and_eq_true, decide_eq_true_eq,
      List.mem_range] at this
    rcases this with (h | ⟨e, h4, h5⟩) | ⟨j, h4, h5, h6⟩
    · exact absurd hi h
    · rw [hl e h4] at h5; cases h5
    · split at h6
      · next n e => exact ⟨j, n, h5, of_decide_eq_true h6, e⟩
      · cases h6
  · rw [after_end hge] at hl
    rw [hl e h1] at h2
    cases h2

/-- Memory whose writes take at most three bytes and whose reads return two and three in turn. -/
abbrev tinyProvider : Provider := shortProvider (fun i => 1 + i % 2) (slowProvider (fun _ => 2) memProvider)

theorem tiny_sparing (cl : Option Nat) : Sparing cl tinyProvider :=
  .short cl _ _ rfl (.slow cl _ _ (.memory cl (by simp)))

/-- Its first state, for a length of 10. -/
def demoTiny : (short (slow memStorage)).σ :=
  { st := { st := demoMem10, takes := fun _ => 2, writes := 0 }, gives := fun i => 1 + i % 2, reads := 0 }

/-- Three writes for a chunk and short reads until nothing comes: the reads that do not wait return
less than they ask for, and together everything. -/
example : ∃ s0 s : Sys (short (slow memStorage)), Starts tinyProvider demoCfg s0 ∧
    Reach demoCfg (fun s a => Honest s a ∧ NoSeek s a ∧ Delivers demoCfg s a ∧
      (demoCfg.contentLength = none → EndsAtEnd demoCfg s a)) s0 s ∧
    Ev.write 4 [5, 6, 7, 8, 9, 10] 3 ∈ s.log ∧ Ev.readRet 2 4 true (.ok [3, 4, 5]) ∈ s.log ∧
    (∃ later earlier, s.log = later ++ Ev.readRet 10 8 false (.ok []) :: earlier) ∧
    delivered s.log = [1, 2, 3, 4, 5, 6, 7, 8, 9, 10] := by
  have h := exists_of_runG (P := tinyProvider) (c := demoCfg)
    (g := fun s a => honestB s a && noSeekB s a && deliversB demoCfg s a)
    (G := fun s a => Honest s a ∧ NoSeek s a ∧ Delivers demoCfg s a ∧
      (demoCfg.contentLength = none → EndsAtEnd demoCfg s a))
    (fun s a h => by
      rw [Bool.and_eq_true, Bool.and_eq_true] at h
      exact ⟨honest_of h.1.1, noSeek_of h.1.2, delivers_of h.2, fun h => by cases h⟩)
    demoTiny
    ([.chunk 4] ++ srcs 7 ++ [.read 4] ++ rdrs 4 ++ [.chunk 6] ++ srcs 7 ++ [.read 4] ++ rdrs 4 ++ [.eof] ++
      srcs 6 ++ [.read 8] ++ rdrs 3 ++ [.read 8] ++ rdrs 3 ++ [.read 8] ++ rdrs 7)
    (fun s => decide (Ev.write 4 [5, 6, 7, 8, 9, 10] 3 ∈ s.log ∧ Ev.readRet 2 4 true (.ok [3, 4, 5]) ∈ s.log ∧
      Ev.readRet 10 8 false (.ok []) ∈ s.log ∧ delivered s.log = [1, 2, 3, 4, 5, 6, 7, 8, 9, 10])) rfl rfl
    (by decide +kernel)
  obtain ⟨s0, s, h1, h2, h3⟩ := h
  obtain ⟨h3, h4, h5, h6⟩ := of_decide_eq_true h3
  exact ⟨s0, s, h1, h2, h3, h4, List.append_of_mem h5, h6⟩

/-- The same over a temp file, without a declared length. -/
example : ∃ s0 s : Sys (short (slow tmpStorage)),
    Starts (shortProvider (fun _ => 2) (slowProvider (fun _ => 2) tmpProvider)) cfgOpen s0 ∧
    SparingBlank cfgOpen.contentLength (shortProvider (fun _ => 2) (slowProvider (fun _ => 2) tmpProvider)) ∧
    Reach cfgOpen (fun s a => Honest s a ∧ NoSeek s a) s0 s ∧ delivered s.log = [1, 2, 3] := by
  have h := exists_of_runG (P := shortProvider (fun _ => 2) (slowProvider (fun _ => 2) tmpProvider)) (c := cfgOpen)
    (g := fun s a => honestB s a && noSeekB s a) (G := fun s a => Honest s a ∧ NoSeek s a)
    (fun s a h => by
      rw [Bool.and_eq_true] at h
      exact ⟨honest_of h.1, noSeek_of h.2⟩)
    { st := { st := { file := [], wp := 0, fp := 0, rbuf := [] }, takes := fun _ => 2, writes := 0 }, gives := fun _ => 2, reads := 0 }
    ([.chunk 5] ++ srcs 7 ++ [.read 4] ++ rdrs 2)
    (fun s => decide (delivered s.log = [1, 2, 3])) rfl rfl
    (by decide +kernel)
  obtain ⟨s0, s, h1, h2, h3⟩ := h
  exact ⟨s0, s, h1, .short _ _ _ rfl (.slow _ _ _ (.temp _)), h2, of_decide_eq_true h3⟩

/-- A seek ahead, and a short read there. -/
example : ∃ s0 s : Sys (short (slow memStorage)), Starts tinyProvider demoCfg s0 ∧
    Reach demoCfg (fun s a => Honest s a ∧ Delivers demoCfg s a ∧ Connected demoCfg s a) s0 s ∧
    Ev.readRet 5 5 false (.ok [6, 7]) ∈ s.log := by
  have h := exists_of_runG (P := tinyProvider) (c := demoCfg)
    (g := fun s a => honestB s a && deliversB demoCfg s a && connectedB demoCfg s a)
    (G := fun s a => Honest s a ∧ Delivers demoCfg s a ∧ Connected demoCfg s a)
    (fun s a h => by
      rw [Bool.and_eq_true, Bool.and_eq_true] at h
      exact ⟨honest_of h.1.1, delivers_of h.1.2, connected_of h.2⟩)
    demoTiny
    ([.chunk 2] ++ srcs 6 ++ [.seek (.start 5)] ++ rdrs 3 ++ [.recvSeek, .src, .seekOk 5, .chunk 1] ++
      srcs 3 ++ [.chunk 1] ++ srcs 8 ++ rdrs 3 ++ [.read 5] ++ rdrs 3 ++ [.chunk 3] ++ srcs 8 ++ rdrs 5)
    (fun s => decide (Ev.readRet 5 5 false (.ok [6, 7]) ∈ s.log)) rfl rfl
    (by decide +kernel)
  obtain ⟨s0, s, h1, h2, h3⟩ := h
  exact ⟨s0, s, h1, h2, of_decide_eq_true h3⟩

/-- A consumer that reads until nothing comes, with a download that ends. -/
example : ∃ (s0 : Sys (short (slow memStorage))) (r : Nat → Sys (short (slow memStorage))) (act : Nat → Option Act),
    Starts tinyProvider demoCfg s0 ∧ Exec demoCfg s0 r act ∧ Fair demoCfg r act .src ∧ Fair demoCfg r act .rdr ∧
      Productive r act ∧ (∀ i a, act i = some a → Faithful demoCfg (r i) a) ∧ (∀ j, act j ≠ some (.chunk 0)) ∧
      (∀ j f, act j ≠ some (.seek f)) ∧ (∀ j n, act j = some (.read n) → 10 + n < two64 - 1) ∧
      ReadsDry r act ∧ ¬ ReadFailed (r 60).log ∧ delivered (r 60).log = [1, 2, 3, 4, 5, 6, 7, 8, 9, 10] := by
  obtain ⟨h1, h2, h3, h4, h5, h6, h7⟩ := faithful_of_run (P := tinyProvider) (c := demoCfg) demoTiny
    ([.chunk 4] ++ srcs 7 ++ [.read 4] ++ rdrs 4 ++ [.chunk 6] ++ srcs 7 ++ [.read 4] ++ rdrs 4 ++ [.eof] ++
      srcs 6 ++ [.read 8] ++ rdrs 3 ++ [.read 8] ++ rdrs 3 ++ [.read 8] ++ rdrs 7) rfl rfl (by decide +kernel)
  refine ⟨_, _, _, h1, h2, h3, h4, h5, fun i a ha => (h6 i a ha).1, h7, ?_, ?_, dry_of (by decide +kernel), ?_,
    by decide +kernel⟩
  · intro j f e
    exact absurd (List.mem_of_getElem? e) (by simp [srcs, rdrs])
  · intro j n e
    have := List.mem_of_getElem? e
    simp [srcs, rdrs, List.mem_replicate] at this
    rcases this with rfl | rfl <;> decide
  · show ¬ ∃ e ∈ _, _
    decide +kernel

/-- Bounded storage of 4 bytes over memory with short transfers: it passes none of them on. -/
example : ∃ s0 s : Sys (bndStorage true (short (slow memStorage))),
    Starts (bndProvider true tinyProvider 4) cfgBounded s0 ∧
    Windowed cfgBounded.contentLength (bndProvider true tinyProvider 4) ∧
    Reach cfgBounded (fun s a => Honest s a ∧ CleanReconnect s a ∧ NoSeek s a ∧ Delivers cfgBounded s a) s0 s ∧
    Ev.write 0 [1, 2, 3, 4] 4 ∈ s.log ∧ Ev.readRet 0 4 true (.ok [1, 2, 3, 4]) ∈ s.log := by
  have h := exists_of_runG (P := bndProvider true tinyProvider 4) (c := cfgBounded)
    (g := fun s a => honestB s a && cleanB s a && noSeekB s a && deliversB cfgBounded s a)
    (G := fun s a => Honest s a ∧ CleanReconnect s a ∧ NoSeek s a ∧ Delivers cfgBounded s a)
    (fun s a h => by
      simp only [Bool.and_eq_true] at h
      exact ⟨honest_of h.1.1.1, clean_of h.1.1.2, noSeek_of h.1.2, delivers_of h.2⟩)
    { inner := { demoTiny with st := { demoTiny.st with st := demoBnd4.inner } }
      read := 0, written := 0, rp := 0, wp := 0, size := 4 }
    ([.chunk 4] ++ srcs 3 ++ [.read 4] ++ rdrs 3)
    (fun s => decide (Ev.write 0 [1, 2, 3, 4] 4 ∈ s.log ∧ Ev.readRet 0 4 true (.ok [1, 2, 3, 4]) ∈ s.log)) rfl rfl
    (by decide +kernel)
  obtain ⟨s0, s, h1, h2, h3⟩ := h
  obtain ⟨h3, h4⟩ := of_decide_eq_true h3
  exact ⟨s0, s, h1, .bounded _ _ _ _ (tiny_sparing _), h2, h3, h4⟩

end SD
