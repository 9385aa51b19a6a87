import Verif.Proof.Sys.Line
import Verif.Props.AnyServer

/-!
# Property C89: the consumer reads what was received, in order

Nothing is assumed of the source: not even that it delivers the bytes it was asked for.
-/

namespace SD

variable {P : Provider} {c : Cfg}

/-- Storage that has nothing to read before it was written. -/
def ReadsOnlyWritten (cl : Option Nat) (P : Provider) : Prop := SparingBlank cl P ∨ Windowed cl P

theorem accepted_grows {l : List Ev} {e : Ev} : accepted l <+: accepted (e :: l) := by
  cases e <;> simp [accepted]

theorem delivered_line {e : Prop} (he : e) {log : List Ev} (hr : Always (lineRule e) log) (hp : Always posRule log)
    (hs : ∀ t r, Ev.seekRet t r ∉ log) :
    logPos log = (delivered log).length ∧ delivered log <+: accepted log := by
  induction log with
  | nil => exact ⟨rfl, List.prefix_refl _⟩
  | cons e l ih =>
    obtain ⟨ih1, ih2⟩ := ih hr.2 hp.2 (fun t r h => hs t r (List.mem_cons_of_mem _ h))
    cases e with
    | readRet pos len fast res =>
      cases res with
      | ok bs =>
        have h1 := hp.1.1
        have h2 : bs <+: (accepted l).drop pos := hr.1.2 he
        simp only [logPos, delivered, accepted, List.length_append]
        refine ⟨by rw [ih1], ?_⟩
        rw [h1, ih1] at h2
        obtain ⟨t, ht⟩ := ih2
        rw [← ht, List.drop_left] at h2
        rw [← ht]
        exact List.prefix_append_right_inj _ |>.mpr h2
      | err k => exact ⟨ih1, ih2⟩
      | panic => exact ⟨ih1, ih2⟩
    | seekRet t r => exact absurd (by simp) (hs t r)
    | _ => exact ⟨ih1, ih2.trans accepted_grows⟩

theorem lineRule_mem {e : Prop} (he : e) {log : List Ev} (hr : Always (lineRule e) log) {pos len : Nat} {fast : Bool} {bs : List Byte}
    (h : Ev.readRet pos len fast (.ok bs) ∈ log) : bs <+: (accepted log).drop pos := by
  induction log with
  | nil => cases h
  | cons e l ih =>
    have grow : (accepted l).drop pos <+: (accepted (e :: l)).drop pos := accepted_grows.drop pos
    rcases List.mem_cons.mp h with rfl | h
    · exact hr.1.2 he
    · exact (ih hr.2 h).trans grow

theorem line_of (hP : ReadsOnlyWritten c.contentLength P) {G : Sys P.S → Act → Prop}
    (hG : ∀ s a, G s a → c.supportsSeek = true → NoSeek s a) {s0 s : Sys P.S} (h0 : Starts P c s0)
    (h : Reach c G s0 s) : (∃ e, e ∧ Always (lineRule e) s.log) ∧
    Nonempty (PositionalProvider P c.contentLength) := by
  rcases hP with hP | hP
  · obtain ⟨LP, -, -, hE⟩ := keeps_lawful hP
    exact ⟨⟨_, fun _ => hE rfl, line_log LP hG h0 h⟩, keeps_positional hP⟩
  · obtain ⟨LP⟩ := windowed_lawful hP
    exact ⟨⟨_, nofun, line_log LP hG h0 h⟩, windowed_positional hP⟩

/-- **C89.** Whatever the source delivers, a consumer that does not seek has read the first bytes that were received,
in the order in which they were received. -/
theorem C89_delivered_as_received (hP : ReadsOnlyWritten c.contentLength P) (hb : c.batchSize ≠ 0) {s0 s : Sys P.S}
    (h0 : Starts P c s0) (h : Reach c NoSeek s0 s) : delivered s.log <+: received s.log := by
  obtain ⟨⟨e, he, h1⟩, ⟨PP⟩⟩ := line_of hP (fun _ _ h _ => h) h0 h
  have h2 := (PosInv.reach PP h0 h).rule
  have h3 := (Chunks.reach hb PP h0 (fun s p hs hm _ => by
    obtain ⟨-, st, hc, rfl⟩ := h0
    exact absurd hm ((noSeek_src hs).2.2 p)) h).1.pre
  obtain ⟨-, st, -, rfl⟩ := h0
  exact (delivered_line he h1 h2 (noSeek_reach (fun _ _ hg => hg) h).2).2.trans h3

/-- **C89** for a source that cannot seek: however the consumer seeks, a read at `pos` returns the bytes that were
received after the first `pos` ones. -/
theorem C89_reads_received_unseekable (hP : ReadsOnlyWritten c.contentLength P) (hb : c.batchSize ≠ 0)
    (hs : c.supportsSeek = false) {s0 s : Sys P.S} (h0 : Starts P c s0) (h : Reach c Any s0 s) {pos len : Nat}
    {fast : Bool} {bs : List Byte} (hr : Ev.readRet pos len fast (.ok bs) ∈ s.log) :
    bs <+: (received s.log).drop pos := by
  obtain ⟨⟨e, he, h1⟩, ⟨PP⟩⟩ := line_of hP (G := Any) (fun _ _ _ h => by simp [hs] at h) h0 h
  have h3 := (Chunks.reach hb PP h0 (fun s p _ _ hsh => absurd hsh.1 (by simp [hs])) h).1.pre
  exact (lineRule_mem he h1 hr).trans (h3.drop pos)

/-- **C89** for HTTP: whatever the server answers, a consumer that does not seek has read the first bytes that were
received. -/
theorem C89_http_delivered_as_received (hP : ReadsOnlyWritten c.contentLength P) (hb : c.batchSize ≠ 0)
    {mime : Text → Option (Text × Text)} {answer : Answer} {w0 w : HSys P.S} (h0 : HStarts P c mime answer w0)
    (h : HReach c (fun _ => True) HNoSeek w0 w) : delivered w.sys.log <+: received w.sys.log := by
  obtain ⟨ρ, t, h1, h2⟩ := any_server_reach h0 h
  refine C89_delivered_as_received (c := c.tape ρ) (s := w.sys.tape t) hP hb h1 (Reach.mono (fun s x hx => ?_) h2)
  obtain ⟨-, w, a, ha, hax⟩ := hx
  intro f e
  subst e
  cases hax
  exact ha f rfl

/-- C89 fails for memory that was made for a known length: after a download that ended early a read returns the
zeros of the places that were never written. -/
theorem C89_delivered_as_received_violated :
    ∃ s0 s : Sys memStorage, Starts memProvider cfgUnseekable s0 ∧ Reach cfgUnseekable NoSeek s0 s ∧
      received s.log = [1, 2, 3, 4] ∧ delivered s.log = [1, 2, 3, 4, 0, 0, 0, 0] := by
  obtain ⟨s0, s, h1, h2, h3⟩ := exists_of_runG (P := memProvider) (c := cfgUnseekable)
    (g := noSeekB) (G := NoSeek) (fun s a h => noSeek_of h) demoMem10
    ([.chunk 4] ++ srcs 6 ++ [.eof] ++ srcs 6 ++ [.read 6] ++ rdrs 9 ++ [.read 4] ++ rdrs 6)
    (fun s => decide (received s.log = [1, 2, 3, 4] ∧ delivered s.log = [1, 2, 3, 4, 0, 0, 0, 0]))
    rfl rfl (by decide +kernel)
  exact ⟨s0, s, h1, h2, of_decide_eq_true h3⟩

/-- A read that returns bytes returned those that the storage had accepted at its position: all of the bytes that it
returned were such, or it returned all that there were of them, and something behind. -/
def agreeRule : Ev → List Ev → Prop
  | .readRet pos _ _ (.ok bs), l => bs <+: (accepted l).drop pos ∨ (accepted l).drop pos <+: bs
  | _, _ => True

/-- C89 for every storage: what was received is read as it was received.  Missing: that nothing is read where
nothing was received, which is false (see the violation). -/
theorem C89_reads_agree_partial (hP : Supported c.contentLength P) (hb : c.batchSize ≠ 0) {s0 s : Sys P.S}
    (h0 : Starts P c s0) (h : Reach c NoSeek s0 s) :
    Always agreeRule s.log ∧ accepted s.log <+: received s.log := by
  refine ⟨?_, (C41_chunks_stored_sequential_partial hP hb h0 h).1⟩
  have key : ∃ e, Always (lineRule e) s.log := by
    rcases hP with hP | hP
    · obtain ⟨LP, -, -, -⟩ := keeps_lawful hP
      exact ⟨_, line_log LP (fun _ _ h _ => h) h0 h⟩
    · obtain ⟨LP⟩ := windowed_lawful hP
      exact ⟨_, line_log LP (fun _ _ h _ => h) h0 h⟩
  obtain ⟨e, he⟩ := key
  refine Always.mono (fun ev l h => ?_) he
  unfold lineRule at h
  unfold agreeRule
  split
  · exact h.1
  · trivial

/-! ### Histories that meet the hypotheses -/

/-- An empty temp file. -/
def emptyTmp : Tmp := { file := [], wp := 0, fp := 0, rbuf := [] }

/-- A stall, after which the transport goes on at the wrong place. -/
example : ∃ s0 s : Sys tmpStorage, ReadsOnlyWritten demoCfg.contentLength tmpProvider ∧ Starts tmpProvider demoCfg s0 ∧
    Reach demoCfg NoSeek s0 s ∧ received s.log = [1, 2, 3, 8, 9, 10] ∧ delivered s.log = [1, 2, 3, 8, 9] := by
  obtain ⟨s0, s, h1, h2, h3⟩ := exists_of_runG (P := tmpProvider) (c := demoCfg)
    (g := noSeekB) (G := NoSeek) (fun s a h => noSeek_of h) emptyTmp
    ([.chunk 3] ++ srcs 6 ++ [.chunkErr, .timeout, .reconnOk 7, .chunk 3] ++ srcs 6 ++ [.read 5] ++ rdrs 4)
    (fun s => decide (received s.log = [1, 2, 3, 8, 9, 10] ∧ delivered s.log = [1, 2, 3, 8, 9]))
    rfl rfl (by decide +kernel)
  exact ⟨s0, s, .inl (.temp _), h1, h2, of_decide_eq_true h3⟩

/-- The same with bounded storage of 4 bytes. -/
example : ∃ s0 s : Sys (bndStorage true memStorage),
    ReadsOnlyWritten cfgBounded.contentLength (bndProvider true memProvider 4) ∧
    Starts (bndProvider true memProvider 4) cfgBounded s0 ∧ Reach cfgBounded NoSeek s0 s ∧
    received s.log = [1, 2, 3, 8, 9] ∧ delivered s.log = [1, 2, 3, 8] := by
  obtain ⟨s0, s, h1, h2, h3⟩ := exists_of_runG (P := bndProvider true memProvider 4) (c := cfgBounded)
    (g := noSeekB) (G := NoSeek) (fun s a h => noSeek_of h) demoBnd4
    ([.chunk 3] ++ srcs 3 ++ [.chunkErr, .timeout, .reconnOk 7, .chunk 1] ++ srcs 3 ++ [.read 4] ++ rdrs 2 ++
      [.chunk 1] ++ srcs 6 ++ rdrs 2)
    (fun s => decide (received s.log = [1, 2, 3, 8, 9] ∧ delivered s.log = [1, 2, 3, 8]))
    rfl rfl (by decide +kernel)
  exact ⟨s0, s, .inr (.bounded _ _ _ _ (.memory _ nofun)), h1, h2, of_decide_eq_true h3⟩

/-- A source that cannot seek; the consumer seeks to 2. -/
example : ∃ s0 s : Sys tmpStorage, Starts tmpProvider cfgUnseekable s0 ∧ Reach cfgUnseekable Any s0 s ∧
    Ev.readRet 2 3 true (.ok [3, 8, 9]) ∈ s.log := by
  obtain ⟨s0, s, h1, h2, h3⟩ := exists_of_runG (P := tmpProvider) (c := cfgUnseekable)
    (g := fun _ _ => true) (G := Any) (fun s a h => trivial) emptyTmp
    ([.chunk 3] ++ srcs 6 ++ [.chunkErr, .timeout, .reconnOk 7, .chunk 3] ++ srcs 6 ++ [.seek (.start 2)] ++ rdrs 2 ++
      [.read 3] ++ rdrs 4)
    (fun s => decide (Ev.readRet 2 3 true (.ok [3, 8, 9]) ∈ s.log))
    rfl rfl (by decide +kernel)
  exact ⟨s0, s, h1, h2, of_decide_eq_true h3⟩

/-- The server that lies. -/
example : ∃ w0 w : HSys tmpStorage, HStarts tmpProvider cfg20 (fun _ => none) liar w0 ∧
    HReach cfg20 (fun _ => True) HNoSeek w0 w ∧ delivered w.sys.log = [1, 2, 7, 7, 7, 7, 7, 7] := by
  let w0 : HSys tmpStorage := { sys := init (S := tmpStorage) cfg20 emptyTmp, http := stream20 headers20 (some 20) }
  obtain ⟨w, h1, h2⟩ := of_any (o := hrun hguardB cfg20 liar w0 (liarHist ++ [.read 8] ++ rdrs 4))
    (p := fun w : HSys tmpStorage => decide (delivered w.sys.log = [1, 2, 7, 7, 7, 7, 7, 7])) (by decide +kernel)
  exact ⟨w0, w, ⟨liar_new, rfl, rfl, rfl, emptyTmp, rfl, rfl⟩,
    hreach_hrun trivial (fun w a (h : hguardB w a = true) => (hguard_of h).1) _ .refl h1, of_decide_eq_true h2⟩

end SD
