import Verif.Proof.Sys.LineReads
import Verif.Props.AnySource

/-!
# Property C13 for any transport

The theorems on short reads in `Reads.lean` assume that the transport delivers what it was asked for.  Here nothing is
assumed of it: a read that returns fewer bytes than it was asked for, and so one that returns none, means that the
declared length was reached or that the source has said that its stream ended.
-/

namespace SD

variable {P : Provider} {c : Cfg}

/-- **C13**, whatever the source delivers and however often it fails: until the source has ended its stream, a read
returns all it was asked for, up to the declared length.  The consumer does not seek, or only forward and the source
cannot. -/
theorem C13_short_reads_any_transport (hP : Supported c.contentLength P) (hk : c.KeepsErrors) {s0 s : Sys P.S}
    (h0 : Starts P c s0)
    (h : Reach c (fun s a => NoSeek s a ∨ (c.supportsSeek = false ∧ Forward c s a)) s0 s)
    {later earlier : List Ev} {pos len : Nat} {fast : Bool} {bs : List Byte}
    (hl : s.log = later ++ .readRet pos len fast (.ok bs) :: earlier) (hlt : bs.length < len) :
    (∃ N, c.contentLength = some N ∧ N ≤ pos + bs.length) ∨ Ev.eof ∈ earlier := by
  have hG : ∀ (s : Sys P.S) (a : Act), NoSeek s a ∨ (c.supportsSeek = false ∧ Forward c s a) →
      (c.supportsSeek = true → NoSeek s a) ∧ Forward c s a := by
    rintro s a (h | ⟨h1, h2⟩)
    · exact ⟨fun _ => h, fun f p hf => absurd hf (h f)⟩
    · exact ⟨fun h => by simp [h1] at h, h2⟩
  rcases hP with hP | hP
  · obtain ⟨LP, -, hE, -⟩ := keeps_lawful hP
    exact (((line_short_log LP hk hG h0 h).split hl) hlt).imp_right (Or.resolve_right · (hE rfl _ _))
  · obtain ⟨LP⟩ := windowed_lawful hP
    exact (((line_short_log LP hk hG h0 h).split hl) hlt).imp_right
      (Or.resolve_right · (fun hc => Bool.noConfusion (LP.law.cut_full hc)))

/-- **C13** for HTTP: whatever the server answers. -/
theorem C13_short_reads_any_server (hP : Supported c.contentLength P) (hk : c.KeepsErrors)
    {mime : Text → Option (Text × Text)} {answer : Answer} {w0 w : HSys P.S} (h0 : HStarts P c mime answer w0)
    (h : HReach c (fun _ => True) HNoSeek w0 w) {later earlier : List Ev} {pos len : Nat} {fast : Bool} {bs : List Byte}
    (hl : w.sys.log = later ++ .readRet pos len fast (.ok bs) :: earlier) (hlt : bs.length < len) :
    (∃ N, c.contentLength = some N ∧ N ≤ pos + bs.length) ∨ Ev.eof ∈ earlier := by
  obtain ⟨ρ, t, h1, h2⟩ := any_server_reach h0 h
  refine C13_short_reads_any_transport (c := c.tape ρ) (s := w.sys.tape t) hP hk h1
    (Reach.mono (fun s x hx => .inl ?_) h2) hl hlt
  obtain ⟨-, w, a, ha, hax⟩ := hx
  intro f e
  subst e
  cases hax
  exact ha f rfl

variable {R : Source}

/-- **C90.** Whatever the source does, a read returns fewer bytes than it was asked for only at the declared length or
after the source ended its stream. -/
theorem C90_short_reads (hP : Supported c.contentLength P) (hk : c.KeepsErrors) {w0 w : XSys R P.S}
    (h0 : Starts P c w0.sys) {h : List (XSys R P.S × XAct R)} (hh : Hist (xstep R c) w0 h w)
    (hp : ∀ x ∈ h, Polite x.1 x.2) (hs : ∀ x ∈ h, XNoSeek x.1 x.2)
    {later earlier : List Ev} {pos len : Nat} {fast : Bool} {bs : List Byte}
    (hl : w.sys.log = later ++ .readRet pos len fast (.ok bs) :: earlier) (hlt : bs.length < len) :
    (∃ N, c.contentLength = some N ∧ N ≤ pos + bs.length) ∨ Ev.eof ∈ earlier := by
  obtain ⟨ρ, t, -, h1, -, -, -, h2⟩ := any_source_hist h0 hh hp
  refine C13_short_reads_any_transport (c := c.tape ρ) (s := w.sys.tape t) hP hk h1
    (Reach.mono (fun s x hx => .inl ?_) h2) hl hlt
  obtain ⟨-, w, a, ha, hax⟩ := hx
  intro f e
  subst e
  cases hax
  exact hs _ ha f rfl

/-- **C90.** A consumer that does not seek and was told "end of file" (a read of a positive number of bytes that
returned none) has read up to the declared length, or the source had ended its stream. -/
theorem C90_end_of_file_is_real (hP : Supported c.contentLength P) (hk : c.KeepsErrors) {w0 w : XSys R P.S}
    (h0 : Starts P c w0.sys) {h : List (XSys R P.S × XAct R)} (hh : Hist (xstep R c) w0 h w)
    (hp : ∀ x ∈ h, Polite x.1 x.2) (hs : ∀ x ∈ h, XNoSeek x.1 x.2)
    {later earlier : List Ev} {pos len : Nat} {fast : Bool}
    (hl : w.sys.log = later ++ .readRet pos len fast (.ok []) :: earlier) (hlt : 0 < len) :
    (∃ N, c.contentLength = some N ∧ N ≤ pos) ∨ Ev.eof ∈ earlier :=
  C90_short_reads hP hk h0 hh hp hs hl hlt

/-! ### Histories that meet the hypotheses -/

/-- The last event of a log. -/
theorem log_head {l : List Ev} {e : Ev} (h : l.head? = some e) : ∃ t, l = [] ++ e :: t := by
  cases l with
  | nil => cases h
  | cons a t => simp only [List.head?_cons, Option.some.injEq] at h; exact ⟨t, by rw [h]; rfl⟩

/-- The transport goes on at the wrong place and ends early: a short read. -/
example : ∃ s0 s : Sys tmpStorage, Supported cfgUnseekable.contentLength tmpProvider ∧ cfgUnseekable.KeepsErrors ∧
    Starts tmpProvider cfgUnseekable s0 ∧
    Reach cfgUnseekable (fun s a => NoSeek s a ∨ (cfgUnseekable.supportsSeek = false ∧ Forward cfgUnseekable s a)) s0 s ∧
    ∃ l, s.log = [] ++ Ev.readRet 0 8 false (.ok [1, 2, 3, 8]) :: l := by
  obtain ⟨s0, s, h1, h2, h3⟩ := exists_of_runG (P := tmpProvider) (c := cfgUnseekable)
    (g := noSeekB) (G := fun s a => NoSeek s a ∨ (cfgUnseekable.supportsSeek = false ∧ Forward cfgUnseekable s a))
    (fun s a h => .inl (noSeek_of h)) emptyTmp
    ([.chunk 3] ++ srcs 6 ++ [.chunkErr, .timeout, .reconnOk 7, .chunk 1] ++ srcs 6 ++ [.read 8] ++ rdrs 4 ++ [.eof] ++ srcs 5 ++ rdrs 3)
    (fun s => decide (s.log.head? = some (Ev.readRet 0 8 false (.ok [1, 2, 3, 8]))))
    rfl rfl (by decide +kernel)
  exact ⟨s0, s, .inl (.temp _), (fun k o h => by cases h), h1, h2, log_head (of_decide_eq_true h3)⟩

/-- The server that lies: a read of 30 bytes returns 20. -/
example : ∃ w0 w : HSys tmpStorage, HStarts tmpProvider cfg20 (fun _ => none) liar w0 ∧
    HReach cfg20 (fun _ => True) HNoSeek w0 w ∧
    ∃ l, w.sys.log = [] ++ Ev.readRet 0 30 true (.ok (1 :: 2 :: List.replicate 18 7)) :: l := by
  let w0 : HSys tmpStorage := { sys := init (S := tmpStorage) cfg20 emptyTmp, http := stream20 headers20 (some 20) }
  obtain ⟨w, h1, h2⟩ := of_any (o := hrun hguardB cfg20 liar w0 (liarHist ++ [.read 30] ++ rdrs 2))
    (p := fun w : HSys tmpStorage => decide (w.sys.log.head? =
      some (Ev.readRet 0 30 true (.ok (1 :: 2 :: List.replicate 18 7))))) (by decide +kernel)
  exact ⟨w0, w, ⟨liar_new, rfl, rfl, rfl, emptyTmp, rfl, rfl⟩,
    hreach_hrun trivial (fun w a (h : hguardB w a = true) => (hguard_of h).1) _ .refl h1,
    log_head (of_decide_eq_true h2)⟩

/-- A source of unknown length that stalls, fails to reconnect and goes on with other bytes; a read sleeps until it
ends its stream, and the next one is told the end of the file. -/
def shortActs : List (XAct puppet) :=
  [.poll (.chunk [9, 9])] ++ asys (srcs 6) ++ [.poll .err, .sys .timeout, .reconnect (.err .other), .sys .timeout,
    .reconnect (.ok ()), .poll (.chunk [5, 4, 3])] ++ asys (srcs 6) ++ asys ([.read 7] ++ rdrs 4) ++ [.poll .done] ++
    asys (srcs 6) ++ asys (rdrs 5 ++ [.read 2] ++ rdrs 6)

/-- The hypotheses of `C90_short_reads` and `C90_end_of_file_is_real`. -/
example : ∃ (w0 w : XSys puppet tmpStorage) (h : List (XSys puppet tmpStorage × XAct puppet)),
    Starts tmpProvider { cfg20 with contentLength := none } w0.sys ∧
      Hist (xstep puppet { cfg20 with contentLength := none }) w0 h w ∧ (∀ x ∈ h, Polite x.1 x.2) ∧
      (∀ x ∈ h, XNoSeek x.1 x.2) ∧ Ev.readRet 0 7 false (.ok [9, 9, 5, 4, 3]) ∈ w.sys.log ∧
      ∃ l, w.sys.log = [] ++ Ev.readRet 5 2 false (.ok []) :: l := by
  let w0 : XSys puppet tmpStorage :=
    { sys := init (S := tmpStorage) { cfg20 with contentLength := none } emptyTmp, src := () }
  obtain ⟨h, w, h1, -, h2⟩ := exists_hist' (f := xstep puppet { cfg20 with contentLength := none }) (w0 := w0) shortActs
    (fun h w => h.all (fun x => politeB x.1 x.2) && decide (xSeekCalls h = 0 ∧
      Ev.readRet 0 7 false (.ok [9, 9, 5, 4, 3]) ∈ w.sys.log ∧
      w.sys.log.head? = some (Ev.readRet 5 2 false (.ok [])))) (by decide +kernel)
  simp only [Bool.and_eq_true, List.all_eq_true, decide_eq_true_eq] at h2
  obtain ⟨h3, h4, h5, h6⟩ := h2
  refine ⟨w0, w, h, ⟨rfl, emptyTmp, rfl, rfl⟩, h1, fun x hx => polite_of (h3 x hx), fun x hx f e => ?_, h5, log_head h6⟩
  simp only [xSeekCalls, List.countP_eq_zero] at h4
  have := h4 x hx
  rw [e] at this
  exact this rfl

end SD
