import Verif.Proof.Sys.LineEnd
import Verif.Props.ShortAny

/-!
# Property C62 for any transport

A consumer that reads until a read is short has everything that was received, whatever the source did.
-/

namespace SD

variable {P : Provider} {c : Cfg}

theorem received_later {K : Nat → Nat → Prop} {later earlier : List Ev} {e : Ev}
    (h : Always (lineEndRule K c) (later ++ e :: earlier)) (he : EndRead K c e) :
    received (later ++ e :: earlier) = received earlier := by
  induction later with
  | nil =>
    obtain ⟨pos, len, fast, bs, rfl, -⟩ := he
    rfl
  | cons x l ih =>
    have h1 := ih h.2
    cases x with
    | chunk bs => exact absurd ⟨e, by simp, he⟩ h.1
    | _ => exact h1

theorem delivered_grows {later l : List Ev} : delivered l <+: delivered (later ++ l) := by
  induction later with
  | nil => exact List.prefix_refl _
  | cons x later ih =>
    refine ih.trans ?_
    rw [List.cons_append]
    cases x with
    | readRet pos len fast res => cases res <;> simp [delivered]
    | _ => simp [delivered]

theorem Always.tail {Q : Ev → List Ev → Prop} {l1 l2 : List Ev} (h : Always Q (l1 ++ l2)) : Always Q l2 := by
  induction l1 with
  | nil => exact h
  | cons x l ih => exact ih h.2

/-- **C62**, whatever the source delivers and however often it fails: once a read of a consumer that does not seek has
returned fewer bytes than it asked for, the consumer is at the declared length, or its reads have together returned
everything that was received, and nothing is received any more. -/
theorem C62_read_to_end_any_transport (hP : Blank c.contentLength P ∨ Windowed c.contentLength P) (hb : c.batchSize ≠ 0)
    (hk : c.KeepsErrors) {s0 s : Sys P.S} (h0 : Starts P c s0) (h : Reach c NoSeek s0 s)
    {later earlier : List Ev} {pos len : Nat} {fast : Bool} {bs : List Byte}
    (hl : s.log = later ++ .readRet pos len fast (.ok bs) :: earlier) (hlt : bs.length < len) :
    (∃ N, c.contentLength = some N ∧ N ≤ pos + bs.length) ∨
    (delivered (.readRet pos len fast (.ok bs) :: earlier) = received earlier ∧
      received s.log = received earlier ∧ delivered s.log = received s.log) := by
  have key : ∃ (e : Prop) (K : Nat → Nat → Prop), e ∧ (∀ n k, ¬ K n k) ∧ Always (lineRule e) s.log ∧
      Always (lineEndRule K c) s.log ∧ Nonempty (PositionalProvider P c.contentLength) := by
    rcases hP with hP | hP
    · obtain ⟨LP, -, hE, hS⟩ := keeps_lawful hP
      obtain ⟨PP⟩ := keeps_positional hP
      exact ⟨_, _, fun _ => hS rfl, hE rfl, line_log LP (fun _ _ h _ => h) h0 h, line_end_log LP PP hb hk h0 h, ⟨PP⟩⟩
    · obtain ⟨LP⟩ := windowed_lawful hP
      obtain ⟨PP⟩ := windowed_positional hP
      exact ⟨_, _, nofun, fun n k hc => Bool.noConfusion (LP.law.cut_full hc), line_log LP (fun _ _ h _ => h) h0 h,
        line_end_log LP PP hb hk h0 h, ⟨PP⟩⟩
  obtain ⟨e, K, he, hK, h1, h2, ⟨PP⟩⟩ := key
  have h3 := (PosInv.reach PP h0 h).rule
  have h4 := (Chunks.reach hb PP h0 (fun s p hs hm _ => by
    obtain ⟨-, st, hc, rfl⟩ := h0
    exact absurd hm ((noSeek_src hs).2.2 p)) h).1.pre
  have h5 : ∀ t r, Ev.seekRet t r ∉ s.log := by
    obtain ⟨-, st, -, rfl⟩ := h0
    exact (noSeek_reach (fun _ _ hg => hg) h).2
  by_cases hN : ∃ N, c.contentLength = some N ∧ N ≤ pos + bs.length
  · exact .inl hN
  right
  obtain ⟨h6, h7⟩ := (((h2.split hl) hlt).resolve_left hN).resolve_right (hK _ _)
  have hall := delivered_line he h1 h3 h5
  rw [hl] at h1 h2 h3 h4 h5 hall ⊢
  have hhere := delivered_line he h1.tail h3.tail (fun t r h => h5 t r (List.mem_append_right _ h))
  have hrec := received_later h2 ⟨pos, len, fast, bs, rfl, hlt, hN, hK _ _⟩
  have hpos : pos = logPos earlier := h3.tail.1.1
  have e1 : delivered (.readRet pos len fast (.ok bs) :: earlier) = received earlier := by
    rw [h6]
    refine List.IsPrefix.eq_of_length_le hhere.2 ?_
    rw [← hhere.1]
    simpa [accepted, logPos, ← hpos] using h7
  refine ⟨e1, hrec, ?_⟩
  refine List.IsPrefix.eq_of_length_le (hall.2.trans h4) ?_
  rw [hrec, ← e1]
  exact delivered_grows.length_le

/-- **C62** for HTTP: whatever the server answers. -/
theorem C62_read_to_end_any_server (hP : Blank c.contentLength P ∨ Windowed c.contentLength P) (hb : c.batchSize ≠ 0)
    (hk : c.KeepsErrors) {mime : Text → Option (Text × Text)} {answer : Answer} {w0 w : HSys P.S}
    (h0 : HStarts P c mime answer w0) (h : HReach c (fun _ => True) HNoSeek w0 w)
    {later earlier : List Ev} {pos len : Nat} {fast : Bool} {bs : List Byte}
    (hl : w.sys.log = later ++ .readRet pos len fast (.ok bs) :: earlier) (hlt : bs.length < len) :
    (∃ N, c.contentLength = some N ∧ N ≤ pos + bs.length) ∨
    (delivered (.readRet pos len fast (.ok bs) :: earlier) = received earlier ∧
      received w.sys.log = received earlier ∧ delivered w.sys.log = received w.sys.log) := by
  obtain ⟨ρ, t, h1, h2⟩ := any_server_reach h0 h
  refine C62_read_to_end_any_transport (c := c.tape ρ) (s := w.sys.tape t) hP hb hk h1
    (Reach.mono (fun s x hx => ?_) h2) hl hlt
  obtain ⟨-, w, a, ha, hax⟩ := hx
  intro f e
  subst e
  cases hax
  exact ha f rfl

/-- **C90.** Whatever the source does, a consumer that reads until a read is short has reached the declared length, or
has everything that was received. -/
theorem C90_read_to_end {R : Source} (hP : Blank c.contentLength P ∨ Windowed c.contentLength P) (hb : c.batchSize ≠ 0)
    (hk : c.KeepsErrors) {w0 w : XSys R P.S} (h0 : Starts P c w0.sys) {h : List (XSys R P.S × XAct R)}
    (hh : Hist (xstep R c) w0 h w) (hp : ∀ x ∈ h, Polite x.1 x.2) (hs : ∀ x ∈ h, XNoSeek x.1 x.2)
    {later earlier : List Ev} {pos len : Nat} {fast : Bool} {bs : List Byte}
    (hl : w.sys.log = later ++ .readRet pos len fast (.ok bs) :: earlier) (hlt : bs.length < len) :
    (∃ N, c.contentLength = some N ∧ N ≤ pos + bs.length) ∨
    (delivered (.readRet pos len fast (.ok bs) :: earlier) = received earlier ∧
      received w.sys.log = received earlier ∧ delivered w.sys.log = received w.sys.log) := by
  obtain ⟨ρ, t, -, h1, -, -, -, h2⟩ := any_source_hist h0 hh hp
  refine C62_read_to_end_any_transport (c := c.tape ρ) (s := w.sys.tape t) hP hb hk h1
    (Reach.mono (fun s x hx => ?_) h2) hl hlt
  obtain ⟨-, w, a, ha, hax⟩ := hx
  intro f e
  subst e
  cases hax
  exact hs _ ha f rfl

/-! ### Histories that meet the hypotheses -/

/-- A source that cannot seek ends early, at another place than it should be; a read is short. -/
example : ∃ s0 s : Sys tmpStorage, Blank cfgUnseekable.contentLength tmpProvider ∧ cfgUnseekable.KeepsErrors ∧
    Starts tmpProvider cfgUnseekable s0 ∧ Reach cfgUnseekable NoSeek s0 s ∧ received s.log = [1, 2, 3, 8] ∧
    ∃ l, s.log = [] ++ Ev.readRet 0 8 false (.ok [1, 2, 3, 8]) :: l := by
  obtain ⟨s0, s, h1, h2, h3⟩ := exists_of_runG (P := tmpProvider) (c := cfgUnseekable)
    (g := noSeekB) (G := NoSeek) (fun s a h => noSeek_of h) emptyTmp
    ([.chunk 3] ++ srcs 6 ++ [.chunkErr, .timeout, .reconnOk 7, .chunk 1] ++ srcs 6 ++ [.read 8] ++ rdrs 4 ++ [.eof] ++
      srcs 5 ++ rdrs 3)
    (fun s => decide (received s.log = [1, 2, 3, 8] ∧
      s.log.head? = some (Ev.readRet 0 8 false (.ok [1, 2, 3, 8])))) rfl rfl (by decide +kernel)
  obtain ⟨h4, h5⟩ := of_decide_eq_true h3
  exact ⟨s0, s, .temp _, (fun k o h => by cases h), h1, h2, h4, log_head h5⟩

/-- The same with bounded storage of 4 bytes and a source that can seek and does not tell its length. -/
example : ∃ s0 s : Sys (bndStorage true memStorage),
    Windowed { cfgBounded with contentLength := none }.contentLength (bndProvider true memProvider 4) ∧
    Starts (bndProvider true memProvider 4) { cfgBounded with contentLength := none } s0 ∧
    Reach { cfgBounded with contentLength := none } NoSeek s0 s ∧ received s.log = [1, 2, 3, 8] ∧
    ∃ l, s.log = [] ++ Ev.readRet 3 4 false (.ok [8]) :: l := by
  obtain ⟨s0, s, h1, h2, h3⟩ := exists_of_runG (P := bndProvider true memProvider 4)
    (c := { cfgBounded with contentLength := none }) (g := noSeekB) (G := NoSeek) (fun s a h => noSeek_of h) demoBnd4
    ([.chunk 3] ++ srcs 3 ++ [.chunkErr, .timeout, .reconnOk 7, .chunk 1] ++ srcs 3 ++ [.read 3] ++ rdrs 3 ++ [.read 4] ++
      rdrs 3 ++ [.eof] ++ srcs 5 ++ rdrs 3)
    (fun s => decide (received s.log = [1, 2, 3, 8] ∧ s.log.head? = some (Ev.readRet 3 4 false (.ok [8]))))
    rfl rfl (by decide +kernel)
  obtain ⟨h4, h5⟩ := of_decide_eq_true h3
  exact ⟨s0, s, .bounded _ _ _ _ (.memory _ nofun), h1, h2, h4, log_head h5⟩

/-- The source that goes on with other bytes, and the consumer that reads up to the end of the file. -/
example : ∃ w0 w : XSys puppet tmpStorage, ∃ h : List (XSys puppet tmpStorage × XAct puppet),
    Starts tmpProvider { cfg20 with contentLength := none } w0.sys ∧
      Hist (xstep puppet { cfg20 with contentLength := none }) w0 h w ∧ (∀ x ∈ h, Polite x.1 x.2) ∧
      (∀ x ∈ h, XNoSeek x.1 x.2) ∧ received w.sys.log = [9, 9, 5, 4, 3] ∧
      ∃ l, w.sys.log = [] ++ Ev.readRet 5 2 false (.ok []) :: l := by
  let w0 : XSys puppet tmpStorage :=
    { sys := init (S := tmpStorage) { cfg20 with contentLength := none } emptyTmp, src := () }
  obtain ⟨h, w, h1, -, h2⟩ := exists_hist' (f := xstep puppet { cfg20 with contentLength := none }) (w0 := w0) shortActs
    (fun h w => h.all (fun x => politeB x.1 x.2) && decide (xSeekCalls h = 0 ∧
      received w.sys.log = [9, 9, 5, 4, 3] ∧ w.sys.log.head? = some (Ev.readRet 5 2 false (.ok [])))) (by decide +kernel)
  simp only [Bool.and_eq_true, List.all_eq_true, decide_eq_true_eq] at h2
  obtain ⟨h3, h4, h5, h6⟩ := h2
  refine ⟨w0, w, h, ⟨rfl, emptyTmp, rfl, rfl⟩, h1, fun x hx => polite_of (h3 x hx), fun x hx f e => ?_, h5, log_head h6⟩
  simp only [xSeekCalls, List.countP_eq_zero] at h4
  have := h4 x hx
  rw [e] at this
  exact this rfl

end SD
