import Verif.Proof.Sys.Whole
import Verif.Props.Reads
import Verif.Props.HttpSystem

/-!
# Properties C13 and C62: short reads and reading to the end

A consumer in the style of `read_to_end` reads until a read returns less than it asked
for.  Here: with a declared length such a read has reached that length, and a
consumer that only reads has then received the whole resource.
-/

set_option linter.unusedVariables false

namespace SD

/-! ### C13 with a declared length -/

/-- C13 for storage that keeps everything and a declared length: a read that returned
fewer bytes than the buffer can hold has reached the declared length.  Unlike
`C13_short_reads_unbounded` an earlier end of the transport is no excuse. -/
theorem C13_short_reads_known_length {P : Provider} {c : Cfg} (hP : Unbounded c.contentLength P)
    (hb : c.batchSize ≠ 0) (hlen : c.LengthHonest) (hk : c.KeepsErrors) {N : Nat}
    (hN : c.contentLength = some N) {s0 s : Sys P.S} (h0 : Starts P c s0)
    (h : Reach c (fun s a => Honest s a ∧ Delivers c s a ∧ Connected c s a) s0 s)
    {later earlier : List Ev} {pos len : Nat} {fast : Bool} {bs : List Byte}
    (hl : s.log = later ++ .readRet pos len fast (.ok bs) :: earlier) (hlt : bs.length < len) :
    N ≤ pos + bs.length := by
  obtain ⟨LP, hTot, hE, -⟩ := keeps_lawful hP
  exact (((whole_log LP hTot.works hb hlen hk hN (fun s a hg => ⟨hg.1, hg.2.1, fun _ => hg.2.2⟩) h0 h).2.split hl) hlt).resolve_right
    (hE rfl _ _)

/-- C13 for storage that keeps a window and a declared length, without seeks. -/
theorem C13_short_reads_known_length_bounded {P : Provider} {c : Cfg} (hP : Windowed c.contentLength P)
    (hk : c.KeepsErrors) {N : Nat} (hN : c.contentLength = some N) {s0 s : Sys P.S} (h0 : Starts P c s0)
    (h : Reach c (fun s a => Honest s a ∧ CleanReconnect s a ∧ NoSeek s a ∧ Delivers c s a) s0 s)
    {later earlier : List Ev} {pos len : Nat} {fast : Bool} {bs : List Byte}
    (hl : s.log = later ++ .readRet pos len fast (.ok bs) :: earlier) (hlt : bs.length < len) :
    N ≤ pos + bs.length := by
  obtain ⟨LP⟩ := windowed_lawful hP
  exact (((win_whole_log LP hk hN (fun s a hg => ⟨⟨hg.1, hg.2.1, fun _ => hg.2.2.1⟩,
    fun f p hf => absurd hf (hg.2.2.1 f), hg.2.2.2⟩) h0 h).2.split hl) hlt).resolve_right id

/-! ### Nothing beyond the end of the resource -/

/-- The same configuration with other bytes beyond the end of the resource. -/
def Cfg.beyond (c : Cfg) (m : Nat) (b : Byte) : Cfg :=
  { c with remote := fun i => if i < m then c.remote i else b }

theorem slice_beyond {c : Cfg} {m p n : Nat} {b : Byte} (h : p + n ≤ m) :
    slice (c.beyond m b).remote p n = slice c.remote p n := by
  apply List.ext_getElem?
  intro i
  by_cases hi : i < n
  · rw [slice_getElem? _ _ _ _ hi, slice_getElem? _ _ _ _ hi]
    simp only [Cfg.beyond, if_pos (show p + i < m by omega)]
  · rw [List.getElem?_eq_none (by simp [slice]; omega), List.getElem?_eq_none (by simp [slice]; omega)]

theorem step_beyond {S : Storage} {c : Cfg} {m : Nat} {b : Byte} (hm : c.remoteLen = some m) {s s' : Sys S}
    {a : Act} (h : step c s a = some s') : step (c.beyond m b) s a = some s' := by
  cases a
  case chunk n =>
    simp only [step] at h ⊢
    split at h
    · next hc =>
      have h4 := hc.2.2.2
      rw [hm] at h4
      have h5 : s.tpos + n ≤ m := by simpa [leOpt] using h4
      rw [if_pos (by exact hc)]
      rw [slice_beyond h5]
      exact h
    · cases h
  all_goals exact h

theorem reach_beyond {S : Storage} {c : Cfg} {m : Nat} {b : Byte} (hm : c.remoteLen = some m)
    {G : Sys S → Act → Prop} {s0 s : Sys S} (h : Reach c G s0 s) : Reach (c.beyond m b) G s0 s := by
  induction h with
  | refl => exact .refl
  | step _ hg hs ih => exact .step ih hg (step_beyond hm hs)

/-- Bytes that are a part of the resource whatever comes after its end lie before its
end. -/
theorem within_end {c : Cfg} {m p : Nat} {bs : List Byte}
    (h : ∀ b, bs = slice (c.beyond m b).remote p bs.length) : p + bs.length ≤ m ∨ bs = [] := by
  by_cases hb : bs = []
  · exact Or.inr hb
  refine Or.inl (Nat.le_of_not_lt fun hlt => ?_)
  have hpos : 0 < bs.length := List.length_pos_iff.mpr hb
  have h0 := congrArg (·[bs.length - 1]?) (h 0)
  have h1 := congrArg (·[bs.length - 1]?) (h 1)
  simp only [slice_getElem? _ _ _ _ (show bs.length - 1 < bs.length by omega)] at h0 h1
  simp only [Cfg.beyond, if_neg (show ¬ p + (bs.length - 1) < m by omega)] at h0 h1
  rw [h0] at h1
  simp at h1

/-! ### C62: reading to the end -/

theorem delivered_append (l1 l2 : List Ev) : delivered l2 <+: delivered (l1 ++ l2) := by
  induction l1 with
  | nil => exact List.prefix_refl _
  | cons e l ih =>
    refine ih.trans ?_
    show delivered (l ++ l2) <+: delivered (e :: (l ++ l2))
    generalize l ++ l2 = m
    rw [delivered.eq_def (e :: m)]
    split
    · exact absurd ‹_ = []› (by simp)
    · next h => cases h; exact List.prefix_append _ _
    · next h => cases h; exact List.prefix_refl _

theorem Always.drop {Q : Ev → List Ev → Prop} {l1 l2 : List Ev} (h : Always Q (l1 ++ l2)) : Always Q l2 := by
  induction l1 with
  | nil => exact h
  | cons e l ih => exact ih h.2

/-- What is delivered is never more than the resource; so if a read reaches its end,
everything has been delivered. -/
theorem all_of_short {c : Cfg} {N : Nat} {log later earlier : List Ev} {pos len : Nat} {fast : Bool}
    {bs : List Byte} (hl : log = later ++ .readRet pos len fast (.ok bs) :: earlier)
    (hex : ∀ b, ReadsExact (c.beyond N b).remote log) (hp : Always posRule log)
    (hs : ∀ t r, Ev.seekRet t r ∉ log) (hshort : N ≤ pos + bs.length) :
    delivered (.readRet pos len fast (.ok bs) :: earlier) = slice c.remote 0 N ∧
      delivered log = slice c.remote 0 N := by
  have hall := fun b => (delivered_exact (hex b) hp hs).2
  have hle : (delivered log).length ≤ N := by
    rcases within_end hall with h | h
    · omega
    · rw [h]; exact Nat.zero_le _
  have hsub : ∀ e ∈ Ev.readRet pos len fast (.ok bs) :: earlier, e ∈ log := by
    intro e he; rw [hl]; exact List.mem_append_right _ he
  have hpre : delivered (.readRet pos len fast (.ok bs) :: earlier) <+: delivered log := by
    rw [hl]; exact delivered_append _ _
  have hp2 : Always posRule (.readRet pos len fast (.ok bs) :: earlier) := by
    rw [hl] at hp; exact hp.drop
  obtain ⟨e1, -⟩ := delivered_exact (log := .readRet pos len fast (.ok bs) :: earlier)
    (fun p n f b h => hex 0 p n f b (hsub _ h)) hp2 (fun t r h => hs t r (hsub _ h))
  have e2 : logPos (.readRet pos len fast (.ok bs) :: earlier) = pos + bs.length := by
    rw [hp2.1.1]; rfl
  have hlen := hpre.length_le
  have heq := hpre.eq_of_length (by omega)
  have hfull : delivered log = slice c.remote 0 N := by
    have h0 := hall 0
    have hn : (delivered log).length = N := by omega
    rw [hn] at h0
    rw [h0, slice_beyond (by omega)]
  exact ⟨heq.trans hfull, hfull⟩

/-- C62 for storage that keeps everything: the resource has the declared length `N`;
the consumer only reads.  Once a read has returned fewer bytes than asked for, the
reads have together returned the whole resource, and no later read adds to it. -/
theorem C62_read_to_end_unbounded {P : Provider} {c : Cfg} (hP : Unbounded c.contentLength P)
    (hb : c.batchSize ≠ 0) (hk : c.KeepsErrors) {N : Nat} (hN : c.contentLength = some N)
    (hm : c.remoteLen = some N) {s0 s : Sys P.S} (h0 : Starts P c s0)
    (h : Reach c (fun s a => Honest s a ∧ NoSeek s a ∧ Delivers c s a) s0 s)
    {later earlier : List Ev} {pos len : Nat} {fast : Bool} {bs : List Byte}
    (hl : s.log = later ++ .readRet pos len fast (.ok bs) :: earlier) (hlt : bs.length < len) :
    delivered (.readRet pos len fast (.ok bs) :: earlier) = slice c.remote 0 N ∧
      delivered s.log = slice c.remote 0 N := by
  have hlen : c.LengthHonest := fun n hn => ⟨N, hm, by rw [hN] at hn; cases hn; exact Nat.le_refl _⟩
  have hfw : ∀ s a, NoSeek (S := P.S) s a → Connected c s a := fun s a hn f p hf => absurd hf (hn f)
  have hshort := C13_short_reads_known_length hP hb hlen hk hN h0
    (h.mono fun s a hg => ⟨hg.1, hg.2.2, hfw s a hg.2.1⟩) hl hlt
  obtain ⟨LP, hTot, -⟩ := keeps_lawful hP
  obtain ⟨PP⟩ := keeps_positional hP
  have hp := (PosInv.reach PP h0 h).rule
  refine all_of_short hl (fun b => ?_) hp ?_ hshort
  · exact readsExact_of_rule (((fwd_log (c := c.beyond N b) LP hTot.works hb hlen hk
      (fun s a hg => ⟨hg.1, fun _ => hg.2.2, fun _ => hfw s a hg.2.1⟩) h0 (reach_beyond hm h)).2).mono
        fun _ _ => readRule_exact)
  · obtain ⟨-, st, -, rfl⟩ := h0
    exact (noSeek_reach (fun _ _ hg => hg.2.1) h).2

/-- C62 for storage that keeps a window. -/
theorem C62_read_to_end_bounded_partial {P : Provider} {c : Cfg} (hP : Windowed c.contentLength P)
    (hk : c.KeepsErrors) {N : Nat} (hN : c.contentLength = some N) (hm : c.remoteLen = some N)
    {s0 s : Sys P.S} (h0 : Starts P c s0)
    (h : Reach c (fun s a => Honest s a ∧ CleanReconnect s a ∧ NoSeek s a ∧ Delivers c s a) s0 s)
    {later earlier : List Ev} {pos len : Nat} {fast : Bool} {bs : List Byte}
    (hl : s.log = later ++ .readRet pos len fast (.ok bs) :: earlier) (hlt : bs.length < len) :
    delivered (.readRet pos len fast (.ok bs) :: earlier) = slice c.remote 0 N ∧
      delivered s.log = slice c.remote 0 N := by
  have hshort := C13_short_reads_known_length_bounded hP hk hN h0 h hl hlt
  obtain ⟨LP⟩ := windowed_lawful hP
  obtain ⟨PP⟩ := windowed_positional hP
  have hp := (PosInv.reach PP h0 h).rule
  refine all_of_short hl (fun b => ?_) hp ?_ hshort
  · exact readsExact_of_rule (win_log (c := c.beyond N b) LP
      (fun s a hg => ⟨hg.1, hg.2.1, fun _ => hg.2.2.1⟩) h0 (reach_beyond hm h)).2
  · obtain ⟨-, st, -, rfl⟩ := h0
    exact (noSeek_reach (fun _ _ hg => hg.2.2.1) h).2

theorem slice_getD (remote : List Byte) (b : Byte) :
    slice (fun i => remote.getD i b) 0 remote.length = remote := by
  apply List.ext_getElem?
  intro i
  by_cases hi : i < remote.length
  · rw [slice_getElem? _ _ _ _ hi]; simp [hi]
  · rw [List.getElem?_eq_none (by simp [slice]; omega), List.getElem?_eq_none (by omega)]

/-- C62 for the HTTP source and storage that keeps everything: a server that serves
ranges and declares the length.  Once a read has returned fewer bytes than asked for,
the consumer has received exactly the resource, whatever the server, the connection
and the schedule did in between. -/
theorem C62_http_read_to_end_unbounded {P : Provider} {c : Cfg} (hP : Unbounded c.contentLength P)
    (hb : c.batchSize ≠ 0) (hk : c.KeepsErrors) {N : Nat} (hN : c.contentLength = some N)
    {remote : List Byte} {mime : Text → Option (Text × Text)} {answer : Answer}
    (hA : RangeServer remote answer) {w0 w : HSys P.S} (h0 : HStarts P c mime answer w0)
    (h : HReach c (RangeServer remote) HNoSeek w0 w)
    {later earlier : List Ev} {pos len : Nat} {fast : Bool} {bs : List Byte}
    (hl : w.sys.log = later ++ .readRet pos len fast (.ok bs) :: earlier) (hlt : bs.length < len) :
    delivered (.readRet pos len fast (.ok bs) :: earlier) = remote ∧ delivered w.sys.log = remote := by
  have hi := HInv.starts hA h0
  obtain ⟨-, -, hss, hst⟩ := h0
  have hst' : Starts P (c.on remote 0) w0.sys := hst
  obtain ⟨hR, -⟩ := hreach_sim (b := 0) (G' := NoSeek) (fun w a x hg hx f hf => by
      subst hf; cases hx; exact hg f rfl) hi
    (fun w a hR _ _ start e hp => by
      obtain ⟨-, st, -, hst2⟩ := hst'
      rw [hst2] at hR
      exact Or.inl (noSeek_ranges (hR.mono fun _ _ hg => hg.2) start e hp)) h
  have := C62_read_to_end_unbounded (c := c.on remote 0) hP hb hk hN
    (by rw [hi.real N hN]; rfl) hst'
    (hR.mono fun s a hg => ⟨hg.1, hg.2, fun _ hf => absurd hf (by
      rw [show (c.on remote 0).supportsSeek = c.supportsSeek from rfl, hss]; simp)⟩) hl hlt
  rw [hi.real N hN] at this
  have e : slice (c.on remote 0).remote 0 remote.length = remote := slice_getD remote 0
  rw [e] at this
  exact this

/-- C62 for the HTTP source and storage that keeps a window; no reconnect succeeds while
received bytes are waiting to be written. -/
theorem C62_http_read_to_end_bounded_partial {P : Provider} {c : Cfg} (hP : Windowed c.contentLength P)
    (hk : c.KeepsErrors) {N : Nat} (hN : c.contentLength = some N)
    {remote : List Byte} {mime : Text → Option (Text × Text)} {answer : Answer}
    (hA : RangeServer remote answer) {w0 w : HSys P.S} (h0 : HStarts P c mime answer w0)
    (h : HReach c (RangeServer remote) (fun w a => HNoSeek w a ∧ HClean w a) w0 w)
    {later earlier : List Ev} {pos len : Nat} {fast : Bool} {bs : List Byte}
    (hl : w.sys.log = later ++ .readRet pos len fast (.ok bs) :: earlier) (hlt : bs.length < len) :
    delivered (.readRet pos len fast (.ok bs) :: earlier) = remote ∧ delivered w.sys.log = remote := by
  have hi := HInv.starts hA h0
  obtain ⟨-, -, hss, hst⟩ := h0
  have hst' : Starts P (c.on remote 0) w0.sys := hst
  obtain ⟨hR, -⟩ := hreach_sim (b := 0) (G' := fun s a => NoSeek s a ∧ CleanReconnect s a)
    (fun w a x hg hx => ⟨fun f hf => by subst hf; cases hx; exact hg.1 f rfl,
      fun pos hf => by
        subst hf
        cases hx with
        | sys _ h => simp [Act.ofTransport] at h
        | reconnOk answer => exact hg.2 answer rfl⟩) hi
    (fun w a hR _ _ start e hp => by
      obtain ⟨-, st, -, hst2⟩ := hst'
      rw [hst2] at hR
      exact Or.inl (noSeek_ranges (hR.mono fun _ _ hg => hg.2.1) start e hp)) h
  have := C62_read_to_end_bounded_partial (c := c.on remote 0) hP hk hN
    (by rw [hi.real N hN]; rfl) hst'
    (hR.mono fun s a hg => ⟨hg.1, hg.2.2, hg.2.1, fun _ hf => absurd hf (by
      rw [show (c.on remote 0).supportsSeek = c.supportsSeek from rfl, hss]; simp)⟩) hl hlt
  rw [hi.real N hN] at this
  have e : slice (c.on remote 0).remote 0 remote.length = remote := slice_getD remote 0
  rw [e] at this
  exact this

/-! ### C62 fails with bounded storage -/

/-- 20 bytes through a buffer of 8, all of it filled by the prefetch. -/
def cfgPf8 : Cfg := { cfg20 with prefetchBytes := 8, capacity := some 8 }

/-- Bounded storage of size 8 over memory. -/
def demoBndPf8 : Bnd memStorage :=
  { inner := { buf := List.replicate 8 0, written := 0, rp := 0, wp := 0 }
    read := 0, written := 0, rp := 0, wp := 0, size := 8 }

/-- C62 fails for the HTTP source with bounded storage: the connection stalls while bytes
of the prefetch are waiting to be written.  The server does everything right.  The
consumer reads until a read is short and has received bytes 9 and 10 twice and bytes
19 and 20 never. -/
theorem C62_http_read_to_end_violated :
    ∃ (answer : Answer) (w0 w : HSys (bndStorage true memStorage)), RangeServer bytes20 answer ∧
      HStarts (bndProvider true memProvider 8) cfgPf8 (fun _ => none) answer w0 ∧
      HReach cfgPf8 (RangeServer bytes20) HNoSeek w0 w ∧
      (∃ earlier, w.sys.log = .readRet 17 5 true (.ok [16, 17, 18]) :: earlier) ∧
      delivered w.sys.log = [1, 2, 3, 4, 5, 6, 7, 8, 9, 10, 9, 10, 11, 12, 13, 14, 15, 16, 17, 18] := by
  let w0 : HSys (bndStorage true memStorage) :=
    { sys := init cfgPf8 demoBndPf8, http := stream20 headers20 (some 20) }
  obtain ⟨w, h1, h2⟩ := of_any (o := hrun (fun w a => noSeekB w.sys a) cfgPf8 (server20 headers20) w0
    ([.chunk 10] ++ srcs 3 ++ [.timeout, .reconnOk 0] ++ [.read 8] ++ rdrs 3 ++ [.chunk 2] ++ srcs 6 ++ [.read 4] ++
      rdrs 4 ++ [.chunk 8] ++ srcs 6 ++ [.read 5] ++ rdrs 4 ++ [.read 5] ++ rdrs 2))
    (p := fun w : HSys (bndStorage true memStorage) =>
      decide (w.sys.log.head? = some (.readRet 17 5 true (.ok [16, 17, 18])) ∧
        delivered w.sys.log = [1, 2, 3, 4, 5, 6, 7, 8, 9, 10, 9, 10, 11, 12, 13, 14, 15, 16, 17, 18]))
    (by decide +kernel)
  obtain ⟨h3, h4⟩ := of_decide_eq_true h2
  refine ⟨server20 headers20, w0, w, headers20_ok, ⟨server20_new (by decide +kernel), rfl, rfl, rfl, demoBndPf8, rfl, rfl⟩,
    hreach_hrun headers20_ok (fun w a (h : noSeekB w.sys a = true) f hf => ?_) _ .refl h1, ?_, h4⟩
  · cases a <;> simp [toHAct] at hf
    exact noSeek_of h f (by rw [hf])
  cases hl : w.sys.log with
  | nil => rw [hl] at h3; cases h3
  | cons e l => rw [hl] at h3; cases h3; exact ⟨l, rfl⟩

/-! ### Histories that meet the hypotheses -/

/-- 10 bytes from a source that cannot seek, read in pieces: 6, then 4 of 5. -/
example : ∃ s0 s : Sys memStorage, Starts memProvider cfgUnseekable s0 ∧
    Reach cfgUnseekable (fun s a => Honest s a ∧ NoSeek s a ∧ Delivers cfgUnseekable s a) s0 s ∧
    (∃ later earlier, s.log = later ++ .readRet 6 5 true (.ok [7, 8, 9, 10]) :: earlier) := by
  obtain ⟨s0, s, h1, h2, h3⟩ := exists_of_runG (P := memProvider) (c := cfgUnseekable)
    (g := fun s a => honestB s a && noSeekB s a && deliversB cfgUnseekable s a)
    (G := fun s a => Honest s a ∧ NoSeek s a ∧ Delivers cfgUnseekable s a)
    (fun s a h => by
      rw [Bool.and_eq_true, Bool.and_eq_true] at h
      exact ⟨honest_of h.1.1, noSeek_of h.1.2, delivers_of h.2⟩)
    demoMem10
    ([.chunk 7] ++ srcs 6 ++ [.read 6] ++ rdrs 4 ++ [.chunk 3] ++ srcs 6 ++ [.read 5] ++ rdrs 4)
    (fun s => decide (Ev.readRet 6 5 true (.ok [7, 8, 9, 10]) ∈ s.log))
    rfl rfl (by decide +kernel)
  exact ⟨s0, s, h1, h2, List.append_of_mem (of_decide_eq_true h3)⟩

/-- 10 bytes through a buffer of 4. -/
example : ∃ s0 s : Sys (bndStorage true memStorage), Starts (bndProvider true memProvider 4) cfgBounded s0 ∧
    Reach cfgBounded (fun s a => Honest s a ∧ CleanReconnect s a ∧ NoSeek s a ∧ Delivers cfgBounded s a) s0 s ∧
    ∃ later earlier, s.log = later ++ .readRet 8 4 true (.ok [9, 10]) :: earlier := by
  obtain ⟨s0, s, h1, h2, h3⟩ := exists_of_runG (P := bndProvider true memProvider 4) (c := cfgBounded)
    (g := fun s a => honestB s a && cleanB s a && noSeekB s a && deliversB cfgBounded s a)
    (G := fun s a => Honest s a ∧ CleanReconnect s a ∧ NoSeek s a ∧ Delivers cfgBounded s a)
    (fun s a h => by
      rw [Bool.and_eq_true, Bool.and_eq_true, Bool.and_eq_true] at h
      exact ⟨honest_of h.1.1.1, clean_of h.1.1.2, noSeek_of h.1.2, delivers_of h.2⟩)
    demoBnd4
    ([.chunk 4] ++ srcs 3 ++ [.read 4] ++ rdrs 3 ++ [.chunk 4] ++ srcs 6 ++ [.read 4] ++ rdrs 4 ++
      [.chunk 2] ++ srcs 6 ++ [.read 4] ++ rdrs 4)
    (fun s => decide (Ev.readRet 8 4 true (.ok [9, 10]) ∈ s.log))
    rfl rfl (by decide +kernel)
  exact ⟨s0, s, h1, h2, List.append_of_mem (of_decide_eq_true h3)⟩

/-- The whole resource of 20 bytes over HTTP into memory: the connection stalls after 2
bytes and is replaced, ends early after 4 and is continued, and the consumer reads
everything with a buffer of 30. -/
example : ∃ w0 w : HSys memStorage, HStarts memProvider cfg20 (fun _ => none) (server20 headers20) w0 ∧
    HReach cfg20 (RangeServer bytes20) HNoSeek w0 w ∧
    ∃ later earlier, w.sys.log = later ++ .readRet 0 30 true (.ok bytes20) :: earlier := by
  let w0 : HSys memStorage := { sys := init cfg20 demoMem20, http := stream20 headers20 (some 20) }
  obtain ⟨w, h1, h2⟩ := of_any (o := hrun hguardB cfg20 (server20 headers20) w0
    ([.chunk 2] ++ srcs 6 ++ [.timeout, .reconnOk 0, .chunk 2] ++ srcs 6 ++ [.eof, .src, .seekOk 0, .chunk 16] ++
      srcs 6 ++ [.read 30] ++ rdrs 4))
    (p := fun w : HSys memStorage => decide (Ev.readRet 0 30 true (.ok bytes20) ∈ w.sys.log)) (by decide +kernel)
  exact ⟨w0, w, ⟨server20_new (by decide +kernel), rfl, rfl, rfl, demoMem20, rfl, rfl⟩,
    hreach_hrun headers20_ok (fun w a (h : hguardB w a = true) => (hguard_of h).1) _ .refl h1,
    List.append_of_mem (of_decide_eq_true h2)⟩

/-- The same through a buffer of 10. -/
example : ∃ w0 w : HSys (bndStorage true memStorage),
    HStarts (bndProvider true memProvider 10) cfgB20 (fun _ => none) (server20 headers20) w0 ∧
    HReach cfgB20 (RangeServer bytes20) (fun w a => HNoSeek w a ∧ HClean w a) w0 w ∧
    ∃ later earlier, w.sys.log = later ++ .readRet 16 9 true (.ok [17, 18, 19, 20]) :: earlier := by
  let w0 : HSys (bndStorage true memStorage) :=
    { sys := init cfgB20 demoBnd10, http := stream20 headers20 (some 20) }
  obtain ⟨w, h1, h2⟩ := of_any (o := hrun hguardB cfgB20 (server20 headers20) w0
    ([.chunk 2] ++ srcs 6 ++ [.timeout, .reconnOk 0, .chunk 6] ++ srcs 6 ++ [.read 8] ++ rdrs 4 ++ [.chunk 8] ++
      srcs 6 ++ [.read 8] ++ rdrs 4 ++ [.chunk 4] ++ srcs 6 ++ [.read 9] ++ rdrs 4))
    (p := fun w : HSys (bndStorage true memStorage) =>
      decide (Ev.readRet 16 9 true (.ok [17, 18, 19, 20]) ∈ w.sys.log)) (by decide +kernel)
  exact ⟨w0, w, ⟨server20_new (by decide +kernel), rfl, rfl, rfl, demoBnd10, rfl, rfl⟩,
    hreach_hrun headers20_ok (fun w a (h : hguardB w a = true) => hguard_of h) _ .refl h1,
    List.append_of_mem (of_decide_eq_true h2)⟩

end SD
