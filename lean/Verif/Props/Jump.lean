import Verif.Proof.Sys.WinSeekLog
import Verif.Props.ReadAllUnknown
import Verif.Props.Panic

/-!
# Properties C03 and C68: a consumer that jumps ahead

C03 for bounded storage and forward seeks, and C68: after a jump a consumer that reads on
until a read is short has received everything from the target of the jump to the end.
-/

set_option linter.unusedVariables false

namespace SD

/-! ### C03: bounded storage, seekable source, forward seeks -/

/-- The task takes a seek request only when no bytes received earlier are waiting to be
stored. -/
def NothingLeft {S : Storage} (s : Sys S) (a : Act) : Prop := a = .recvSeek → s.rem = none

/-- C03 for storage that keeps a window, a source of unknown length and forward seeks: every
byte a read returns is the byte of the resource at its position.  The exceptions are a
seek request or a reconnect that meets bytes left over from a prefetch
(`C41_chunks_stored_violated`). -/
theorem C03_forward_bounded_unknown_length_partial {P : Provider} {c : Cfg}
    (hP : Windowed c.contentLength P) (hcl : c.contentLength = none) {s0 s : Sys P.S}
    (h0 : Starts P c s0)
    (h : Reach c (fun s a => Honest s a ∧ CleanReconnect s a ∧ NothingLeft s a ∧ Forward c s a) s0 s) :
    ReadsExact c.remote s.log := by
  obtain ⟨C, hC⟩ := windowed_cells hP
  exact readsExact_of_rule (winseek_unknown_log hcl C hC (fun _ _ hg => hg) h0 h).2

/-- C03 for storage that keeps a window, a source of known length and forward seeks, as long
as the transport ends only where the resource or the requested range ends. -/
theorem C03_forward_bounded_known_length_partial {P : Provider} {c : Cfg} {N : Nat}
    (hP : Windowed c.contentLength P) (hcl : c.contentLength = some N) {s0 s : Sys P.S}
    (h0 : Starts P c s0)
    (h : Reach c (fun s a => (Honest s a ∧ CleanReconnect s a ∧ NothingLeft s a ∧ Forward c s a) ∧
      EndsInPlace c s a) s0 s) :
    ReadsExact c.remote s.log := by
  obtain ⟨C, hC⟩ := windowed_cells hP
  exact readsExact_of_rule (winseek_known_log hcl C hC (fun _ _ hg => hg) h0 h).2

/-! #### The tests for the guards -/

def nothingLeftB {S : Storage} (s : Sys S) (a : Act) : Bool :=
  match a with
  | .recvSeek => s.rem.isNone
  | _ => true

theorem nothingLeft_of {S : Storage} {s : Sys S} {a : Act} (h : nothingLeftB s a = true) : NothingLeft s a := by
  rintro rfl
  simpa [nothingLeftB] using h

def inPlaceB {S : Storage} (c : Cfg) (s : Sys S) (a : Act) : Bool :=
  match a, c.contentLength with
  | .eof, some n => decide (n ≤ s.tpos) || (match s.tlim with | some b => decide (b ≤ s.tpos) | none => false)
  | _, _ => true

theorem inPlace_of {S : Storage} {c : Cfg} {s : Sys S} {a : Act} (h : inPlaceB c s a = true) :
    EndsInPlace c s a := by
  rintro rfl n hn
  simp only [inPlaceB, hn, Bool.or_eq_true] at h
  rcases h with h | h
  · exact Or.inl (of_decide_eq_true h)
  · cases hl : s.tlim with
    | none => rw [hl] at h; cases h
    | some b => rw [hl] at h; exact Or.inr ⟨b, rfl, of_decide_eq_true h⟩

/-- 20 bytes of unknown length from a seekable source, through a buffer of 10. -/
def cfgUB20 : Cfg := { demoCfg with contentLength := none, remoteLen := some 20, capacity := some 10 }

/-- Unknown length: two jumps ahead, both handled by the source, one of them late. -/
def jumpsUnknown : List Act :=
  [.chunk 2] ++ srcs 6 ++ [.seek (.start 4)] ++ rdrs 3 ++ [.chunk 2] ++ srcs 8 ++ rdrs 3 ++ [.chunk 6] ++
    srcs 6 ++ [.read 6] ++ rdrs 4 ++ [.recvSeek, .src, .seekOk 4, .seek (.start 12)] ++ rdrs 3 ++
    [.recvSeek, .src, .seekOk 12, .chunk 2] ++ srcs 8 ++ rdrs 3 ++ [.read 2] ++ rdrs 4

example : ∃ s0 s : Sys (bndStorage true memStorage), Starts (bndProvider true memProvider 10) cfgUB20 s0 ∧
    Reach cfgUB20 (fun s a => Honest s a ∧ CleanReconnect s a ∧ NothingLeft s a ∧ Forward cfgUB20 s a) s0 s ∧
    Ev.readRet 4 6 true (.ok [5, 6, 7, 8, 9, 10]) ∈ s.log ∧ Ev.seekRet 12 (.ok 12) ∈ s.log := by
  obtain ⟨s0, s, h1, h2, h3⟩ := exists_of_runG (P := bndProvider true memProvider 10) (c := cfgUB20)
    (g := fun s a => honestB s a && cleanB s a && nothingLeftB s a && forwardB cfgUB20 s a)
    (G := fun s a => Honest s a ∧ CleanReconnect s a ∧ NothingLeft s a ∧ Forward cfgUB20 s a)
    (fun s a h => by
      simp only [Bool.and_eq_true] at h
      exact ⟨honest_of h.1.1.1, clean_of h.1.1.2, nothingLeft_of h.1.2, forward_of h.2⟩) demoBnd10 jumpsUnknown
    (fun s => decide (Ev.readRet 4 6 true (.ok [5, 6, 7, 8, 9, 10]) ∈ s.log ∧ Ev.seekRet 12 (.ok 12) ∈ s.log))
    rfl rfl (by decide +kernel)
  exact ⟨s0, s, h1, h2, of_decide_eq_true h3⟩

/-- Known length: read two bytes, jump over bytes 6 and 7 to 8, read on; the source ends
where it should and the gap is filled. -/
def jumpKnown : List Act :=
  [.chunk 6] ++ srcs 6 ++ [.read 2] ++ rdrs 4 ++ [.seek (.start 8)] ++ rdrs 3 ++
    [.recvSeek, .src, .seekOk 8, .chunk 2] ++ srcs 3 ++ [.chunk 2] ++ srcs 8 ++ rdrs 3 ++ [.read 2] ++ rdrs 4 ++
    [.chunk 8] ++ srcs 6 ++ [.eof, .src, .seekOk 6, .chunk 2] ++ srcs 6 ++ [.eof] ++ srcs 6 ++ [.read 10] ++ rdrs 2

/-- The histories of `C03_forward_bounded_known_length_partial`, with `c` = `cfgB20`. -/
def jumpGuard (s : Sys (bndStorage true memStorage)) (a : Act) : Prop :=
  (Honest s a ∧ CleanReconnect s a ∧ NothingLeft s a ∧ Forward cfgB20 s a) ∧ EndsInPlace cfgB20 s a

theorem jumpKnown_run (p : Sys (bndStorage true memStorage) → Bool)
    (hp : (runG (fun s a => honestB s a && cleanB s a && nothingLeftB s a && forwardB cfgB20 s a && inPlaceB cfgB20 s a)
      cfgB20 (init cfgB20 demoBnd10) jumpKnown).any p = true) :
    ∃ s0 s : Sys (bndStorage true memStorage), Starts (bndProvider true memProvider 10) cfgB20 s0 ∧
      Reach cfgB20 jumpGuard s0 s ∧ p s = true :=
  exists_of_runG (P := bndProvider true memProvider 10) (c := cfgB20)
    (g := fun s a => honestB s a && cleanB s a && nothingLeftB s a && forwardB cfgB20 s a && inPlaceB cfgB20 s a)
    (G := jumpGuard) (fun s a h => by
      simp only [Bool.and_eq_true] at h
      exact ⟨⟨honest_of h.1.1.1.1, clean_of h.1.1.1.2, nothingLeft_of h.1.1.2, forward_of h.1.2⟩, inPlace_of h.2⟩)
    demoBnd10 jumpKnown p rfl rfl hp

example : ∃ s0 s : Sys (bndStorage true memStorage), Starts (bndProvider true memProvider 10) cfgB20 s0 ∧
    Reach cfgB20 jumpGuard s0 s ∧ Ev.readRet 8 2 true (.ok [9, 10]) ∈ s.log ∧ Ev.seekRange 6 (some 8) ∈ s.log := by
  obtain ⟨s0, s, h1, h2, h3⟩ := jumpKnown_run
    (fun s => decide (Ev.readRet 8 2 true (.ok [9, 10]) ∈ s.log ∧ Ev.seekRange 6 (some 8) ∈ s.log)) (by decide +kernel)
  exact ⟨s0, s, h1, h2, of_decide_eq_true h3⟩

/-- C03 fails for bounded storage with a forward seek when the connection ends early: the
task first fills the gap behind the consumer, which overwrites bytes the consumer has not
read, and then goes on where the connection had ended.  The read at 8 returns bytes 7 and
8 of the resource at positions 17 and 18. -/
theorem C03_forward_bounded_violated :
    ∃ s0 s : Sys (bndStorage true memStorage), Starts (bndProvider true memProvider 10) cfgB20 s0 ∧
      Reach cfgB20 (fun s a => Honest s a ∧ CleanReconnect s a ∧ NothingLeft s a ∧ Forward cfgB20 s a) s0 s ∧
      Ev.readRet 8 10 true (.ok [9, 10, 11, 12, 13, 14, 15, 16, 7, 8]) ∈ s.log ∧ ¬ ReadsExact cfgB20.remote s.log := by
  obtain ⟨s0, s, h1, h2, h3⟩ := exists_of_runG (P := bndProvider true memProvider 10) (c := cfgB20)
    (g := fun s a => honestB s a && cleanB s a && nothingLeftB s a && forwardB cfgB20 s a)
    (G := fun s a => Honest s a ∧ CleanReconnect s a ∧ NothingLeft s a ∧ Forward cfgB20 s a)
    (fun s a h => by
      simp only [Bool.and_eq_true] at h
      exact ⟨honest_of h.1.1.1, clean_of h.1.1.2, nothingLeft_of h.1.2, forward_of h.2⟩) demoBnd10
    ([.chunk 6] ++ srcs 6 ++ [.read 2] ++ rdrs 4 ++ [.seek (.start 8)] ++ rdrs 3 ++
      [.recvSeek, .src, .seekOk 8, .chunk 2] ++ srcs 3 ++ [.chunk 2] ++ srcs 8 ++ rdrs 3 ++ [.chunk 6] ++
      srcs 6 ++ [.eof, .src, .seekOk 6, .chunk 2] ++ srcs 6 ++ [.eof, .src, .seekOk 18, .read 10] ++ rdrs 2)
    (fun s => decide (Ev.readRet 8 10 true (.ok [9, 10, 11, 12, 13, 14, 15, 16, 7, 8]) ∈ s.log))
    rfl rfl (by decide +kernel)
  have h4 := of_decide_eq_true h3
  refine ⟨s0, s, h1, h2, h4, fun h5 => ?_⟩
  exact absurd (h5 _ _ _ _ h4) (by decide)

/-! ### C68: everything after a jump -/

/-- What reads return after some point, without a seek since. -/
theorem delivered_since {remote : Nat → Byte} {since base : List Ev} (hr : ReadsExact remote (since ++ base))
    (hp : Always posRule (since ++ base)) (hs : ∀ t r, Ev.seekRet t r ∉ since) :
    logPos (since ++ base) = logPos base + (delivered since).length ∧
      delivered since = slice remote (logPos base) (delivered since).length := by
  induction since with
  | nil => exact ⟨rfl, rfl⟩
  | cons e l ih =>
    obtain ⟨ih1, ih2⟩ := ih (fun pos len fast bs h => hr pos len fast bs (List.mem_cons_of_mem _ h)) hp.2
      (fun t r h => hs t r (List.mem_cons_of_mem _ h))
    cases e with
    | readRet pos len fast res =>
      cases res with
      | ok bs =>
        have h1 : pos = logPos (l ++ base) := hp.1.1
        have h2 := hr pos len fast bs (by simp)
        rw [h1, ih1] at h2
        simp only [List.cons_append, logPos, delivered, List.length_append]
        refine ⟨by rw [ih1]; omega, ?_⟩
        rw [← slice_append]
        congr 1
      | err k => exact ⟨ih1, ih2⟩
      | panic => exact ⟨ih1, ih2⟩
    | seekRet t r => exact absurd (by simp) (hs t r)
    | _ => exact ⟨ih1, ih2⟩

/-- If a read after a jump reaches the end, everything after the jump was delivered. -/
theorem rest_of_short {c : Cfg} {N : Nat} {log later since earlier : List Ev} {pos len t p : Nat} {fast : Bool}
    {bs : List Byte}
    (hl : log = later ++ .readRet pos len fast (.ok bs) :: (since ++ .seekRet t (.ok p) :: earlier))
    (hns : ∀ t r, Ev.seekRet t r ∉ later ++ since)
    (hex : ∀ b, ReadsExact (c.beyond N b).remote log) (hp : Always posRule log)
    (hshort : N ≤ pos + bs.length) :
    delivered (.readRet pos len fast (.ok bs) :: since) = slice c.remote p (N - p) ∧
      delivered (later ++ .readRet pos len fast (.ok bs) :: since) = slice c.remote p (N - p) := by
  let base := Ev.seekRet t (.ok p) :: earlier
  let mid := Ev.readRet pos len fast (.ok bs) :: since
  have hl : log = (later ++ mid) ++ base := by rw [hl]; simp [mid, base]
  have hb : logPos base = p := rfl
  have hns1 : ∀ t r, Ev.seekRet t r ∉ later ++ mid := by
    intro t r h
    have := hns t r
    simp only [mid, List.mem_append, List.mem_cons] at h this
    grind
  have hns2 : ∀ t r, Ev.seekRet t r ∉ mid := fun t r h => hns1 t r (List.mem_append_right _ h)
  have hall := fun b => (delivered_since (by rw [← hl]; exact hex b) (by rw [← hl]; exact hp) hns1).2
  rw [hb] at hall
  have hle : (delivered (later ++ mid)).length ≤ N - p := by
    rcases within_end hall with h | h
    · omega
    · rw [h]; exact Nat.zero_le _
  have hpre : delivered mid <+: delivered (later ++ mid) := delivered_append _ _
  have hsub : ∀ e ∈ mid ++ base, e ∈ log := by
    intro e he; rw [hl, List.append_assoc]; exact List.mem_append_right _ he
  have hp2 : Always posRule (mid ++ base) := by
    rw [hl, List.append_assoc] at hp; exact hp.drop
  obtain ⟨e1, -⟩ := delivered_since (fun p n f b h => hex 0 p n f b (hsub _ h)) hp2 hns2
  have e2 : logPos (mid ++ base) = pos + bs.length := by
    have h1 : pos = logPos (since ++ base) := hp2.1.1
    rw [h1]
    rfl
  have hlen := hpre.length_le
  have heq := hpre.eq_of_length (by omega)
  have hfull : delivered (later ++ mid) = slice c.remote p (N - p) := by
    have h0 := hall 0
    have hn : (delivered (later ++ mid)).length = N - p := by omega
    rw [hn] at h0
    rw [h0]
    by_cases hpn : p ≤ N
    · rw [slice_beyond (by omega)]
    · rw [show N - p = 0 by omega]; rfl
  exact ⟨heq.trans hfull, hfull⟩

/-- C68 for storage that keeps everything and a declared length: the consumer seeks to `p`
and then reads; on a seekable source it has gone back only over bytes it had
read or that were downloaded.  Once a read has
returned fewer bytes than asked for, the reads since the seek have together returned
exactly the resource from `p` to its end, and later reads add nothing. -/
theorem C68_rest_after_seek {P : Provider} {c : Cfg} (hP : Unbounded c.contentLength P)
    (hb : c.batchSize ≠ 0) (hk : c.KeepsErrors) {N : Nat} (hN : c.contentLength = some N)
    (hm : c.remoteLen = some N) {s0 s : Sys P.S} (h0 : Starts P c s0)
    (h : Reach c (fun s a => Honest s a ∧ Delivers c s a ∧ (c.supportsSeek = true → Connected c s a)) s0 s)
    {later since earlier : List Ev} {pos len t p : Nat} {fast : Bool} {bs : List Byte}
    (hl : s.log = later ++ .readRet pos len fast (.ok bs) :: (since ++ .seekRet t (.ok p) :: earlier))
    (hns : ∀ t r, Ev.seekRet t r ∉ later ++ since) (hlt : bs.length < len) :
    delivered (.readRet pos len fast (.ok bs) :: since) = slice c.remote p (N - p) ∧
      delivered (later ++ .readRet pos len fast (.ok bs) :: since) = slice c.remote p (N - p) := by
  have hlen : c.LengthHonest := fun n hn => ⟨N, hm, by rw [hN] at hn; cases hn; exact Nat.le_refl _⟩
  obtain ⟨LP, hTot, hE, -⟩ := keeps_lawful hP
  obtain ⟨PP⟩ := keeps_positional hP
  have hshort := (((whole_log LP hTot.works hb hlen hk hN (fun s a hg => hg) h0 h).2.split hl) hlt).resolve_right
    (hE rfl _ _)
  refine rest_of_short hl hns (fun b => ?_) (PosInv.reach PP h0 h).rule hshort
  exact readsExact_of_rule (((fwd_log (c := c.beyond N b) LP hTot.works hb hlen hk
      (fun s a hg => ⟨hg.1, fun _ => hg.2.1, fun ht => hg.2.2 ht⟩) h0 (reach_beyond hm h)).2).mono
        fun _ _ => readRule_exact)

/-- C68 for storage that keeps everything, without a declared length: the transport ends
only at the end of the resource. -/
theorem C68_rest_after_seek_unknown_length {P : Provider} {c : Cfg} (hP : Unbounded c.contentLength P)
    (hb : c.batchSize ≠ 0) (hk : c.KeepsErrors) {N : Nat} (hcl : c.contentLength = none)
    (hm : c.remoteLen = some N) {s0 s : Sys P.S} (h0 : Starts P c s0)
    (h : Reach c (fun s a => Honest s a ∧ EndsAtEnd c s a ∧ (c.supportsSeek = true → Connected c s a)) s0 s)
    {later since earlier : List Ev} {pos len t p : Nat} {fast : Bool} {bs : List Byte}
    (hl : s.log = later ++ .readRet pos len fast (.ok bs) :: (since ++ .seekRet t (.ok p) :: earlier))
    (hns : ∀ t r, Ev.seekRet t r ∉ later ++ since) (hlt : bs.length < len) :
    delivered (.readRet pos len fast (.ok bs) :: since) = slice c.remote p (N - p) ∧
      delivered (later ++ .readRet pos len fast (.ok bs) :: since) = slice c.remote p (N - p) := by
  have hlen : c.LengthHonest := fun n hn => by rw [hcl] at hn; simp at hn
  obtain ⟨LP, hTot, hE, -⟩ := keeps_lawful hP
  obtain ⟨PP⟩ := keeps_positional hP
  have hshort := (((uwhole_log LP hTot.works hb hk hcl hm (fun s a hg => hg) h0 h).2.split hl) hlt).resolve_right
    (hE rfl _ _)
  refine rest_of_short hl hns (fun b => ?_) (PosInv.reach PP h0 h).rule hshort
  exact readsExact_of_rule (((fwd_log (c := c.beyond N b) LP hTot.works hb hlen hk
      (fun s a hg => ⟨hg.1, fun _ _ _ n hn => by
          rw [show (c.beyond N b).contentLength = c.contentLength from rfl, hcl] at hn; simp at hn,
        fun ht => hg.2.2 ht⟩) h0 (reach_beyond hm h)).2).mono fun _ _ => readRule_exact)

/-- C68 for storage that keeps a window and a source that cannot seek, with a declared
length and forward seeks. -/
theorem C68_rest_after_seek_bounded_partial {P : Provider} {c : Cfg} (hP : Windowed c.contentLength P)
    (hk : c.KeepsErrors) (hss : c.supportsSeek = false) {N : Nat} (hN : c.contentLength = some N)
    (hm : c.remoteLen = some N) {s0 s : Sys P.S} (h0 : Starts P c s0)
    (h : Reach c (fun s a => Honest s a ∧ CleanReconnect s a ∧ Delivers c s a ∧ Forward c s a) s0 s)
    {later since earlier : List Ev} {pos len t p : Nat} {fast : Bool} {bs : List Byte}
    (hl : s.log = later ++ .readRet pos len fast (.ok bs) :: (since ++ .seekRet t (.ok p) :: earlier))
    (hns : ∀ t r, Ev.seekRet t r ∉ later ++ since) (hlt : bs.length < len) :
    delivered (.readRet pos len fast (.ok bs) :: since) = slice c.remote p (N - p) ∧
      delivered (later ++ .readRet pos len fast (.ok bs) :: since) = slice c.remote p (N - p) := by
  obtain ⟨LP⟩ := windowed_lawful hP
  obtain ⟨PP⟩ := windowed_positional hP
  have hshort := (((win_whole_log LP hk hN (fun s a hg => ⟨⟨hg.1, hg.2.1, fun ht => by simp [hss] at ht⟩,
    hg.2.2.2, hg.2.2.1⟩) h0 h).2.split hl) hlt).resolve_right id
  refine rest_of_short hl hns (fun b => ?_) (PosInv.reach PP h0 h).rule hshort
  exact readsExact_of_rule (win_log (c := c.beyond N b) LP
      (fun s a hg => ⟨hg.1, hg.2.1, fun ht => by
        rw [show (c.beyond N b).supportsSeek = c.supportsSeek from rfl, hss] at ht; simp at ht⟩) h0 (reach_beyond hm h)).2

/-- C68 for storage that keeps a window and a source that cannot seek, without a declared
length. -/
theorem C68_rest_after_seek_bounded_unknown_length_partial {P : Provider} {c : Cfg}
    (hP : Windowed c.contentLength P) (hk : c.KeepsErrors) (hss : c.supportsSeek = false) {N : Nat}
    (hcl : c.contentLength = none) (hm : c.remoteLen = some N) {s0 s : Sys P.S} (h0 : Starts P c s0)
    (h : Reach c (fun s a => Honest s a ∧ CleanReconnect s a ∧ EndsAtEnd c s a ∧ Forward c s a) s0 s)
    {later since earlier : List Ev} {pos len t p : Nat} {fast : Bool} {bs : List Byte}
    (hl : s.log = later ++ .readRet pos len fast (.ok bs) :: (since ++ .seekRet t (.ok p) :: earlier))
    (hns : ∀ t r, Ev.seekRet t r ∉ later ++ since) (hlt : bs.length < len) :
    delivered (.readRet pos len fast (.ok bs) :: since) = slice c.remote p (N - p) ∧
      delivered (later ++ .readRet pos len fast (.ok bs) :: since) = slice c.remote p (N - p) := by
  obtain ⟨LP⟩ := windowed_lawful hP
  obtain ⟨PP⟩ := windowed_positional hP
  have hshort := (((win_uwhole_log LP hk hcl hm (fun s a hg => ⟨⟨hg.1, hg.2.1, fun ht => by simp [hss] at ht⟩,
    hg.2.2.2, hg.2.2.1⟩) h0 h).2.split hl) hlt).resolve_right id
  refine rest_of_short hl hns (fun b => ?_) (PosInv.reach PP h0 h).rule hshort
  exact readsExact_of_rule (win_log (c := c.beyond N b) LP
      (fun s a hg => ⟨hg.1, hg.2.1, fun ht => by
        rw [show (c.beyond N b).supportsSeek = c.supportsSeek from rfl, hss] at ht; simp at ht⟩) h0 (reach_beyond hm h)).2

/-! ### C68 fails with bounded storage and a seekable source -/

/-- The log ends with the result `e`, and `k` events before it a seek to `p` returned. -/
def afterJumpB (log : List Ev) (e : Ev) (k t p : Nat) : Bool :=
  log.head? == some e && (log.drop (k + 1)).head? == some (.seekRet t (.ok p)) &&
    ((log.drop 1).take k).all (fun e => match e with | .seekRet _ _ => false | _ => true)

theorem afterJump {log : List Ev} {e : Ev} {k t p : Nat} (h : afterJumpB log e k t p = true) :
    ∃ earlier, log = e :: ((log.drop 1).take k ++ .seekRet t (.ok p) :: earlier) ∧
      ∀ t r, Ev.seekRet t r ∉ (log.drop 1).take k := by
  simp only [afterJumpB, Bool.and_eq_true, beq_iff_eq] at h
  obtain ⟨⟨a1, a2⟩, a3⟩ := h
  refine ⟨(log.drop (k + 1)).drop 1, ?_, ?_⟩
  · cases log with
    | nil => cases a1
    | cons e l =>
      cases a1
      simp only [List.drop_succ_cons, List.drop_zero] at a2 ⊢
      cases hd : l.drop k with
      | nil => rw [hd] at a2; cases a2
      | cons e2 l2 =>
        rw [hd] at a2; cases a2
        simp only [List.drop_succ_cons, List.drop_zero]
        rw [← hd, List.take_append_drop]
  · intro t r hm
    have := List.all_eq_true.mp a3 _ hm
    simp at this

/-- C68 fails for bounded storage with a declared length.  20 bytes through a buffer of 10:
the consumer reads two bytes, seeks to 8 and reads two more.  Everything up to 20 is
downloaded and stored.  Then the task fills the gap it skipped, which moves the writer
behind the consumer, and completes.  The next read returns no bytes and no error, as if
the stream ended at 10: the last 10 bytes are lost although the source did everything
right. -/
theorem C68_rest_after_seek_violated :
    ∃ s0 s : Sys (bndStorage true memStorage), Starts (bndProvider true memProvider 10) cfgB20 s0 ∧
      Reach cfgB20 jumpGuard s0 s ∧
      (∃ since earlier, s.log = .readRet 10 10 true (.ok []) :: (since ++ .seekRet 8 (.ok 8) :: earlier) ∧
        (∀ t r, Ev.seekRet t r ∉ since) ∧ delivered since = [9, 10]) ∧
      (∀ q, q < 20 → RSet.Mem s.dl q) ∧ s.done = true := by
  obtain ⟨s0, s, h1, h2, h3⟩ := jumpKnown_run
    (fun s => afterJumpB s.log (.readRet 10 10 true (.ok [])) 14 8 8 &&
      decide (delivered ((s.log.drop 1).take 14) = [9, 10] ∧ s.dl = [(0, 20)] ∧ s.done = true)) (by decide +kernel)
  rw [Bool.and_eq_true] at h3
  obtain ⟨earlier, a1, a2⟩ := afterJump h3.1
  obtain ⟨a3, a4, a5⟩ := of_decide_eq_true h3.2
  refine ⟨s0, s, h1, h2, ⟨_, earlier, a1, a2, a3⟩, ?_, a5⟩
  intro q hq
  rw [a4]
  exact ⟨(0, 20), by simp, Nat.zero_le _, hq⟩

/-- C68 also fails without a declared length: a seek request that the download has already
passed is taken late and moves the writer back; the next jump moves it forward again.
The counts of bytes read and written then no longer belong together, and a read in the
middle of the stream returns no bytes and no error although the bytes are stored and the
source has not ended. -/
theorem C68_rest_after_seek_unknown_length_violated :
    ∃ s0 s : Sys (bndStorage true memStorage), Starts (bndProvider true memProvider 10) cfgUB20 s0 ∧
      Reach cfgUB20 (fun s a => Honest s a ∧ CleanReconnect s a ∧ NothingLeft s a ∧ Forward cfgUB20 s a ∧
        EndsAtEnd cfgUB20 s a) s0 s ∧
      (∃ rest, s.log = .readRet 12 2 true (.ok []) :: .seekRet 12 (.ok 12) :: rest) ∧
      RSet.Mem s.dl 12 ∧ RSet.Mem s.dl 13 ∧ s.tend = false := by
  obtain ⟨s0, s, h1, h2, h3⟩ := exists_of_runG (P := bndProvider true memProvider 10) (c := cfgUB20)
    (g := fun s a => honestB s a && cleanB s a && nothingLeftB s a && forwardB cfgUB20 s a && endsB cfgUB20 s a)
    (G := fun s a => Honest s a ∧ CleanReconnect s a ∧ NothingLeft s a ∧ Forward cfgUB20 s a ∧ EndsAtEnd cfgUB20 s a)
    (fun s a h => by
      simp only [Bool.and_eq_true] at h
      exact ⟨honest_of h.1.1.1.1, clean_of h.1.1.1.2, nothingLeft_of h.1.1.2, forward_of h.1.2, ends_of h.2⟩)
    demoBnd10 jumpsUnknown
    (fun s => decide (s.log.take 2 = [.readRet 12 2 true (.ok []), .seekRet 12 (.ok 12)] ∧
      (12, 14) ∈ s.dl ∧ s.tend = false)) rfl rfl (by decide +kernel)
  obtain ⟨a1, a2, a3⟩ := of_decide_eq_true h3
  refine ⟨s0, s, h1, h2, ⟨s.log.drop 2, ?_⟩, ⟨_, a2, by decide, by decide⟩, ⟨_, a2, by decide, by decide⟩, a3⟩
  have := List.take_append_drop 2 s.log
  rw [a1] at this
  exact this.symm

/-! ### Histories that meet the hypotheses of the positive theorems -/

/-- A jump over bytes that are not downloaded, with a declared length. -/
example : ∃ s0 s : Sys memStorage, Starts memProvider demoCfg s0 ∧
    Reach demoCfg (fun s a => Honest s a ∧ Delivers demoCfg s a ∧
      (demoCfg.supportsSeek = true → Connected demoCfg s a)) s0 s ∧
    ∃ since earlier, s.log = .readRet 5 9 true (.ok [6, 7, 8, 9, 10]) :: (since ++ .seekRet 5 (.ok 5) :: earlier) ∧
      ∀ t r, Ev.seekRet t r ∉ since := by
  obtain ⟨s0, s, h1, h2, h3⟩ := exists_of_runG (P := memProvider) (c := demoCfg)
    (g := fun s a => honestB s a && deliversB demoCfg s a && forwardB demoCfg s a)
    (G := fun s a => Honest s a ∧ Delivers demoCfg s a ∧ (demoCfg.supportsSeek = true → Connected demoCfg s a))
    (fun s a h => by
      simp only [Bool.and_eq_true] at h
      exact ⟨honest_of h.1.1, delivers_of h.1.2, fun _ => (forward_of h.2).connected⟩)
    demoMem10
    ([.chunk 2] ++ srcs 6 ++ [.seek (.start 5)] ++ rdrs 3 ++ [.recvSeek, .src, .seekOk 5, .chunk 1] ++
      srcs 3 ++ [.chunk 4] ++ srcs 8 ++ rdrs 3 ++ [.read 9] ++ rdrs 2)
    (fun s => afterJumpB s.log (.readRet 5 9 true (.ok [6, 7, 8, 9, 10])) 0 5 5) rfl rfl (by decide +kernel)
  obtain ⟨earlier, a1, a2⟩ := afterJump h3
  exact ⟨s0, s, h1, h2, _, earlier, a1, a2⟩

/-- 10 bytes of unknown length from a seekable source. -/
def cfgOpenSeek : Cfg := { demoCfg with contentLength := none }

/-- The same without a declared length. -/
example : ∃ s0 s : Sys memStorage, Starts memProvider cfgOpenSeek s0 ∧
    Reach cfgOpenSeek (fun s a => Honest s a ∧ EndsAtEnd cfgOpenSeek s a ∧
      (cfgOpenSeek.supportsSeek = true → Connected cfgOpenSeek s a)) s0 s ∧
    ∃ since earlier, s.log = .readRet 5 9 false (.ok [6, 7, 8, 9, 10]) :: (since ++ .seekRet 5 (.ok 5) :: earlier) ∧
      ∀ t r, Ev.seekRet t r ∉ since := by
  obtain ⟨s0, s, h1, h2, h3⟩ := exists_of_runG (P := memProvider) (c := cfgOpenSeek)
    (g := fun s a => honestB s a && endsB cfgOpenSeek s a && forwardB cfgOpenSeek s a)
    (G := fun s a => Honest s a ∧ EndsAtEnd cfgOpenSeek s a ∧ (cfgOpenSeek.supportsSeek = true → Connected cfgOpenSeek s a))
    (fun s a h => by
      simp only [Bool.and_eq_true] at h
      exact ⟨honest_of h.1.1, ends_of h.1.2, fun _ => (forward_of h.2).connected⟩)
    { buf := [], written := 0, rp := 0, wp := 0 }
    ([.chunk 2] ++ srcs 6 ++ [.seek (.start 5)] ++ rdrs 3 ++ [.recvSeek, .src, .seekOk 5, .chunk 1] ++
      srcs 3 ++ [.chunk 1] ++ srcs 8 ++ rdrs 3 ++ [.read 9] ++ rdrs 3 ++ [.chunk 3] ++ srcs 6 ++ [.eof] ++
      srcs 6 ++ rdrs 4)
    (fun s => afterJumpB s.log (.readRet 5 9 false (.ok [6, 7, 8, 9, 10])) 9 5 5) rfl rfl (by decide +kernel)
  obtain ⟨earlier, a1, a2⟩ := afterJump h3
  exact ⟨s0, s, h1, h2, _, earlier, a1, a2⟩

/-- 10 bytes from a source that cannot seek, through a buffer of 4. -/
def cfgLine4 : Cfg := { demoCfg with supportsSeek := false, capacity := some 4 }

example : ∃ s0 s : Sys (bndStorage true memStorage), Starts (bndProvider true memProvider 4) cfgLine4 s0 ∧
    Reach cfgLine4 (fun s a => Honest s a ∧ CleanReconnect s a ∧ Delivers cfgLine4 s a ∧ Forward cfgLine4 s a) s0 s ∧
    ∃ since earlier, s.log = .readRet 7 4 true (.ok [8, 9, 10]) :: (since ++ .seekRet 3 (.ok 3) :: earlier) ∧
      ∀ t r, Ev.seekRet t r ∉ since := by
  obtain ⟨s0, s, h1, h2, h3⟩ := exists_of_runG (P := bndProvider true memProvider 4) (c := cfgLine4)
    (g := fun s a => honestB s a && cleanB s a && deliversB cfgLine4 s a && forwardB cfgLine4 s a)
    (G := fun s a => Honest s a ∧ CleanReconnect s a ∧ Delivers cfgLine4 s a ∧ Forward cfgLine4 s a)
    (fun s a h => by
      simp only [Bool.and_eq_true] at h
      exact ⟨honest_of h.1.1.1, clean_of h.1.1.2, delivers_of h.1.2, forward_of h.2⟩)
    demoBnd4
    ([.chunk 4] ++ srcs 6 ++ [.seek (.start 3)] ++ rdrs 2 ++ [.chunk 3] ++ srcs 6 ++ [.read 4] ++ rdrs 4 ++
      [.chunk 3] ++ srcs 6 ++ [.read 4] ++ rdrs 4)
    (fun s => afterJumpB s.log (.readRet 7 4 true (.ok [8, 9, 10])) 9 3 3) rfl rfl (by decide +kernel)
  obtain ⟨earlier, a1, a2⟩ := afterJump h3
  exact ⟨s0, s, h1, h2, _, earlier, a1, a2⟩

/-- The same without a declared length. -/
def cfgLineOpen4 : Cfg := { cfgLine4 with contentLength := none }

example : ∃ s0 s : Sys (bndStorage true memStorage), Starts (bndProvider true memProvider 4) cfgLineOpen4 s0 ∧
    Reach cfgLineOpen4 (fun s a => Honest s a ∧ CleanReconnect s a ∧ EndsAtEnd cfgLineOpen4 s a ∧
      Forward cfgLineOpen4 s a) s0 s ∧
    ∃ since earlier, s.log = .readRet 7 4 false (.ok [8, 9, 10]) :: (since ++ .seekRet 3 (.ok 3) :: earlier) ∧
      ∀ t r, Ev.seekRet t r ∉ since := by
  obtain ⟨s0, s, h1, h2, h3⟩ := exists_of_runG (P := bndProvider true memProvider 4) (c := cfgLineOpen4)
    (g := fun s a => honestB s a && cleanB s a && endsB cfgLineOpen4 s a && forwardB cfgLineOpen4 s a)
    (G := fun s a => Honest s a ∧ CleanReconnect s a ∧ EndsAtEnd cfgLineOpen4 s a ∧ Forward cfgLineOpen4 s a)
    (fun s a h => by
      simp only [Bool.and_eq_true] at h
      exact ⟨honest_of h.1.1.1, clean_of h.1.1.2, ends_of h.1.2, forward_of h.2⟩)
    demoBnd4
    ([.chunk 4] ++ srcs 6 ++ [.seek (.start 3)] ++ rdrs 2 ++ [.chunk 3] ++ srcs 6 ++ [.read 4] ++ rdrs 4 ++
      [.chunk 3] ++ srcs 6 ++ [.read 4] ++ rdrs 4 ++ [.eof] ++ srcs 6 ++ rdrs 4)
    (fun s => afterJumpB s.log (.readRet 7 4 false (.ok [8, 9, 10])) 14 3 3) rfl rfl (by decide +kernel)
  obtain ⟨earlier, a1, a2⟩ := afterJump h3
  exact ⟨s0, s, h1, h2, _, earlier, a1, a2⟩

end SD
