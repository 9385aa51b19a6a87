import Verif.Proof.Sys.WholeUnknown
import Verif.Props.ReadAll

/-!
# Properties C13 and C62 without a declared length

The transport decides where the resource ends.  If it ends only there, the results for a
declared length carry over.
-/

set_option linter.unusedVariables false

namespace SD

/-- C13 for storage that keeps everything, without a declared length: a read that returned
fewer bytes than the buffer can hold has reached the end of the resource. -/
theorem C13_short_reads_unknown_length {P : Provider} {c : Cfg} (hP : Unbounded c.contentLength P)
    (hb : c.batchSize ≠ 0) (hk : c.KeepsErrors) {N : Nat} (hcl : c.contentLength = none)
    (hm : c.remoteLen = some N) {s0 s : Sys P.S} (h0 : Starts P c s0)
    (h : Reach c (fun s a => Honest s a ∧ EndsAtEnd c s a ∧ (c.supportsSeek = true → Connected c s a)) s0 s)
    {later earlier : List Ev} {pos len : Nat} {fast : Bool} {bs : List Byte}
    (hl : s.log = later ++ .readRet pos len fast (.ok bs) :: earlier) (hlt : bs.length < len) :
    N ≤ pos + bs.length := by
  obtain ⟨LP, hTot, hE, -⟩ := keeps_lawful hP
  exact (((uwhole_log LP hTot.works hb hk hcl hm (fun s a hg => hg) h0 h).2.split hl) hlt).resolve_right
    (hE rfl _ _)

/-- C13 for storage that keeps a window, without a declared length and without seeks. -/
theorem C13_short_reads_unknown_length_bounded {P : Provider} {c : Cfg} (hP : Windowed c.contentLength P)
    (hk : c.KeepsErrors) {N : Nat} (hcl : c.contentLength = none) (hm : c.remoteLen = some N)
    {s0 s : Sys P.S} (h0 : Starts P c s0)
    (h : Reach c (fun s a => Honest s a ∧ CleanReconnect s a ∧ NoSeek s a ∧ EndsAtEnd c s a) s0 s)
    {later earlier : List Ev} {pos len : Nat} {fast : Bool} {bs : List Byte}
    (hl : s.log = later ++ .readRet pos len fast (.ok bs) :: earlier) (hlt : bs.length < len) :
    N ≤ pos + bs.length := by
  obtain ⟨LP⟩ := windowed_lawful hP
  exact (((win_uwhole_log LP hk hcl hm (fun s a hg => ⟨⟨hg.1, hg.2.1, fun _ => hg.2.2.1⟩,
    fun f p hf => absurd hf (hg.2.2.1 f), hg.2.2.2⟩) h0 h).2.split hl) hlt).resolve_right id

/-- C62 for storage that keeps everything, without a declared length: the resource has `N`
bytes and the transport ends only there.  Once a read has returned fewer bytes than
asked for, the reads have together returned the whole resource, and no later read adds
to it. -/
theorem C62_read_to_end_unknown_length {P : Provider} {c : Cfg} (hP : Unbounded c.contentLength P)
    (hb : c.batchSize ≠ 0) (hk : c.KeepsErrors) {N : Nat} (hcl : c.contentLength = none)
    (hm : c.remoteLen = some N) {s0 s : Sys P.S} (h0 : Starts P c s0)
    (h : Reach c (fun s a => Honest s a ∧ NoSeek s a ∧ EndsAtEnd c s a) s0 s)
    {later earlier : List Ev} {pos len : Nat} {fast : Bool} {bs : List Byte}
    (hl : s.log = later ++ .readRet pos len fast (.ok bs) :: earlier) (hlt : bs.length < len) :
    delivered (.readRet pos len fast (.ok bs) :: earlier) = slice c.remote 0 N ∧
      delivered s.log = slice c.remote 0 N := by
  have hlen : c.LengthHonest := fun n hn => by rw [hcl] at hn; simp at hn
  have hfw : ∀ s a, NoSeek (S := P.S) s a → Connected c s a := fun s a hn f p hf => absurd hf (hn f)
  have hshort := C13_short_reads_unknown_length hP hb hk hcl hm h0
    (h.mono fun s a hg => ⟨hg.1, hg.2.2, fun _ => hfw s a hg.2.1⟩) hl hlt
  obtain ⟨LP, hTot, -⟩ := keeps_lawful hP
  obtain ⟨PP⟩ := keeps_positional hP
  have hp := (PosInv.reach PP h0 h).rule
  refine all_of_short hl (fun b => ?_) hp ?_ hshort
  · exact readsExact_of_rule (((fwd_log (c := c.beyond N b) LP hTot.works hb hlen hk
      (fun s a hg => ⟨hg.1, fun _ _ _ n hn => by rw [show (c.beyond N b).contentLength = c.contentLength from rfl, hcl] at hn; simp at hn,
        fun _ => hfw s a hg.2.1⟩) h0 (reach_beyond hm h)).2).mono fun _ _ => readRule_exact)
  · obtain ⟨-, st, -, rfl⟩ := h0
    exact (noSeek_reach (fun _ _ hg => hg.2.1) h).2

/-- C62 for storage that keeps a window, without a declared length. -/
theorem C62_read_to_end_unknown_length_bounded_partial {P : Provider} {c : Cfg}
    (hP : Windowed c.contentLength P) (hk : c.KeepsErrors) {N : Nat} (hcl : c.contentLength = none)
    (hm : c.remoteLen = some N) {s0 s : Sys P.S} (h0 : Starts P c s0)
    (h : Reach c (fun s a => Honest s a ∧ CleanReconnect s a ∧ NoSeek s a ∧ EndsAtEnd c s a) s0 s)
    {later earlier : List Ev} {pos len : Nat} {fast : Bool} {bs : List Byte}
    (hl : s.log = later ++ .readRet pos len fast (.ok bs) :: earlier) (hlt : bs.length < len) :
    delivered (.readRet pos len fast (.ok bs) :: earlier) = slice c.remote 0 N ∧
      delivered s.log = slice c.remote 0 N := by
  have hshort := C13_short_reads_unknown_length_bounded hP hk hcl hm h0 h hl hlt
  obtain ⟨LP⟩ := windowed_lawful hP
  obtain ⟨PP⟩ := windowed_positional hP
  have hp := (PosInv.reach PP h0 h).rule
  refine all_of_short hl (fun b => ?_) hp ?_ hshort
  · exact readsExact_of_rule (win_log (c := c.beyond N b) LP
      (fun s a hg => ⟨hg.1, hg.2.1, fun _ => hg.2.2.1⟩) h0 (reach_beyond hm h)).2
  · obtain ⟨-, st, -, rfl⟩ := h0
    exact (noSeek_reach (fun _ _ hg => hg.2.2.1) h).2

/-! ### Histories that meet the hypotheses -/

/-- The test for `EndsAtEnd`. -/
def endsB {S : Storage} (c : Cfg) (s : Sys S) (a : Act) : Bool :=
  match a, c.remoteLen with
  | .eof, some m => decide (m ≤ s.tpos)
  | _, _ => true

theorem ends_of {S : Storage} {c : Cfg} {s : Sys S} {a : Act} (h : endsB c s a = true) : EndsAtEnd c s a := by
  rintro rfl m hm
  simp only [endsB, hm] at h
  exact of_decide_eq_true h

/-- 10 bytes of unknown length from a source that cannot seek. -/
def cfgOpen : Cfg := { demoCfg with supportsSeek := false, contentLength := none }

/-- Read in pieces: 6, then 4 of 5. -/
example : ∃ s0 s : Sys tmpStorage, Starts tmpProvider cfgOpen s0 ∧
    Reach cfgOpen (fun s a => Honest s a ∧ NoSeek s a ∧ EndsAtEnd cfgOpen s a) s0 s ∧
    ∃ later earlier, s.log = later ++ .readRet 6 5 false (.ok [7, 8, 9, 10]) :: earlier := by
  obtain ⟨s0, s, h1, h2, h3⟩ := exists_of_runG (P := tmpProvider) (c := cfgOpen)
    (g := fun s a => honestB s a && noSeekB s a && endsB cfgOpen s a)
    (G := fun s a => Honest s a ∧ NoSeek s a ∧ EndsAtEnd cfgOpen s a)
    (fun s a h => by
      rw [Bool.and_eq_true, Bool.and_eq_true] at h
      exact ⟨honest_of h.1.1, noSeek_of h.1.2, ends_of h.2⟩)
    { file := [], wp := 0, fp := 0, rbuf := [] }
    ([.chunk 7] ++ srcs 6 ++ [.read 6] ++ rdrs 4 ++ [.chunk 3] ++ srcs 6 ++ [.eof] ++ srcs 6 ++ [.read 5] ++ rdrs 9)
    (fun s => decide (Ev.readRet 6 5 false (.ok [7, 8, 9, 10]) ∈ s.log))
    rfl rfl (by decide +kernel)
  exact ⟨s0, s, h1, h2, List.append_of_mem (of_decide_eq_true h3)⟩

/-- The same through a buffer of 4. -/
def cfgOpen4 : Cfg := { cfgOpen with prefetchBytes := 4, capacity := some 4 }

example : ∃ s0 s : Sys (bndStorage true memStorage), Starts (bndProvider true memProvider 4) cfgOpen4 s0 ∧
    Reach cfgOpen4 (fun s a => Honest s a ∧ CleanReconnect s a ∧ NoSeek s a ∧ EndsAtEnd cfgOpen4 s a) s0 s ∧
    ∃ later earlier, s.log = later ++ .readRet 8 4 false (.ok [9, 10]) :: earlier := by
  obtain ⟨s0, s, h1, h2, h3⟩ := exists_of_runG (P := bndProvider true memProvider 4) (c := cfgOpen4)
    (g := fun s a => honestB s a && cleanB s a && noSeekB s a && endsB cfgOpen4 s a)
    (G := fun s a => Honest s a ∧ CleanReconnect s a ∧ NoSeek s a ∧ EndsAtEnd cfgOpen4 s a)
    (fun s a h => by
      rw [Bool.and_eq_true, Bool.and_eq_true, Bool.and_eq_true] at h
      exact ⟨honest_of h.1.1.1, clean_of h.1.1.2, noSeek_of h.1.2, ends_of h.2⟩)
    demoBnd4
    ([.chunk 4] ++ srcs 3 ++ [.read 4] ++ rdrs 3 ++ [.chunk 4] ++ srcs 6 ++ [.read 4] ++ rdrs 4 ++
      [.chunk 2] ++ srcs 6 ++ [.eof] ++ srcs 6 ++ [.read 4] ++ rdrs 9)
    (fun s => decide (Ev.readRet 8 4 false (.ok [9, 10]) ∈ s.log))
    rfl rfl (by decide +kernel)
  exact ⟨s0, s, h1, h2, List.append_of_mem (of_decide_eq_true h3)⟩

example : Unbounded cfgOpen.contentLength tmpProvider ∧
    Windowed cfgOpen4.contentLength (bndProvider true memProvider 4) ∧
    cfgOpen.batchSize ≠ 0 ∧ cfgOpen.KeepsErrors ∧ cfgOpen4.KeepsErrors ∧ cfgOpen.remoteLen = some 10 :=
  ⟨.temp _, .bounded _ _ _ _ (.memory _ (by simp)), by decide, demo_keepsErrors, demo_keepsErrors, rfl⟩

end SD
