import Verif.Proof.Sys.FinishWin
import Verif.Proof.Sys.Progress
import Verif.Proof.Sys.Behind
import Verif.Props.Live
import Verif.Props.ReadAllUnknown

/-!
# Properties C71 and C72: the download ends, and so does reading

A resource that is finite, and a transport that goes on: the download ends, calls
return, and a consumer that reads to the end gets there.
-/

set_option linter.unusedVariables false

namespace SD

/-- What C71 and C72 assume of the transport: it resumes where it is asked to, and ends only
at the end of the resource or of the range that it was asked for. -/
def Faithful {S : Storage} (c : Cfg) (s : Sys S) (a : Act) : Prop := Honest s a ∧ EndsWhereAsked c s a

theorem keeps_download_ends {eager : Bool} {P : Provider} {c : Cfg} (hP : Keeps eager false c.contentLength P)
    (hb : c.batchSize ≠ 0) {m : Nat} (hfin : c.Finite m) {s0 : Sys P.S} (h0 : Starts P c s0)
    {r : Nat → Sys P.S} {act : Nat → Option Act} (he : Exec c s0 r act) (hfs : Fair c r act .src)
    (hp : Advancing c r act) (hG : ∀ i a, act i = some a → Honest (r i) a)
    (hne : ∀ j, act j ≠ some (.chunk 0)) {i0 : Nat} (hseek : ∀ j f, i0 ≤ j → act j ≠ some (.seek f)) :
    ∃ j, (r j).spc = .ended := by
  obtain ⟨LP, -, -⟩ := keeps_lawful hP
  obtain ⟨PP⟩ := keeps_positional hP
  obtain ⟨i, hi⟩ := awaits_finally hfin LP PP hb h0 he hp hG hseek
  obtain ⟨j, -, hj⟩ := ends_of_busy he hfs (fun j => (Track.reach PP h0 (he.reach j)).1.1) hi
    (fun j _ p l t h => by
      have := (Keep.reach hb LP h0 (he.reach j)).ok
      simp [h, SrcPc.fullOk] at this)
  refine ⟨j, hj.resolve_right ?_⟩
  exact keeps_no_panic hP hb h0 (he.reachG (fun i a ha e => hne i (by rw [ha, e])) j)

/-- C71 for storage that keeps everything: the resource is finite, and the consumer seeks
only finitely often.  Then the task ends, whatever the consumer does, with any errors,
stalls and reconnects in between. -/
theorem C71_download_ends_unbounded {P : Provider} {c : Cfg} (hP : Unbounded c.contentLength P)
    (hb : c.batchSize ≠ 0) {m : Nat} (hfin : c.Finite m) {s0 : Sys P.S} (h0 : Starts P c s0)
    {r : Nat → Sys P.S} {act : Nat → Option Act} (he : Exec c s0 r act) (hfs : Fair c r act .src)
    (hp : Productive r act) (hG : ∀ i a, act i = some a → Faithful c (r i) a)
    (hne : ∀ j, act j ≠ some (.chunk 0)) {i0 : Nat} (hseek : ∀ j f, i0 ≤ j → act j ≠ some (.seek f)) :
    ∃ j, (r j).spc = .ended :=
  keeps_download_ends hP hb hfin h0 he hfs (hp.advancing fun i a ha => (hG i a ha).2) (fun i a ha => (hG i a ha).1) hne
    hseek

theorem keeps_calls_return_finite {eager : Bool} {P : Provider} {c : Cfg} (hP : Keeps eager false c.contentLength P)
    (hb : c.batchSize ≠ 0) {m : Nat} (hfin : c.Finite m) {s0 : Sys P.S} (h0 : Starts P c s0)
    {r : Nat → Sys P.S} {act : Nat → Option Act} (he : Exec c s0 r act) (hfs : Fair c r act .src)
    (hfr : Fair c r act .rdr) (hp : Advancing c r act) (hG : ∀ i a, act i = some a → Honest (r i) a)
    (hne : ∀ j, act j ≠ some (.chunk 0)) (hmax : ∀ j, Ev.request (two64 - 1) ∉ (r j).log) {i : Nat}
    (hc : (r i).rpc.inCall = true) :
    ∃ j, i ≤ j ∧ ((r j).rpc = .idle ∨ (r j).rpc = .panicked) := by
  apply Classical.byContradiction
  intro hno
  obtain ⟨LP, -, -⟩ := keeps_lawful hP
  obtain ⟨PP⟩ := keeps_positional hP
  obtain ⟨k, hk⟩ := awaits_finally (i0 := i) hfin LP PP hb h0 he hp hG (fun j f hj ha => by
    refine hno ⟨j, hj, Or.inl ?_⟩
    have ht := tr_of_step (he.next j _ ha)
    generalize r (j + 1) = s' at ht
    cases ht <;> assumption)
  refine hno (keeps_calls_return hP hb h0 he hfs hfr (fun hinf => ?_) hne hmax hc)
  obtain ⟨j, hj, h1⟩ := hinf k
  rw [hk j hj] at h1
  cases h1

/-- C63 for a finite resource and storage that keeps everything: the transport may also
end, again and again. -/
theorem C63_calls_return_finite {P : Provider} {c : Cfg} (hP : Unbounded c.contentLength P)
    (hb : c.batchSize ≠ 0) {m : Nat} (hfin : c.Finite m) {s0 : Sys P.S} (h0 : Starts P c s0)
    {r : Nat → Sys P.S} {act : Nat → Option Act} (he : Exec c s0 r act) (hfs : Fair c r act .src)
    (hfr : Fair c r act .rdr) (hp : Productive r act) (hG : ∀ i a, act i = some a → Faithful c (r i) a)
    (hne : ∀ j, act j ≠ some (.chunk 0)) (hmax : ∀ j, Ev.request (two64 - 1) ∉ (r j).log) {i : Nat}
    (hc : (r i).rpc.inCall = true) :
    ∃ j, i ≤ j ∧ ((r j).rpc = .idle ∨ (r j).rpc = .panicked) :=
  keeps_calls_return_finite hP hb hfin h0 he hfs hfr (hp.advancing fun i a ha => (hG i a ha).2)
    (fun i a ha => (hG i a ha).1) hne hmax hc

/-! ### Reading to the end -/

/-- Without seeks, the transport is not asked for a range unless the length is known and the
source can seek. -/
theorem noRange {P : Provider} {c : Cfg} {s0 s : Sys P.S} (h0 : Starts P c s0) (h : Reach c NoSeek s0 s)
    (hc : c.supportsSeek = false ∨ c.contentLength = none) : s.tlim = none := by
  have key : s.tlim = none ∧ (∀ a b, s.spc ≠ .seeking a b) ∧ s.seekQ = none ∧ (∀ p, s.spc ≠ .seekMsg p) ∧
      s.rpc.target = none := by
    refine Reach.inv (P := fun s : Sys P.S => s.tlim = none ∧ (∀ a b, s.spc ≠ .seeking a b) ∧ s.seekQ = none ∧
      (∀ p, s.spc ≠ .seekMsg p) ∧ s.rpc.target = none) h ?_ ?_
    · obtain ⟨-, st, -, rfl⟩ := h0
      simp [init, RdrPc.target]
    · rintro s s' a ⟨h1, h2, h3, h4, h5⟩ hg ht
      unfold NoSeek at hg
      cases ht <;> grind [RdrPc.target, startPc, roundPc]
  exact key.1

/-- What a consumer that reads to the end needs of the transport, if it cannot be asked for the
missing part: it must not end before the end of the resource. -/
def EndsWhole {S : Storage} (c : Cfg) (s : Sys S) (a : Act) : Prop :=
  Delivers c s a ∧ (c.contentLength = none → EndsAtEnd c s a)

theorem whole_guard {P : Provider} {c : Cfg} {m : Nat} (hfin : c.Finite m) {s0 s : Sys P.S} (h0 : Starts P c s0)
    (h : Reach c NoSeek s0 s) {a : Act} (hg : Faithful c s a) : EndsWhole c s a := by
  have key : a = .eof → c.supportsSeek = false ∨ c.contentLength = none → m ≤ s.tpos := by
    intro e hc
    rcases hg.2 e with ⟨m', e1, e2⟩ | ⟨b, e1, e2⟩
    · rw [hfin.1] at e1; cases e1; exact e2
    · rw [noRange h0 h hc] at e1; cases e1
  refine ⟨fun e hs n hn => ?_, fun hc e m' hm => ?_⟩
  · rw [hfin.2 n hn]; exact key e (Or.inl hs)
  · rw [hfin.1] at hm; cases hm; exact key e (Or.inr hc)

/-- What is delivered is not longer than the resource. -/
theorem delivered_within {c : Cfg} {N : Nat} {log : List Ev} (hex : ∀ b, ReadsExact (c.beyond N b).remote log)
    (hp : Always posRule log) (hs : ∀ t r, Ev.seekRet t r ∉ log) :
    logPos log = (delivered log).length ∧ (delivered log).length ≤ N := by
  refine ⟨(delivered_exact (hex 0) hp hs).1, ?_⟩
  rcases within_end (fun b => (delivered_exact (hex b) hp hs).2) with h | h
  · omega
  · rw [h]; exact Nat.zero_le _

set_option maxHeartbeats 4000000 in
/-- A history with no seeks and buffers that are not too long: no position overflows. -/
theorem no_overflow {S : Storage} {c : Cfg} {s0 : Sys S} {r : Nat → Sys S} {act : Nat → Option Act} {m : Nat}
    (he : Exec c s0 r act) (hstart : ∃ st, s0 = init c st) (hns : ∀ j f, act j ≠ some (.seek f))
    (htell : ∀ i, (S.tell (r i).st).1 ≤ m) (hn : ∀ j n, act j = some (.read n) → m + n < two64 - 1) (i : Nat) :
    (∀ w, Ev.request w ∈ (r i).log → w < two64 - 1) ∧ (∀ n, (r i).rpc.buf = some n → m + n < two64 - 1) ∧
      (∀ n w, (r i).rpc = .rSet n w → w < two64 - 1) ∧
      ((r i).rpc = .panicked → ∃ e ∈ (r i).log, e.last = true ∧ e.dry = true) ∧ (r i).rpc.target = none := by
  induction i with
  | zero =>
    obtain ⟨st, rfl⟩ := hstart
    rw [he.start]
    simp [init, RdrPc.buf, RdrPc.target]
  | succ i ih =>
    cases hact : act i with
    | none => rw [he.pause i hact]; exact ih
    | some a =>
      have ht := tr_of_step (he.next i a hact)
      have h1 := htell i
      have h2 := hns i
      have h3 := hn i
      rw [hact] at h2 h3
      have h4 : ∀ p, c.normalize p ≤ p := normalize_le_self c
      generalize r (i + 1) = s' at ht ⊢
      generalize r i = s at ht ih h1
      clear he hns htell hn hact
      obtain ⟨i1, i2, i3, i4, i5⟩ := ih
      cases ht
      case rReadPanic n fast heq hr =>
        exact ⟨by simpa using i1, by simp [RdrPc.buf], by simp, fun _ => ⟨_, List.mem_cons_self, rfl, rfl⟩, rfl⟩
      case rDecidePanic n heq hp =>
        have := i2 n (by simp [heq, RdrPc.buf])
        omega
      case rDecideWait n heq hp hq =>
        have := i2 n (by simp [heq, RdrPc.buf])
        have := h4 ((S.tell s.st).1 + n)
        refine ⟨i1, by simp only [RdrPc.buf, Option.some.injEq]; rintro n' rfl; assumption, ?_, by simp, rfl⟩
        intro n' w hw
        simp only [RdrPc.rSet.injEq] at hw
        omega
      all_goals grind [RdrPc.buf, RdrPc.target]

/-- The facts about an infinite history without seeks, for storage that keeps everything. -/
theorem keeps_whole_exec {eager : Bool} {P : Provider} {c : Cfg} (hP : Keeps eager false c.contentLength P)
    (hb : c.batchSize ≠ 0) (hk : c.KeepsErrors) {m : Nat} (hfin : c.Finite m) {s0 : Sys P.S} (h0 : Starts P c s0)
    {r : Nat → Sys P.S} {act : Nat → Option Act} (he : Exec c s0 r act)
    (hG : ∀ i a, act i = some a → Honest (r i) a ∧ EndsWhole c (r i) a) (hns : ∀ j f, act j ≠ some (.seek f)) (i : Nat) :
    (P.S.tell (r i).st).1 ≤ m ∧ (delivered (r i).log).length ≤ m ∧
      Reach c (fun s a => Honest s a ∧ NoSeek s a ∧ Delivers c s a ∧
        (c.contentLength = none → EndsAtEnd c s a)) s0 (r i) := by
  have hns' : ∀ i a, act i = some a → NoSeek (r i) a := fun i a ha f e => hns i f (by rw [ha, e])
  have hr : Reach c (fun s a => Honest s a ∧ NoSeek s a ∧ Delivers c s a ∧
      (c.contentLength = none → EndsAtEnd c s a)) s0 (r i) :=
    he.reachG (fun i a ha => ⟨(hG i a ha).1, hns' i a ha, (hG i a ha).2⟩) i
  obtain ⟨LP, hTot, -⟩ := keeps_lawful hP
  obtain ⟨PP⟩ := keeps_positional hP
  have hpi := PosInv.reach PP h0 hr
  have hlen : c.LengthHonest := fun n hn => ⟨m, hfin.1, by rw [hfin.2 n hn]⟩
  have hfw : ∀ s a, NoSeek (S := P.S) s a → Connected c s a := fun s a hn f p hf => absurd hf (hn f)
  have hsk : ∀ t x, Ev.seekRet t x ∉ (r i).log := by
    obtain ⟨-, st, -, rfl⟩ := h0
    exact (noSeek_reach (fun _ _ hg => hg.2.1) hr).2
  have hex : ∀ b, ReadsExact (c.beyond m b).remote (r i).log := fun b =>
    readsExact_of_rule (((fwd_log (c := c.beyond m b) LP hTot.works hb hlen hk
      (fun s a hg => ⟨hg.1, fun _ => hg.2.2.1, fun _ => hfw s a hg.2.1⟩) h0 (reach_beyond hfin.1 hr)).2).mono
        fun _ _ => readRule_exact)
  obtain ⟨e1, e2⟩ := delivered_within hex hpi.rule hsk
  exact ⟨by rw [(PP.pos.tell hpi.ok).1, hpi.rp, e1]; exact e2, e2, hr⟩

theorem whole_exec {P : Provider} {c : Cfg} (hP : Unbounded c.contentLength P) (hb : c.batchSize ≠ 0)
    (hk : c.KeepsErrors) {m : Nat} (hfin : c.Finite m) {s0 : Sys P.S} (h0 : Starts P c s0)
    {r : Nat → Sys P.S} {act : Nat → Option Act} (he : Exec c s0 r act)
    (hG : ∀ i a, act i = some a → Honest (r i) a ∧ EndsWhole c (r i) a) (hns : ∀ j f, act j ≠ some (.seek f)) (i : Nat) :
    (P.S.tell (r i).st).1 ≤ m ∧ (delivered (r i).log).length ≤ m ∧
      ∀ later earlier pos len fast bs, (r i).log = later ++ .readRet pos len fast (.ok bs) :: earlier →
        bs.length < len → delivered (r i).log = slice c.remote 0 m := by
  obtain ⟨h1, h2, hr⟩ := keeps_whole_exec hP hb hk hfin h0 he hG hns i
  refine ⟨h1, h2, fun later earlier pos len fast bs hl hlt => ?_⟩
  cases hcl : c.contentLength with
  | none =>
    exact (C62_read_to_end_unknown_length hP hb hk hcl hfin.1 h0
      (hr.mono fun s a hg => ⟨hg.1, hg.2.1, hg.2.2.2 hcl⟩) hl hlt).2
  | some n =>
    have := hfin.2 n hcl
    subst this
    exact (C62_read_to_end_unbounded hP hb hk hcl hfin.1 h0
      (hr.mono fun s a hg => ⟨hg.1, hg.2.1, hg.2.2.1⟩) hl hlt).2

theorem last_cases {log : List Ev} {e : Ev} (hm : e ∈ log) (hl : e.last = true) : ReadFailed log ∨
    ∃ later earlier pos len fast bs, log = later ++ .readRet pos len fast (.ok bs) :: earlier ∧ bs.length < len := by
  cases e with
  | readRet pos len fast res =>
    cases res with
    | ok bs =>
      obtain ⟨later, earlier, h⟩ := List.append_of_mem hm
      exact Or.inr ⟨later, earlier, pos, len, fast, bs, h, by simpa [Ev.last] using hl⟩
    | err k => exact Or.inl ⟨_, hm, rfl⟩
    | panic => exact Or.inl ⟨_, hm, rfl⟩
  | readErr n k => exact Or.inl ⟨_, hm, rfl⟩
  | _ => simp [Ev.last] at hl

theorem reading_ends_unbounded {P : Provider} {c : Cfg} (hP : Unbounded c.contentLength P)
    (hb : c.batchSize ≠ 0) (hk : c.KeepsErrors) {m : Nat} (hfin : c.Finite m) {s0 : Sys P.S}
    (h0 : Starts P c s0) {r : Nat → Sys P.S} {act : Nat → Option Act} (he : Exec c s0 r act)
    (hfs : Fair c r act .src) (hfr : Fair c r act .rdr) (hp : Advancing c r act)
    (hG : ∀ i a, act i = some a → Honest (r i) a ∧ EndsWhole c (r i) a) (hne : ∀ j, act j ≠ some (.chunk 0))
    (hns : ∀ j f, act j ≠ some (.seek f)) (hn : ∀ j n, act j = some (.read n) → m + n < two64 - 1)
    (hread : ReadsToEnd r act) :
    ∃ i, ReadFailed (r i).log ∨ delivered (r i).log = slice c.remote 0 m := by
  have hw := whole_exec hP hb hk hfin h0 he hG hns
  have hov := no_overflow he (by obtain ⟨-, st, -, h⟩ := h0; exact ⟨st, h⟩) hns (fun i => (hw i).1) hn
  have hlast : ∃ i, ∃ e ∈ (r i).log, e.last = true := by
    obtain ⟨i, h | h⟩ := reads_progress he (by obtain ⟨-, st, -, rfl⟩ := h0; rfl) hread (fun i => (hw i).2.1)
      (fun i hi => keeps_calls_return_finite hP hb hfin h0 he hfs hfr hp (fun i a ha => (hG i a ha).1) hne
        (fun j hj => absurd ((hov j).1 _ hj) (Nat.lt_irrefl _))
        (by revert hi; cases (r i).rpc <;> simp [RdrPc.inCall, RdrPc.inReadCall]))
    · obtain ⟨e, h1, h2, -⟩ := (hov i).2.2.2.1 h
      exact ⟨i, e, h1, h2⟩
    · exact ⟨i, h⟩
  obtain ⟨i, e, hm, hl⟩ := hlast
  refine ⟨i, ?_⟩
  rcases last_cases hm hl with h | ⟨later, earlier, pos, len, fast, bs, h1, h2⟩
  · exact Or.inl h
  · exact Or.inr ((hw i).2.2 _ _ _ _ _ _ h1 h2)

/-- C72 for storage that keeps everything: the resource has `m` bytes, the transport goes on,
and a consumer reads until a read fails or returns fewer bytes than the buffer holds.  Then
this happens, and unless a read failed, the reads have returned the whole resource. -/
theorem C72_reading_ends_unbounded {P : Provider} {c : Cfg} (hP : Unbounded c.contentLength P)
    (hb : c.batchSize ≠ 0) (hk : c.KeepsErrors) {m : Nat} (hfin : c.Finite m) {s0 : Sys P.S}
    (h0 : Starts P c s0) {r : Nat → Sys P.S} {act : Nat → Option Act} (he : Exec c s0 r act)
    (hfs : Fair c r act .src) (hfr : Fair c r act .rdr) (hp : Productive r act)
    (hG : ∀ i a, act i = some a → Faithful c (r i) a) (hne : ∀ j, act j ≠ some (.chunk 0))
    (hns : ∀ j f, act j ≠ some (.seek f)) (hn : ∀ j n, act j = some (.read n) → m + n < two64 - 1)
    (hread : ReadsToEnd r act) :
    ∃ i, ReadFailed (r i).log ∨ delivered (r i).log = slice c.remote 0 m :=
  reading_ends_unbounded hP hb hk hfin h0 he hfs hfr (hp.advancing fun i a ha => (hG i a ha).2)
    (fun i a ha => ⟨(hG i a ha).1, whole_guard hfin h0 (he.reachG (fun i a ha f e => hns i f (by rw [ha, e])) i) (hG i a ha)⟩)
    hne hns hn hread

/-! ### Storage that keeps a window -/

/-- The facts about an infinite history without seeks, for storage that keeps a window. -/
theorem win_whole_exec {P : Provider} {c : Cfg} (hP : Windowed c.contentLength P)
    (hk : c.KeepsErrors) {m : Nat} (hfin : c.Finite m) {s0 : Sys P.S} (h0 : Starts P c s0)
    {r : Nat → Sys P.S} {act : Nat → Option Act} (he : Exec c s0 r act)
    (hG : ∀ i a, act i = some a → Honest (r i) a ∧ CleanReconnect (r i) a ∧ EndsWhole c (r i) a)
    (hns : ∀ j f, act j ≠ some (.seek f)) (i : Nat) :
    (P.S.tell (r i).st).1 = (delivered (r i).log).length ∧ (delivered (r i).log).length ≤ m ∧
      ∀ later earlier pos len fast bs, (r i).log = later ++ .readRet pos len fast (.ok bs) :: earlier →
        bs.length < len → delivered (r i).log = slice c.remote 0 m := by
  have hns' : ∀ i a, act i = some a → NoSeek (r i) a := fun i a ha f e => hns i f (by rw [ha, e])
  have hr : Reach c (fun s a => Honest s a ∧ CleanReconnect s a ∧ NoSeek s a ∧ Delivers c s a ∧
      (c.contentLength = none → EndsAtEnd c s a)) s0 (r i) :=
    he.reachG (fun i a ha => ⟨(hG i a ha).1, (hG i a ha).2.1, hns' i a ha, (hG i a ha).2.2⟩) i
  obtain ⟨LP⟩ := windowed_lawful hP
  obtain ⟨PP⟩ := windowed_positional hP
  have hpi := PosInv.reach PP h0 hr
  have hsk : ∀ t x, Ev.seekRet t x ∉ (r i).log := by
    obtain ⟨-, st, -, rfl⟩ := h0
    exact (noSeek_reach (fun _ _ hg => hg.2.2.1) hr).2
  have hex : ∀ b, ReadsExact (c.beyond m b).remote (r i).log := fun b =>
    readsExact_of_rule (win_log (c := c.beyond m b) LP
      (fun s a hg => ⟨hg.1, hg.2.1, fun _ => hg.2.2.1⟩) h0 (reach_beyond hfin.1 hr)).2
  obtain ⟨e1, e2⟩ := delivered_within hex hpi.rule hsk
  refine ⟨?_, e2, fun later earlier pos len fast bs hl hlt => ?_⟩
  · rw [(PP.pos.tell hpi.ok).1, hpi.rp, e1]
  · cases hcl : c.contentLength with
    | none =>
      exact (C62_read_to_end_unknown_length_bounded_partial hP hk hcl hfin.1 h0
        (hr.mono fun s a hg => ⟨hg.1, hg.2.1, hg.2.2.1, hg.2.2.2.2 hcl⟩) hl hlt).2
    | some n =>
      have := hfin.2 n hcl
      subst this
      exact (C62_read_to_end_bounded_partial hP hk hcl hfin.1 h0
        (hr.mono fun s a hg => ⟨hg.1, hg.2.1, hg.2.2.1, hg.2.2.2.1⟩) hl hlt).2

/-- What C71 and C72 assume of a history, for storage that keeps a window: the consumer only
reads, and no reconnect succeeds while received bytes wait to be written (C61). -/
structure Sequential {S : Storage} (c : Cfg) (m : Nat) (r : Nat → Sys S) (act : Nat → Option Act) : Prop where
  faithful : ∀ i a, act i = some a → Faithful c (r i) a ∧ CleanReconnect (r i) a
  nonEmpty : ∀ j, act j ≠ some (.chunk 0)
  noSeek : ∀ j f, act j ≠ some (.seek f)
  short : ∀ j n, act j = some (.read n) → m + n < two64 - 1
  productive : Productive r act

/-- The same with connections that may break off: they have to get somewhere, and only a
transport that cannot be asked for the missing part must not end early. -/
structure Steady {S : Storage} (c : Cfg) (m : Nat) (r : Nat → Sys S) (act : Nat → Option Act) : Prop where
  honest : ∀ i a, act i = some a → Honest (r i) a ∧ CleanReconnect (r i) a ∧ EndsWhole c (r i) a
  nonEmpty : ∀ j, act j ≠ some (.chunk 0)
  noSeek : ∀ j f, act j ≠ some (.seek f)
  short : ∀ j n, act j = some (.read n) → m + n < two64 - 1
  advancing : Advancing c r act

theorem Sequential.steady {P : Provider} {c : Cfg} {m : Nat} (hfin : c.Finite m) {s0 : Sys P.S} (h0 : Starts P c s0)
    {r : Nat → Sys P.S} {act : Nat → Option Act} (he : Exec c s0 r act) (h : Sequential c m r act) : Steady c m r act :=
  ⟨fun i a ha => ⟨(h.faithful i a ha).1.1, (h.faithful i a ha).2,
      whole_guard hfin h0 (he.reachG (fun i a ha f e => h.noSeek i f (by rw [ha, e])) i) (h.faithful i a ha).1⟩,
    h.nonEmpty, h.noSeek, h.short, h.productive.advancing fun i a ha => (h.faithful i a ha).1.2⟩

theorem win_reading_ends {b : Bool} {P : Provider} {c : Cfg} (hP : Windowed c.contentLength P)
    (RP : RingProvider P c.contentLength b) (hb : c.batchSize ≠ 0) (hbs : RP.bufferSize ≠ 0)
    (hk : c.KeepsErrors) {m : Nat} (hfin : c.Finite m) {s0 : Sys P.S} (h0 : Starts P c s0)
    {r : Nat → Sys P.S} {act : Nat → Option Act} (he : Exec c s0 r act) (hfs : Fair c r act .src)
    (hfr : Fair c r act .rdr) (hs : Steady c m r act)
    (hn : ∀ j n w, (r j).rpc = .rWait n w → c.excessiveRead n = false → n ≤ RP.bufferSize)
    (hread : ReadsToEnd r act) :
    (∃ i, ReadFailed (r i).log ∨ delivered (r i).log = slice c.remote 0 m) ∧
      ∃ i, ReadFailed (r i).log ∨ (r i).spc = .ended := by
  have hw := win_whole_exec hP hk hfin h0 he hs.honest hs.noSeek
  have hov := no_overflow he (by obtain ⟨-, st, -, h⟩ := h0; exact ⟨st, h⟩) hs.noSeek
    (fun i => by rw [(hw i).1]; exact (hw i).2.1) hs.short
  have hns' : ∀ i a, act i = some a → NoSeek (r i) a := fun i a ha f e => hs.noSeek i f (by rw [ha, e])
  obtain ⟨LP⟩ := windowed_lawful hP
  obtain ⟨PP⟩ := windowed_positional hP
  have hsg : ∀ i a, act i = some a → SeqG c (r i) a :=
    fun i a ha => ⟨(hs.honest i a ha).1, (hs.honest i a ha).2.1, fun _ => hns' i a ha⟩
  obtain ⟨k, hk'⟩ := awaits_finally_win hfin LP h0 he hs.advancing hsg
  have hpan : ∀ j, (r j).spc ≠ .panicked := fun j =>
    C39_no_panic_windowed_sequential_partial hP h0 (he.reachG (fun i a ha =>
      ⟨fun e => hs.nonEmpty i (by rw [ha, e]), (hs.honest i a ha).1, hns' i a ha, (hs.honest i a ha).2.1⟩) j)
  have hlast : ∃ i, ∃ e ∈ (r i).log, e.last = true := by
    obtain ⟨i, h | h⟩ := reads_progress he (by obtain ⟨-, st, -, rfl⟩ := h0; rfl) hread (fun i => (hw i).2.1)
      (fun i hi => read_returns PP RP hb hbs h0 he hfs hfr (fun hinf => by
          obtain ⟨j, hj, h1⟩ := hinf k
          rw [hk' j hj] at h1
          cases h1) hpan (fun j hj => absurd ((hov j).1 _ hj) (Nat.lt_irrefl _)) hn hi)
    · obtain ⟨e, h1, h2, -⟩ := (hov i).2.2.2.1 h
      exact ⟨i, e, h1, h2⟩
    · exact ⟨i, h⟩
  obtain ⟨i, e, hm, hl⟩ := hlast
  rcases last_cases hm hl with h | ⟨later, earlier, pos, len, fast, bs, h1, h2⟩
  · exact ⟨⟨i, Or.inl h⟩, ⟨i, Or.inl h⟩⟩
  have hall := (hw i).2.2 _ _ _ _ _ _ h1 h2
  refine ⟨⟨i, Or.inr hall⟩, ?_⟩
  have hlen : ∀ j, i ≤ j → m ≤ (delivered (r j).log).length := by
    intro j hj
    obtain ⟨es, hes⟩ := log_exec he hj
    have := delivered_le es (r i).log
    rw [hall] at this
    rw [hes]
    simpa [slice] using this
  obtain ⟨j, -, hj⟩ := ends_of_busy (i0 := max i k) he hfs
    (fun j => (Track.reach PP h0 (he.reach j)).1.1) (fun j hj => hk' j (by omega))
    (fun j hj p l t h => by
      obtain ⟨W, hW, hS⟩ := straight_reach hfin LP (fun _ _ h => h) h0
        (he.reachG hsg j)
      have hB := (Behind.reach LP (fun _ _ h => h) h0
        (he.reachG (fun i a ha => ⟨hsg i a ha, hns' i a ha⟩) j)).rpos
      obtain ⟨-, hWk⟩ := Wake.reach hb RP h0 (he.reach j)
      have ht := hWk.todo t (by simp [h, SrcPc.zeroTodo])
      have hf := (hW.flow (by simp [h, SrcPc.live])).2
      have := (hw j).1
      rw [(LP.law.tell_ok hW.inv).1] at this
      have := hlen j (by omega)
      have := hS.tm
      have : 0 < t.length := List.length_pos_iff.mpr ht
      simp only [inFlight, h, SrcPc.pend, List.length_append] at hf
      omega)
  exact ⟨j, Or.inr (hj.resolve_right (hpan j))⟩

theorem reading_ends_bounded {F : Provider} {checks : Bool} {bufferSize : Nat} {c : Cfg}
    (hF : Sparing (some (Bnd.sizeFor bufferSize c.contentLength)) F) (hb : c.batchSize ≠ 0)
    (hbs : bufferSize ≠ 0) (hk : c.KeepsErrors) {m : Nat} (hfin : c.Finite m)
    {s0 : Sys (bndStorage checks F.S)} (h0 : Starts (bndProvider checks F bufferSize) c s0)
    {r : Nat → Sys (bndStorage checks F.S)} {act : Nat → Option Act} (he : Exec c s0 r act)
    (hfs : Fair c r act .src) (hfr : Fair c r act .rdr) (hs : Steady c m r act)
    (hread : ReadsToEnd r act) :
    (∃ i, ReadFailed (r i).log ∨ delivered (r i).log = slice c.remote 0 m) ∧
      ∃ i, ReadFailed (r i).log ∨ (r i).spc = .ended := by
  obtain ⟨LF, TF, -⟩ := keeps_lawful hF
  refine win_reading_ends (.bounded c.contentLength checks F bufferSize hF)
    (bndRingProvider checks bufferSize c.contentLength LF TF (keeps_read_le hF)) hb hbs hk hfin h0 he hfs hfr hs
    ?_ hread
  intro j n w _ hx
  have := h0.1
  have hx : n ≤ bufferSize := by simpa [Cfg.excessiveRead, this] using hx
  exact hx

/-- C72 for bounded storage: the consumer only reads, and reads to the end. -/
theorem C72_reading_ends_bounded_partial {F : Provider} {checks : Bool} {bufferSize : Nat} {c : Cfg}
    (hF : Sparing (some (Bnd.sizeFor bufferSize c.contentLength)) F) (hb : c.batchSize ≠ 0)
    (hbs : bufferSize ≠ 0) (hk : c.KeepsErrors) {m : Nat} (hfin : c.Finite m)
    {s0 : Sys (bndStorage checks F.S)} (h0 : Starts (bndProvider checks F bufferSize) c s0)
    {r : Nat → Sys (bndStorage checks F.S)} {act : Nat → Option Act} (he : Exec c s0 r act)
    (hfs : Fair c r act .src) (hfr : Fair c r act .rdr) (hs : Sequential c m r act)
    (hread : ReadsToEnd r act) :
    (∃ i, ReadFailed (r i).log ∨ delivered (r i).log = slice c.remote 0 m) ∧
      ∃ i, ReadFailed (r i).log ∨ (r i).spc = .ended :=
  reading_ends_bounded hF hb hbs hk hfin h0 he hfs hfr (hs.steady hfin h0 he) hread

theorem reading_ends_adaptive {F V : Provider} {checks : Bool} {bufferSize : Nat} {c : Cfg}
    (hF : Sparing (some bufferSize) F) (hV : Sparing (some bufferSize) V) (hcl : c.contentLength = none)
    (hb : c.batchSize ≠ 0) (hbs : bufferSize ≠ 0) (hk : c.KeepsErrors) {m : Nat} (hfin : c.Finite m)
    {s0 : Sys (adpStorage checks F.S V.S)} (h0 : Starts (adpProvider checks F V bufferSize) c s0)
    {r : Nat → Sys (adpStorage checks F.S V.S)} {act : Nat → Option Act} (he : Exec c s0 r act)
    (hfs : Fair c r act .src) (hfr : Fair c r act .rdr) (hs : Steady c m r act)
    (hn : ∀ j n, act j = some (.read n) → n ≤ bufferSize) (hread : ReadsToEnd r act) :
    (∃ i, ReadFailed (r i).log ∨ delivered (r i).log = slice c.remote 0 m) ∧
      ∃ i, ReadFailed (r i).log ∨ (r i).spc = .ended := by
  obtain ⟨RP, e⟩ : ∃ RP : RingProvider (adpProvider checks F V bufferSize) c.contentLength false,
      RP.bufferSize = bufferSize := by rw [hcl]; exact adaptive_ring checks hF
  refine win_reading_ends (by rw [hcl]; exact .adaptive checks F V bufferSize hF hV) RP hb (by omega) hk hfin h0
    he hfs hfr hs ?_ hread
  intro j n w hp _
  have := he.reachG (G := fun _ a => ∀ n, a = .read n → n ≤ bufferSize) (fun i a ha n e => hn i n (by rw [ha, e])) j
  obtain ⟨-, st, -, rfl⟩ := h0
  rw [e]
  exact buf_reach this n (by rw [hp]; rfl)

/-- C72 for adaptive storage and a stream of unknown length, if no buffer is longer than the
storage (C26). -/
theorem C72_reading_ends_adaptive_partial {F V : Provider} {checks : Bool} {bufferSize : Nat} {c : Cfg}
    (hF : Sparing (some bufferSize) F) (hV : Sparing (some bufferSize) V) (hcl : c.contentLength = none)
    (hb : c.batchSize ≠ 0) (hbs : bufferSize ≠ 0) (hk : c.KeepsErrors) {m : Nat} (hfin : c.Finite m)
    {s0 : Sys (adpStorage checks F.S V.S)} (h0 : Starts (adpProvider checks F V bufferSize) c s0)
    {r : Nat → Sys (adpStorage checks F.S V.S)} {act : Nat → Option Act} (he : Exec c s0 r act)
    (hfs : Fair c r act .src) (hfr : Fair c r act .rdr) (hs : Sequential c m r act)
    (hn : ∀ j n, act j = some (.read n) → n ≤ bufferSize) (hread : ReadsToEnd r act) :
    (∃ i, ReadFailed (r i).log ∨ delivered (r i).log = slice c.remote 0 m) ∧
      ∃ i, ReadFailed (r i).log ∨ (r i).spc = .ended :=
  reading_ends_adaptive hF hV hcl hb hbs hk hfin h0 he hfs hfr (hs.steady hfin h0 he) hn hread

/-- C71 for bounded storage: a consumer that reads to the end. -/
theorem C71_download_ends_bounded_partial {F : Provider} {checks : Bool} {bufferSize : Nat} {c : Cfg}
    (hF : Sparing (some (Bnd.sizeFor bufferSize c.contentLength)) F) (hb : c.batchSize ≠ 0)
    (hbs : bufferSize ≠ 0) (hk : c.KeepsErrors) {m : Nat} (hfin : c.Finite m)
    {s0 : Sys (bndStorage checks F.S)} (h0 : Starts (bndProvider checks F bufferSize) c s0)
    {r : Nat → Sys (bndStorage checks F.S)} {act : Nat → Option Act} (he : Exec c s0 r act)
    (hfs : Fair c r act .src) (hfr : Fair c r act .rdr) (hs : Sequential c m r act)
    (hread : ReadsToEnd r act) : ∃ i, ReadFailed (r i).log ∨ (r i).spc = .ended :=
  (C72_reading_ends_bounded_partial hF hb hbs hk hfin h0 he hfs hfr hs hread).2

/-! ### Histories that meet the hypotheses -/

/-- The tests. -/
def askedB {S : Storage} (c : Cfg) (s : Sys S) (a : Act) : Bool :=
  match a with
  | .eof => (match c.remoteLen with | some m => decide (m ≤ s.tpos) | none => false) ||
      (match s.tlim with | some b => decide (b ≤ s.tpos) | none => false)
  | _ => true

theorem asked_of {S : Storage} {c : Cfg} {s : Sys S} {a : Act} (h : askedB c s a = true) :
    EndsWhereAsked c s a := by
  rintro rfl
  simp only [askedB, Bool.or_eq_true] at h
  rcases h with h | h
  · split at h
    · next m e => exact Or.inl ⟨m, e, of_decide_eq_true h⟩
    · cases h
  · split at h
    · next m e => exact Or.inr ⟨m, e, of_decide_eq_true h⟩
    · cases h

theorem runG_guard {S : Storage} {c : Cfg} {g : Sys S → Act → Bool} {as : List Act} {s0 s : Sys S}
    (h : runG g c s0 as = some s) : ∀ i a, as[i]? = some a → g (after c s0 as i) a = true := by
  induction as generalizing s0 with
  | nil => simp
  | cons b as ih =>
    unfold runG at h
    split at h
    · next hg =>
      split at h
      · next s1 hs =>
        intro i a ha
        cases i with
        | zero =>
          simp at ha
          subst ha
          exact hg
        | succ i =>
          have := ih h i a (by simpa using ha)
          simpa [after, hs] using this
      · simp at h
    · simp at h

/-- The test for `ReadsToEnd`. -/
def readsB {S : Storage} (c : Cfg) (s0 : Sys S) (as : List Act) : Bool :=
  (after c s0 as as.length).log.any Ev.last &&
    (List.range as.length).all fun i =>
      (after c s0 as i).rpc != .idle || (after c s0 as i).log.any Ev.last ||
        (List.range as.length).any fun j => decide (i ≤ j) &&
          match as[j]? with
          | some (.read n) => decide (0 < n)
          | _ => false

theorem reads_of {S : Storage} {c : Cfg} {s0 : Sys S} {as : List Act} (h : readsB c s0 as = true) :
    ReadsToEnd (after c s0 as) (fun i => as[i]?) := by
  intro i hi hl
  simp only [readsB, Bool.and_eq_true, List.any_eq_true, List.all_eq_true, List.mem_range] at h
  obtain ⟨⟨e, h1, h2⟩, h3⟩ := h
  rcases Nat.lt_or_ge i as.length with hlt | hge
  · have := h3 i hlt
    simp only [Bool.or_eq_true, bne_iff_ne, ne_eq, List.any_eq_true, Bool.and_eq_true, decide_eq_true_eq,
      List.mem_range] at this
    rcases this with (h | ⟨e, h4, h5⟩) | ⟨j, h4, h5, h6⟩
    · exact absurd hi h
    · rw [hl e h4] at h5; cases h5
    · split at h6
      · next n e => exact ⟨j, n, h5, of_decide_eq_true h6, e⟩
      · cases h6
  · rw [after_end hge] at hl
    rw [hl e h1] at h2
    cases h2

theorem productive_of_run {S : Storage} {c : Cfg} {g : Sys S → Act → Bool} {as : List Act} {s0 s : Sys S}
    (h : runG g c s0 as = some s) (hs : s.spc.awaits = false) :
    Productive (after c s0 as) (fun i => as[i]?) := by
  intro hi
  obtain ⟨j, hj, h'⟩ := hi as.length
  rw [after_end hj, after_last h, hs] at h'
  cases h'

/-- What the theorems assume of the transport, for a history that stops. -/
theorem faithful_of_run {P : Provider} {c : Cfg} (st : P.S.σ) (as : List Act)
    (hcap : c.capacity = P.maxCapacity) (hst : P.create c.contentLength = .ok st)
    (h : (runG (fun s a => honestB s a && askedB c s a && cleanB s a && decide (a ≠ .chunk 0)) c (init c st) as).any
      (stopped c) = true) :
    Starts P c (init c st) ∧ Exec c (init c st) (after c (init c st) as) (fun i => as[i]?) ∧
      Fair c (after c (init c st) as) (fun i => as[i]?) .src ∧
      Fair c (after c (init c st) as) (fun i => as[i]?) .rdr ∧
      Productive (after c (init c st) as) (fun i => as[i]?) ∧
      (∀ i a, as[i]? = some a → Faithful c (after c (init c st) as i) a ∧
        CleanReconnect (after c (init c st) as i) a) ∧
      ∀ i : Nat, as[i]? ≠ some (.chunk 0) := by
  cases hr : runG (fun s a => honestB s a && askedB c s a && cleanB s a && decide (a ≠ .chunk 0)) c (init c st) as with
  | none => rw [hr] at h; simp at h
  | some s =>
    rw [hr] at h
    simp only [Option.any_some, stopped, Bool.and_eq_true, Option.isNone_iff_eq_none, Bool.not_eq_true'] at h
    refine ⟨⟨hcap, st, hst, rfl⟩, exec_of_run hr, fair_of_run hr h.1.1, fair_of_run hr h.1.2,
      productive_of_run hr h.2, fun i a ha => ?_, fun i ha => ?_⟩
    · have := runG_guard hr i a ha
      simp only [Bool.and_eq_true] at this
      exact ⟨⟨honest_of this.1.1.1, asked_of this.1.1.2⟩, clean_of this.1.2⟩
    · have := runG_guard hr i (.chunk 0) ha
      simp at this

/-- Storage that keeps everything: the consumer jumps ahead, the transport is asked for the
rest, then for the gap; the download ends. -/
example : ∃ (s0 : Sys memStorage) (r : Nat → Sys memStorage) (act : Nat → Option Act),
    Starts memProvider demoCfg s0 ∧ Exec demoCfg s0 r act ∧ Fair demoCfg r act .src ∧ Fair demoCfg r act .rdr ∧
      Productive r act ∧ (∀ i a, act i = some a → Faithful demoCfg (r i) a) ∧ (∀ j, act j ≠ some (.chunk 0)) ∧
      (∀ j f, 60 ≤ j → act j ≠ some (.seek f)) ∧ (r 14).rpc = .sWait 8 ∧ (r 14).spc = .sel := by
  obtain ⟨h1, h2, h3, h4, h5, h6, h7⟩ := faithful_of_run (P := memProvider) (c := demoCfg) demoMem10
    ([.chunkErr, .timeout, .reconnOk 0, .chunk 4] ++ srcs 6 ++ [.seek (.start 8)] ++ rdrs 3 ++
      [.recvSeek, .src, .seekOk 8, .chunk 2] ++ srcs 3 ++ [.eof, .src, .seekOk 4, .chunk 4] ++ srcs 8 ++ rdrs 3 ++
      [.eof] ++ srcs 6) rfl rfl (by decide +kernel)
  refine ⟨_, _, _, h1, h2, h3, h4, h5, fun i a ha => (h6 i a ha).1, h7, ?_, by decide +kernel, by decide +kernel⟩
  intro j f hj
  rw [List.getElem?_eq_none (by simp [srcs, rdrs]; omega)]
  simp

/-- Storage that keeps everything: the resource is read in pieces of 4, the last read returns
the last 2 bytes. -/
example : ∃ (s0 : Sys memStorage) (r : Nat → Sys memStorage) (act : Nat → Option Act),
    Starts memProvider demoCfg s0 ∧ Exec demoCfg s0 r act ∧ Fair demoCfg r act .src ∧ Fair demoCfg r act .rdr ∧
      Productive r act ∧ (∀ i a, act i = some a → Faithful demoCfg (r i) a) ∧ (∀ j, act j ≠ some (.chunk 0)) ∧
      (∀ j f, act j ≠ some (.seek f)) ∧ (∀ j n, act j = some (.read n) → 10 + n < two64 - 1) ∧
      ReadsToEnd r act ∧ ¬ ReadFailed (r 60).log ∧ delivered (r 60).log = [1, 2, 3, 4, 5, 6, 7, 8, 9, 10] := by
  obtain ⟨h1, h2, h3, h4, h5, h6, h7⟩ := faithful_of_run (P := memProvider) (c := demoCfg) demoMem10
    ([.read 4] ++ rdrs 3 ++ [.chunk 2] ++ srcs 6 ++ [.chunk 5] ++ srcs 8 ++ rdrs 5 ++ [.read 4] ++ rdrs 3 ++
      [.chunk 3] ++ srcs 8 ++ rdrs 5 ++ [.read 4] ++ rdrs 3 ++ [.eof] ++ srcs 6) rfl rfl (by decide +kernel)
  refine ⟨_, _, _, h1, h2, h3, h4, h5, fun i a ha => (h6 i a ha).1, h7, ?_, ?_, reads_of (by decide +kernel), ?_,
    by decide +kernel⟩
  · intro j f e
    exact absurd (List.mem_of_getElem? e) (by simp [srcs, rdrs, List.mem_replicate])
  · intro j n e
    have := List.mem_of_getElem? e
    simp [srcs, rdrs, List.mem_replicate] at this
    subst this
    decide
  · show ¬ ∃ e ∈ _, _
    decide +kernel

/-- Bounded storage: 10 bytes through a buffer of 4. -/
example : ∃ (s0 : Sys (bndStorage true memStorage)) (r : Nat → Sys (bndStorage true memStorage))
    (act : Nat → Option Act), Starts (bndProvider true memProvider 4) cfgBounded s0 ∧ Exec cfgBounded s0 r act ∧
      Fair cfgBounded r act .src ∧ Fair cfgBounded r act .rdr ∧ Sequential cfgBounded 10 r act ∧
      ReadsToEnd r act ∧ ¬ ReadFailed (r 60).log ∧ delivered (r 60).log = [1, 2, 3, 4, 5, 6, 7, 8, 9, 10] := by
  obtain ⟨h1, h2, h3, h4, h5, h6, h7⟩ := faithful_of_run (P := bndProvider true memProvider 4) (c := cfgBounded)
    demoBnd4
    ([.chunk 4] ++ srcs 3 ++ [.chunk 6] ++ srcs 4 ++ [.read 3] ++ rdrs 4 ++ [.read 4] ++ rdrs 3 ++ srcs 12 ++
      rdrs 5 ++ srcs 7 ++ [.read 4] ++ rdrs 4 ++ [.eof] ++ srcs 6) rfl rfl (by decide +kernel)
  refine ⟨_, _, _, h1, h2, h3, h4, ⟨h6, h7, ?_, ?_, h5⟩, reads_of (by decide +kernel), ?_, by decide +kernel⟩
  · intro j f e
    exact absurd (List.mem_of_getElem? e) (by simp [srcs, rdrs, List.mem_replicate])
  · intro j n e
    have := List.mem_of_getElem? e
    simp [srcs, rdrs, List.mem_replicate] at this
    rcases this with rfl | rfl <;> decide
  · show ¬ ∃ e ∈ _, _
    decide +kernel

/-- Adaptive storage, unknown length. -/
example : ∃ (s0 : Sys (adpStorage true memStorage memStorage))
    (r : Nat → Sys (adpStorage true memStorage memStorage)) (act : Nat → Option Act),
      Starts (adpProvider true memProvider memProvider 4) cfgUnknown s0 ∧ Exec cfgUnknown s0 r act ∧
      Fair cfgUnknown r act .src ∧ Fair cfgUnknown r act .rdr ∧ Sequential cfgUnknown 10 r act ∧
      (∀ j n, act j = some (.read n) → n ≤ 4) ∧
      ReadsToEnd r act ∧ ¬ ReadFailed (r 60).log ∧ delivered (r 60).log = [1, 2, 3, 4, 5, 6, 7, 8, 9, 10] := by
  obtain ⟨h1, h2, h3, h4, h5, h6, h7⟩ := faithful_of_run (P := adpProvider true memProvider memProvider 4)
    (c := cfgUnknown) demoAdp4
    ([.chunk 4] ++ srcs 6 ++ [.chunk 6] ++ srcs 4 ++ [.read 3] ++ rdrs 4 ++ [.read 4] ++ rdrs 3 ++ srcs 12 ++
      rdrs 5 ++ srcs 7 ++ [.read 4] ++ rdrs 4 ++ [.eof] ++ srcs 6 ++ rdrs 5) rfl rfl (by decide +kernel)
  refine ⟨_, _, _, h1, h2, h3, h4, ⟨h6, h7, ?_, ?_, h5⟩, ?_, reads_of (by decide +kernel), ?_, by decide +kernel⟩
  · intro j f e
    exact absurd (List.mem_of_getElem? e) (by simp [srcs, rdrs, List.mem_replicate])
  · intro j n e
    have := List.mem_of_getElem? e
    simp [srcs, rdrs, List.mem_replicate] at this
    rcases this with rfl | rfl <;> decide
  · intro j n e
    have := List.mem_of_getElem? e
    simp [srcs, rdrs, List.mem_replicate] at this
    omega
  · show ¬ ∃ e ∈ _, _
    decide +kernel

end SD
