import Verif.Proof.WeakLive
import Verif.Proof.WeakWake
import Verif.Props.Tso

/-!
# Property C79: weakly ordered memory

The requested position is stored and loaded with relaxed ordering.  The language and
processors such as ARM let the task see such a store arbitrarily late unless the two have
synchronised.  Unless a request for a seek is lost because the channel is full, every
result of a call is one that is possible without delays; with storage that keeps everything
the results about calls that return and downloads that end hold as well; bounded storage
shows what it shows on x86 (C73).
-/

set_option linter.unusedVariables false

namespace SD

/-! ### Restrictions that do not look into calls -/

section
variable {S : Storage}

theorem outer_any : Outer (Any (S := S)) := ⟨fun _ => trivial, fun _ _ _ _ _ _ => trivial⟩

theorem Outer.and {G G' : Sys S → Act → Prop} (h : Outer G) (h' : Outer G') :
    Outer (fun s a => G s a ∧ G' s a) :=
  ⟨fun s => ⟨h.rdr s, h'.rdr s⟩, fun s a p q k hg => ⟨h.blind s a p q k hg.1, h'.blind s a p q k hg.2⟩⟩

theorem outer_honest : Outer (Honest (S := S)) :=
  ⟨fun s => ⟨fun _ _ _ _ h => (nomatch h), fun _ _ _ h => nomatch h⟩, fun s a p q k h => h⟩

theorem outer_noSeek : Outer (NoSeek (S := S)) := ⟨fun s f h => (nomatch h), fun s a p q k h => h⟩

theorem outer_forward (c : Cfg) : Outer (Forward (S := S) c) :=
  ⟨fun s f p h => (nomatch h), fun s a p q k h => h⟩

theorem outer_connected (c : Cfg) : Outer (Connected (S := S) c) :=
  ⟨fun s f p h => (nomatch h), fun s a p q k h => h⟩

theorem outer_delivers (c : Cfg) : Outer (Delivers (S := S) c) :=
  ⟨fun s h => (nomatch h), fun s a p q k h => h⟩

theorem outer_nonEmpty : Outer (NonEmpty (S := S)) := ⟨fun s h => (nomatch h), fun s a p q k h => h⟩

theorem outer_clean : Outer (CleanReconnect (S := S)) := ⟨fun s pos h => (nomatch h), fun s a p q k h => h⟩

theorem outer_faithful (c : Cfg) : Outer (Faithful (S := S) c) :=
  outer_honest.and ⟨fun s h => (nomatch h), fun s a p q k h => h⟩

end

theorem tok_starts {P : Provider} {c : Cfg} {s0 : Sys P.S} (h0 : Starts P c s0) : Tok s0 := by
  obtain ⟨-, st, -, rfl⟩ := h0
  exact Tok.init c st

/-! ### The results of calls -/

/-- C79: whatever happens with weakly ordered memory can also happen without delays, as far as
anyone can see from outside: the same results of calls and the same requests in the same
order, the same storage and the same state of the download.  Missing: histories in which a
request for a seek is lost because the channel is full. -/
theorem C79_same_results_partial {P : Provider} {c : Cfg} {G : Sys P.S → Act → Prop} (hG : Outer G) {s0 : Sys P.S}
    (h0 : Starts P c s0) {t : WSys P.S} (h : WReach c (fun s a => G s a ∧ Sends s a) (WSys.of s0) t) :
    ∃ s, Reach c G s0 s ∧ SameButPlaceQ t.sys s ∧ s.log = t.sys.log := by
  obtain ⟨s, h1, h2⟩ := wreach_sim hG (tok_starts h0) h
  exact ⟨s, h2, h1.place, h1.sys.1⟩

/-- C79 without seeks, for all histories. -/
theorem C79_same_results_sequential {P : Provider} {c : Cfg} {G : Sys P.S → Act → Prop} (hG : Outer G)
    {s0 : Sys P.S} (h0 : Starts P c s0) {t : WSys P.S}
    (h : WReach c (fun s a => G s a ∧ NoSeek s a) (WSys.of s0) t) :
    ∃ s, Reach c (fun s a => G s a ∧ NoSeek s a) s0 s ∧ SameButPlaceQ t.sys s ∧ s.log = t.sys.log :=
  C79_same_results_partial (hG.and outer_noSeek) h0 (weak_sends (fun _ _ h => h.2) h (by
    obtain ⟨-, st, -, rfl⟩ := h0; rfl))

/-- C79: what is true of the results of calls in all histories without delays is true of them
with weakly ordered memory. -/
theorem C79_claims_carry_over_partial {P : Provider} {c : Cfg} {G : Sys P.S → Act → Prop} (hG : Outer G)
    {s0 : Sys P.S} (h0 : Starts P c s0) {Q : List Ev → Prop} (hQ : ∀ s, Reach c G s0 s → Q s.log) {t : WSys P.S}
    (h : WReach c (fun s a => G s a ∧ Sends s a) (WSys.of s0) t) : Q t.sys.log := by
  obtain ⟨s, h1, -, h2⟩ := C79_same_results_partial hG h0 h
  rw [← h2]
  exact hQ s h1

/-- C79: with weakly ordered memory, reading in sequence returns exactly the remote bytes
(C01). -/
theorem C79_sequential_unbounded {P : Provider} {c : Cfg} (hP : Unbounded c.contentLength P)
    (hb : c.batchSize ≠ 0) (hlen : c.LengthHonest) (hk : c.KeepsErrors) {s0 : Sys P.S} (h0 : Starts P c s0)
    {t : WSys P.S}
    (h : WReach c (fun s a => (Honest s a ∧ Delivers c s a) ∧ NoSeek s a) (WSys.of s0) t) :
    delivered t.sys.log = slice c.remote 0 (delivered t.sys.log).length := by
  obtain ⟨s, h1, -, h2⟩ := C79_same_results_sequential (outer_honest.and (outer_delivers c)) h0 h
  rw [← h2]
  exact C01_sequential_unbounded_partial hP hb hlen hk h0 (h1.mono fun _ _ h => ⟨h.1.1, h.2, h.1.2⟩)

/-- C79: the same with bounded storage. -/
theorem C79_sequential_bounded {P : Provider} {c : Cfg} (hP : Windowed c.contentLength P)
    (hk : c.KeepsErrors) {s0 : Sys P.S} (h0 : Starts P c s0) {t : WSys P.S}
    (h : WReach c (fun s a => (Honest s a ∧ CleanReconnect s a) ∧ NoSeek s a) (WSys.of s0) t) :
    delivered t.sys.log = slice c.remote 0 (delivered t.sys.log).length := by
  obtain ⟨s, h1, -, h2⟩ := C79_same_results_sequential (outer_honest.and outer_clean) h0 h
  rw [← h2]
  exact C01_sequential_bounded hP h0 (h1.mono fun _ _ h => ⟨h.1.1, h.2, h.1.2⟩)

/-- C79: with weakly ordered memory, a consumer that reads to the end has got everything
(C62). -/
theorem C79_read_to_end_unbounded {P : Provider} {c : Cfg} (hP : Unbounded c.contentLength P)
    (hb : c.batchSize ≠ 0) (hk : c.KeepsErrors) {N : Nat} (hN : c.contentLength = some N)
    (hm : c.remoteLen = some N) {s0 : Sys P.S} (h0 : Starts P c s0) {t : WSys P.S}
    (h : WReach c (fun s a => (Honest s a ∧ Delivers c s a) ∧ NoSeek s a) (WSys.of s0) t)
    {later earlier : List Ev} {pos len : Nat} {fast : Bool} {bs : List Byte}
    (hl : t.sys.log = later ++ .readRet pos len fast (.ok bs) :: earlier) (hlt : bs.length < len) :
    delivered t.sys.log = slice c.remote 0 N := by
  obtain ⟨s, h1, -, h2⟩ := C79_same_results_sequential (outer_honest.and (outer_delivers c)) h0 h
  rw [← h2] at hl ⊢
  exact (C62_read_to_end_unbounded hP hb hk hN hm h0 (h1.mono fun _ _ h => ⟨h.1.1, h.2, h.1.2⟩) hl hlt).2

/-! ### Waiting, with storage that keeps everything -/

theorem weak_no_wait {P : Provider} {c : Cfg} (hP : Unbounded c.contentLength P) (hb : c.batchSize ≠ 0)
    {s0 : Sys P.S} (h0 : Starts P c s0) {t : WSys P.S} (h : WReach c Any (WSys.of s0) t) :
    ∀ x y z, t.sys.spc ≠ .wWait x y z := by
  intro x y z e
  obtain ⟨LP, -, -⟩ := keeps_lawful hP
  have := (h.inv (J := Keep LP.law) (Keep.reach hb LP h0 (G := Any) .refl)
    (fun s s' a h1 _ ht => h1.step hb ht)
    (fun s n r h1 e => ⟨h1.inv, by have := h1.clean; simp only [CleanInv, e] at this ⊢; exact this, h1.rem, h1.ok⟩)
    (fun s p h1 e => ⟨h1.inv, by have := h1.clean; simp only [CleanInv, e] at this ⊢; exact this, h1.rem, h1.ok⟩)
    (fun s req log h1 => ⟨h1.inv, h1.clean, h1.rem, h1.ok⟩)).ok
  rw [e] at this
  simp [SrcPc.fullOk] at this

/-- C79 for storage that keeps everything: the task never sleeps until the consumer wakes it,
so the two cannot sleep for each other. -/
theorem C79_no_mutual_wait_unbounded_partial {P : Provider} {c : Cfg} (hP : Unbounded c.contentLength P)
    (hb : c.batchSize ≠ 0) {s0 : Sys P.S} (h0 : Starts P c s0) {t : WSys P.S}
    (h : WReach c Any (WSys.of s0) t) : ¬ Paused c t.sys := by
  rintro ⟨⟨x, y, z, e⟩, -⟩
  exact weak_no_wait hP hb h0 h x y z e

section
variable {S : Storage}

/-- An infinite history with weakly ordered memory: the schedulers are fair, and every store
becomes visible sometime. -/
structure WRun (c : Cfg) (s0 : Sys S) (t : Nat → WSys S) (ta : Nat → Option WAct) : Prop where
  run : Run (wstep c) (WSys.of s0) t ta
  task : FairFor (wstep c) t ta (.act .src)
  consumer : FairFor (wstep c) t ta (.act .rdr)
  stores : FairFor (wstep c) t ta .drain

/-- No request for a seek is lost because the channel is full. -/
def SendsAll (t : Nat → WSys S) (ta : Nat → Option WAct) : Prop :=
  ∀ i a, ta i = some (.act a) → Sends (t i).sys a

end

theorem weak_sendsAll {P : Provider} {c : Cfg} {s0 : Sys P.S} (h0 : Starts P c s0) {t : Nat → WSys P.S}
    {ta : Nat → Option WAct} (hr : Run (wstep c) (WSys.of s0) t ta)
    (hns : ∀ j f, ta j ≠ some (.act (.seek f))) : SendsAll t ta := by
  intro i a _
  refine sends_of_out (weak_noSeek (G := NoSeek) (fun _ _ h => h)
    (wrun_reach hr (fun i a ha f e => hns i f (by rw [ha, e])) i) ?_) a
  obtain ⟨-, st, -, rfl⟩ := h0
  rfl

theorem WRun.follow {P : Provider} {c : Cfg} (hP : Unbounded c.contentLength P) (hb : c.batchSize ≠ 0)
    {s0 : Sys P.S} (h0 : Starts P c s0) {t : Nat → WSys P.S} {ta : Nat → Option WAct} (h : WRun c s0 t ta)
    (hse : SendsAll t ta) : ∃ r act, Exec c s0 r act ∧ Fair c r act .src ∧ Fair c r act .rdr ∧ FollowsW t ta r act :=
  weak_exec (tok_starts h0) h.run hse (fun i => weak_no_wait hP hb h0 (wrun_reach h.run (fun _ _ _ => trivial) i)) h.task h.consumer
    h.stores

/-- C79 for storage that keeps everything: calls return (C63), with any source that keeps
delivering, if no request for a seek is lost. -/
theorem C79_calls_return_unbounded_partial {P : Provider} {c : Cfg} (hP : Unbounded c.contentLength P)
    (hb : c.batchSize ≠ 0) {s0 : Sys P.S} (h0 : Starts P c s0) {t : Nat → WSys P.S} {ta : Nat → Option WAct}
    (hr : WRun c s0 t ta) (hse : SendsAll t ta)
    (hk : Working (fun i => (t i).sys) fun j => ∃ n, 0 < n ∧ ta j = some (.act (.chunk n)))
    (hne : ∀ j, ta j ≠ some (.act (.chunk 0))) (hmax : ∀ j, Ev.request (two64 - 1) ∉ (t j).sys.log) {i : Nat}
    (hc : (t i).sys.rpc.inCall = true) :
    ∃ j, i ≤ j ∧ ((t j).sys.rpc = .idle ∨ (t j).sys.rpc = .panicked) := by
  obtain ⟨r, act, he, hfs, hfr, hf⟩ := hr.follow hP hb h0 hse
  obtain ⟨n, hn, h⟩ := C63_calls_return_unbounded hP hb h0 he hfs hfr
    (fun hw i => by
      obtain ⟨j, h1, n, h2, h3⟩ := hf.working (done := fun j => ∃ n, 0 < n ∧ act j = some (.chunk n)) hk
        (fun i ⟨n, h1, h2⟩ => ⟨n, h1, hf.ext i _ h2 (fun h => nomatch h)⟩) hw i
      exact ⟨j, n, h1, h2, h3⟩)
    (fun j e => by
      rcases hf.only j _ e with h | ⟨i, -, h⟩
      · cases h
      · exact hne i h)
    (fun j => by
      obtain ⟨i, -, e, -⟩ := hf.sys j
      rw [e]; exact hmax i)
    (i := 3 * i) ((hf.sim i).inCall hc)
  rcases h with h | h
  · obtain ⟨j, h1, -, h2⟩ := hf.returned (.inl rfl) h
    exact ⟨j, by omega, .inl h2⟩
  · obtain ⟨j, h1, -, h2⟩ := hf.returned (.inr rfl) h
    exact ⟨j, by omega, .inr h2⟩

/-- What the source does in the following theorems: it delivers or ends again and again while
the task waits, resumes where it is asked to, and ends only where it should. -/
structure WSource {S : Storage} (c : Cfg) (t : Nat → WSys S) (ta : Nat → Option WAct) : Prop where
  working : Working (fun i => (t i).sys) fun j =>
    (∃ n, 0 < n ∧ ta j = some (.act (.chunk n))) ∨ ta j = some (.act .eof)
  faithful : ∀ i a, ta i = some (.act a) → Faithful c (t i).sys a
  nonEmpty : ∀ j, ta j ≠ some (.act (.chunk 0))

theorem WSource.productive {S : Storage} {c : Cfg} {t : Nat → WSys S} {ta : Nat → Option WAct} {r : Nat → Sys S}
    {act : Nat → Option Act} (h : WSource c t ta) (hf : FollowsW t ta r act) : Productive r act :=
  hf.working (done := fun j => (∃ n, 0 < n ∧ act j = some (.chunk n)) ∨ act j = some .eof) h.working
    (fun i hi => hi.imp (fun ⟨n, h1, h2⟩ => ⟨n, h1, hf.ext i _ h2 (fun h => nomatch h)⟩)
      (fun h => hf.ext i _ h (fun h => nomatch h)))

/-- A restriction on single actions carries over. -/
theorem FollowsW.never {S : Storage} {t : Nat → WSys S} {ta : Nat → Option WAct} {r : Nat → Sys S}
    {act : Nat → Option Act} (hf : FollowsW t ta r act) {a : Act} (ha : a ≠ .rdr) {i0 : Nat}
    (h : ∀ j, i0 ≤ j → ta j ≠ some (.act a)) : ∀ j, 3 * i0 ≤ j → act j ≠ some a := by
  intro j hj e
  rcases hf.only j _ e with h1 | ⟨i, h1, h2⟩
  · exact ha h1
  · exact h i (by omega) h2

/-- C79 for storage that keeps everything: calls return (C63), with a finite resource, if no
request for a seek is lost. -/
theorem C79_calls_return_finite_partial {P : Provider} {c : Cfg} (hP : Unbounded c.contentLength P)
    (hb : c.batchSize ≠ 0) {m : Nat} (hfin : c.Finite m) {s0 : Sys P.S} (h0 : Starts P c s0)
    {t : Nat → WSys P.S} {ta : Nat → Option WAct} (hr : WRun c s0 t ta) (hse : SendsAll t ta) (hs : WSource c t ta)
    (hmax : ∀ j, Ev.request (two64 - 1) ∉ (t j).sys.log) {i : Nat} (hc : (t i).sys.rpc.inCall = true) :
    ∃ j, i ≤ j ∧ ((t j).sys.rpc = .idle ∨ (t j).sys.rpc = .panicked) := by
  obtain ⟨r, act, he, hfs, hfr, hf⟩ := hr.follow hP hb h0 hse
  obtain ⟨n, hn, h⟩ := C63_calls_return_finite hP hb hfin h0 he hfs hfr (hs.productive hf)
    (hf.guard (outer_faithful c) hs.faithful)
    (fun j => hf.never (i0 := 0) (by simp) (fun j _ => hs.nonEmpty j) j (by omega))
    (fun j => by
      obtain ⟨i, -, e, -⟩ := hf.sys j
      rw [e]; exact hmax i)
    (i := 3 * i) ((hf.sim i).inCall hc)
  rcases h with h | h
  · obtain ⟨j, h1, -, h2⟩ := hf.returned (.inl rfl) h
    exact ⟨j, by omega, .inl h2⟩
  · obtain ⟨j, h1, -, h2⟩ := hf.returned (.inr rfl) h
    exact ⟨j, by omega, .inr h2⟩

/-- C79 for storage that keeps everything: the download ends (C71), if no request for a
seek is lost. -/
theorem C79_download_ends_unbounded_partial {P : Provider} {c : Cfg} (hP : Unbounded c.contentLength P)
    (hb : c.batchSize ≠ 0) {m : Nat} (hfin : c.Finite m) {s0 : Sys P.S} (h0 : Starts P c s0)
    {t : Nat → WSys P.S} {ta : Nat → Option WAct} (hr : WRun c s0 t ta) (hse : SendsAll t ta) (hs : WSource c t ta) {i0 : Nat}
    (hseek : ∀ j f, i0 ≤ j → ta j ≠ some (.act (.seek f))) :
    ∃ j, (t j).sys.spc = .ended := by
  obtain ⟨r, act, he, hfs, hfr, hf⟩ := hr.follow hP hb h0 hse
  obtain ⟨n, h⟩ := C71_download_ends_unbounded hP hb hfin h0 he hfs (hs.productive hf)
    (hf.guard (outer_faithful c) hs.faithful)
    (fun j => hf.never (i0 := 0) (by simp) (fun j _ => hs.nonEmpty j) j (by omega)) (i0 := 3 * i0)
    (fun j f hj => hf.never (i0 := i0) (by simp) (fun j hj => hseek j f hj) j hj)
  obtain ⟨i, -, -, e⟩ := hf.sys n
  exact ⟨i, by rw [← e]; exact h⟩

/-- C79 for storage that keeps everything: a consumer that reads to the end gets there, with
all bytes or an error (C72). -/
theorem C79_reading_ends_unbounded {P : Provider} {c : Cfg} (hP : Unbounded c.contentLength P)
    (hb : c.batchSize ≠ 0) (hk : c.KeepsErrors) {m : Nat} (hfin : c.Finite m) {s0 : Sys P.S}
    (h0 : Starts P c s0) {t : Nat → WSys P.S} {ta : Nat → Option WAct} (hr : WRun c s0 t ta)
    (hs : WSource c t ta) (hns : ∀ j f, ta j ≠ some (.act (.seek f)))
    (hn : ∀ j n, ta j = some (.act (.read n)) → m + n < two64 - 1)
    (hread : Reading (fun i => (t i).sys) fun j n => ta j = some (.act (.read n))) :
    ∃ i, ReadFailed (t i).sys.log ∨ delivered (t i).sys.log = slice c.remote 0 m := by
  obtain ⟨r, act, he, hfs, hfr, hf⟩ := hr.follow hP hb h0 (weak_sendsAll h0 hr.run hns)
  obtain ⟨n, h⟩ := C72_reading_ends_unbounded hP hb hk hfin h0 he hfs hfr (hs.productive hf)
    (hf.guard (outer_faithful c) hs.faithful)
    (fun j => hf.never (i0 := 0) (by simp) (fun j _ => hs.nonEmpty j) j (by omega))
    (fun j f => hf.never (i0 := 0) (by simp) (fun j _ => hns j f) j (by omega))
    (fun j n e => by
      rcases hf.only j _ e with h | ⟨i, -, h⟩
      · cases h
      · exact hn i n h)
    (fun j hj hl => by
      obtain ⟨i, h1, h2, h3⟩ := hf.returned (.inl rfl) hj
      obtain ⟨k, n, h4, h5, h6⟩ := hread i h3 (by dsimp only; rw [← h2]; exact hl)
      exact ⟨3 * k, n, by omega, h5, hf.ext k _ h6 (fun h => nomatch h)⟩)
  obtain ⟨i, -, e, -⟩ := hf.sys n
  exact ⟨i, by rw [← e]; exact h⟩

/-! ### Waiting, with bounded storage -/

/-- Carries out a list of actions. -/
def wrun {S : Storage} (g : Sys S → Act → Bool) (c : Cfg) : WSys S → List WAct → Option (WSys S)
  | t, [] => some t
  | t, .drain :: as =>
    match wstep c t .drain with
    | some t' => wrun g c t' as
    | none => none
  | t, .act a :: as =>
    if g t.sys a then
      match wstep c t (.act a) with
      | some t' => wrun g c t' as
      | none => none
    else none

theorem wreach_wrun {S : Storage} {g : Sys S → Act → Bool} {G : Sys S → Act → Prop} {c : Cfg}
    (hg : ∀ s a, g s a = true → G s a) {as : List WAct} {t0 t1 t : WSys S} (h1 : WReach c G t0 t1)
    (h : wrun g c t1 as = some t) : WReach c G t0 t := by
  induction as generalizing t1 with
  | nil => simp only [wrun, Option.some.injEq] at h; subst h; exact h1
  | cons a as ih =>
    cases a with
    | drain =>
      simp only [wrun] at h
      split at h
      · next t2 e => exact ih (h1.drain e) h
      · cases h
    | act a =>
      simp only [wrun] at h
      split at h
      · next hga =>
        split at h
        · next t2 e => exact ih (h1.act (hg _ _ hga) e) h
        · cases h
      · cases h

/-- A deadlock stays one. -/
theorem wforever_of {S : Storage} {c : Cfg} {t : WSys S} (h : Deadlock t.sys) (hbuf : t.buf = []) : WForever c t := by
  intro t' ht
  have : t'.buf = [] ∧ Deadlock t'.sys ∧ t'.sys.rpc = t.sys.rpc ∧ t'.sys.spc = t.sys.spc ∧ t'.sys.log = t.sys.log := by
    induction ht with
    | refl => exact ⟨hbuf, h, rfl, rfl, rfl⟩
    | @act t1 t2 a _ _ hs ih =>
      obtain ⟨e1, e2, e3, e4, e5⟩ := ih
      by_cases ha : a.other = true
      · obtain ⟨⟨s1, g1, rfl⟩, -⟩ := wstep_other ha hs
        obtain ⟨g2, g3, g4, g5⟩ := e2.step (tr_of_step g1)
        exact ⟨e1, g2, g4.trans e3, g3.trans e4, g5.trans e5⟩
      · exfalso
        obtain ⟨⟨p, l, x, d1⟩, d2, d3⟩ := e2
        rcases wstep_sys hs with ⟨b, g, hstep⟩ | ⟨-, n, r, g, -⟩ | ⟨-, r, g, -⟩ | ⟨g, -⟩
        · cases g
          have htr := tr_of_step hstep
          generalize t2.sys = s2 at htr
          cases htr <;> grind [Act.other]
        · grind
        · grind
        · cases g
    | drain _ hs ih => simp [wstep, ih.1] at hs
  exact this.2.2

/-- Actions without delays in between. -/
def wacts (as : List Act) : List WAct := as.map .act

/-- The consumer is about to store a requested position. -/
def RdrPc.sets : RdrPc → Bool
  | .rSet _ _ | .sSet _ => true
  | _ => false

/-- On x86 the store buffer is empty whenever the consumer is about to store. -/
theorem x86_empty {S : Storage} {c : Cfg} {G : Sys S → Act → Prop} {s0 : Sys S} {t : TSys S}
    (h : TReach c G { sys := s0, buf := none } t) : t.sys.rpc.sets = true → t.buf = none := by
  have : t.buf ≠ none → (∃ n r, t.sys.rpc = .rLoad n r) ∨ (∃ n r, t.sys.rpc = .rNotify n r) ∨
      (∃ n r, t.sys.rpc = .rWait n r) ∨ (∃ p, t.sys.rpc = .sSend p) := by
    induction h with
    | refl => simp
    | @act t1 t2 a hr hg hs ih =>
      obtain ⟨s1, buf⟩ := t1
      by_cases ha : a = .rdr
      · subst ha
        simp only [tstep] at hs
        split at hs
        · cases hs; simp
        · cases hs; simp
        · next e =>
          simp only [step, rdrStep, e] at hs
          cases hs
          intro _
          cases s1.writeReq <;> simp
        · split at hs
          · next e =>
            split at hs
            · cases hs; intro hn; exact absurd e hn
            · cases hs
          · cases hs
      · have h1 : ∃ s2, step c s1 a = some s2 ∧ t2 = { sys := s2, buf := buf } := by
          cases a <;> first | exact absurd rfl ha | skip
          all_goals
            simp only [tstep] at hs
            split at hs
            · next s2 e => exact ⟨s2, e, by simpa using hs.symm⟩
            · cases hs
        obtain ⟨s2, e, rfl⟩ := h1
        intro hn
        have := ih hn
        have ht := tr_of_step e
        cases ht <;> first | exact absurd rfl ha | grind
    | drain _ hs ih =>
      simp only [tstep] at hs
      split at hs
      · cases hs; simp
      · cases hs
  intro e
  apply Classical.byContradiction
  intro hn
  rcases this hn with ⟨n, r, h⟩ | ⟨n, r, h⟩ | ⟨n, r, h⟩ | ⟨p, h⟩ <;> rw [h] at e <;> cases e

/-- C79: the histories on x86 (C73) are among those with weakly ordered memory. -/
theorem C79_x86_included {S : Storage} {c : Cfg} {G : Sys S → Act → Prop} {s0 : Sys S} {t : TSys S}
    (h : TReach c G { sys := s0, buf := none } t) :
    WReach c G (WSys.of s0) { sys := t.sys, buf := t.buf.toList, sync := 0, sent := 0 } := by
  induction h with
  | refl => exact .refl
  | @act t1 t2 a hr hg hs ih =>
    refine .act ih hg ?_
    obtain ⟨s1, buf⟩ := t1
    by_cases ha : a = .rdr
    · subst ha
      have hinv : s1.rpc.sets = true → buf = none := by
        intro e
        have := x86_empty hr
        exact this e
      cases buf with
      | none =>
        cases e : s1.rpc <;> simp only [tstep, wstep, e, if_true] at hs ⊢
        all_goals first
          | (cases hs; rfl)
          | (split at hs
             · next e2 => cases hs; simp [e2]
             · cases hs)
      | some r =>
        cases e : s1.rpc <;> simp only [tstep, wstep, e, reduceCtorEq, if_false] at hs ⊢
        case rSet => rw [e] at hinv; cases hinv rfl
        case sSet => rw [e] at hinv; cases hinv rfl
        case rLoad =>
          split at hs
          · next e2 => cases hs; simp [e2]
          · cases hs
    · cases a <;> first | exact absurd rfl ha | skip
      all_goals
        simp only [tstep] at hs
        split at hs
        · next e => cases hs; simp only [wstep, e, if_true] <;> first | done | (split <;> rfl)
        · cases hs
  | drain _ hs ih =>
    refine .drain ih ?_
    simp only [tstep] at hs
    split at hs
    · next e => cases hs; simp [wstep, e]
    · cases hs

/-- C79 and C15 fail with bounded storage, as on x86: the consumer and the task sleep for ever
because a store became visible late. -/
theorem C79_no_mutual_wait_violated :
    ∃ (s0 : Sys (bndStorage true memStorage)) (t : WSys (bndStorage true memStorage)),
      Starts (bndProvider true memProvider 4) cfgBounded s0 ∧
      WReach cfgBounded (fun s a => Honest s a ∧ NoSeek s a) (WSys.of s0) t ∧
      t.buf = [] ∧ BlockedRead cfgBounded t.sys 4 ∧ t.sys.rpc = .rWait 4 8 ∧
      (∀ i, i < 8 → RSet.Mem t.sys.dl i) ∧ Paused cfgBounded t.sys ∧ WForever cfgBounded t := by
  obtain ⟨t, h1, h2⟩ := of_any (o := wrun (fun s a => honestB s a && noSeekB s a) cfgBounded
      (WSys.of (init cfgBounded demoBnd4) : WSys (bndStorage true memStorage))
      (wacts ([.chunk 4] ++ srcs 3 ++ [.read 4] ++ rdrs 3 ++ [.chunk 6, .read 4] ++ rdrs 3 ++ srcs 9) ++ [.drain]))
    (p := fun t => decide (t.sys.spc = .wWait 4 6 [9, 10] ∧ t.sys.permit = false ∧ t.sys.rpc = .rWait 4 8 ∧
      t.sys.done = false ∧ t.sys.reached = false ∧ t.buf = [] ∧ t.sys.dl = [(0, 8)])) (by decide +kernel)
  obtain ⟨h4, h5, h6, h7, h8, h9, h10⟩ := of_decide_eq_true h2
  refine ⟨_, t, ⟨rfl, _, rfl, rfl⟩, wreach_wrun (fun s a h => ?_) .refl h1, h9,
    blockedRead_iff.mpr ⟨⟨_, h6⟩, h7, h8⟩, h6, ?_, paused_iff.mpr ⟨⟨_, _, _, h4⟩, h5⟩,
    wforever_of ⟨⟨_, _, _, h4⟩, h5, .inr ⟨.inl ⟨_, _, h6⟩, h8, h7⟩⟩ h9⟩
  · rw [Bool.and_eq_true] at h; exact ⟨honest_of h.1, noSeek_of h.2⟩
  · rw [h10]; intro i hi; exact ⟨(0, 8), by simp, by simp, hi⟩

/-- C79: with weakly ordered memory, a `read` that ends or goes to sleep wakes the task (C14), for
every storage and every history. -/
theorem C79_read_wakes_task {P : Provider} {c : Cfg} {s0 : Sys P.S} {t t' : WSys P.S} (h0 : Starts P c s0)
    (h : WReach c Any (WSys.of s0) t) (hs : wstep c t (.act .rdr) = some t')
    (hr : (t.sys.rpc = .rSwap ∨ t.sys.rpc = .rWake) ∧ t'.sys.rpc = .idle ∨ ∃ n r, t'.sys.rpc = .rWait n r) :
    ¬ Paused c t'.sys := by
  rw [paused_iff]
  rintro ⟨⟨p, l, x, h1⟩, h2⟩
  obtain ⟨-, st, -, rfl⟩ := h0
  have ha := wasked_reach h
  rcases wstep_sys hs with ⟨a, e, h3⟩ | ⟨-, n, r, e, h3⟩ | ⟨-, q, e, h3⟩ | ⟨e, -⟩
  · cases e
    have ht := tr_of_step h3
    generalize t'.sys = s' at *
    cases ht <;> grind [SrcPc.inRound]
  · rw [h3] at hr; grind
  · rw [h3] at hr; grind
  · cases e

/-- C79: with weakly ordered memory and without seeks, if the consumer is between two calls and the
task sleeps, the storage is full (C14). -/
theorem C79_paused_means_full {P : Provider} {c : Cfg} (hP : Windowed c.contentLength P)
    (hb : c.batchSize ≠ 0) {s0 : Sys P.S} (h0 : Starts P c s0) {t : WSys P.S}
    (h : WReach c NoSeek (WSys.of s0) t) (hi : t.sys.rpc = .idle) (hp : Paused c t.sys) :
    Takes0 t.sys := by
  obtain ⟨RP⟩ := windowed_ring hP
  obtain ⟨hok, hf⟩ := wfull_reach hb RP h0 h
  obtain ⟨⟨p, l, x, h1⟩, h2⟩ := paused_iff.mp hp
  have h3 := hf (by rw [h1]; rfl)
  simp only [hi, h2] at h3
  intro bs k st' hw
  have := (RP.ring.write hok hw).2.1
  rcases h3 with h3 | h3 | h3 | h3
  · omega
  · simp at h3
  · simp at h3
  · simp at h3

/-! ### Histories that meet the hypotheses -/

/-- The test for `Sends`. -/
def sendsB {S : Storage} (s : Sys S) (a : Act) : Bool :=
  match a, s.rpc with
  | .rdr, .sSend _ => s.seekQ.isNone
  | _, _ => true

theorem sends_of {S : Storage} {s : Sys S} {a : Act} (h : sendsB s a = true) : Sends s a := by
  intro e p hp
  simpa [sendsB, e, hp] using h

/-- A store that becomes visible only after the consumer has gone to sleep and the task has looked
for a request: the consumer still gets its data. -/
example : ∃ (s0 : Sys memStorage) (t : WSys memStorage), Starts memProvider demoCfg s0 ∧
    WReach demoCfg (fun s a => (Honest s a ∧ Delivers demoCfg s a) ∧ NoSeek s a) (WSys.of s0) t ∧
    delivered t.sys.log = [1, 2, 3, 4] := by
  obtain ⟨t, h1, h2⟩ := of_any (o := wrun (fun s a => (honestB s a && deliversB demoCfg s a) && noSeekB s a) demoCfg
      (WSys.of (init demoCfg demoMem10) : WSys memStorage)
      (wacts ([.read 4] ++ rdrs 3 ++ [.chunk 6] ++ srcs 6) ++ [.drain] ++ wacts ([.chunk 4] ++ srcs 8 ++ rdrs 5)))
    (p := fun t => decide (delivered t.sys.log = [1, 2, 3, 4])) (by decide +kernel)
  refine ⟨_, t, ⟨rfl, _, rfl, rfl⟩, wreach_wrun (fun s a h => ?_) .refl h1, of_decide_eq_true h2⟩
  simp only [Bool.and_eq_true] at h
  exact ⟨⟨honest_of h.1.1, delivers_of h.1.2⟩, noSeek_of h.2⟩

/-- What x86 does not do: the consumer asks for more, stores a permit and goes to sleep before its
store is visible.  The task fills the buffer, sees no request and waits; it must see the store
before it can take the permit. -/
example : ∃ (s0 : Sys (bndStorage true memStorage)) (t t' : WSys (bndStorage true memStorage)),
    Starts (bndProvider true memProvider 4) cfgBounded s0 ∧
    WReach cfgBounded (fun s a => (Honest s a ∧ CleanReconnect s a) ∧ NoSeek s a) (WSys.of s0) t ∧
    t.sys.rpc = .rWait 4 8 ∧ t.buf = [8] ∧ t.sync = 1 ∧ t.sys.permit = true ∧
    wstep cfgBounded t (.act .src) = none ∧
    WReach cfgBounded (fun s a => (Honest s a ∧ CleanReconnect s a) ∧ NoSeek s a) (WSys.of s0) t' ∧
    delivered t'.sys.log = [1, 2, 3, 4, 5, 6, 7, 8] := by
  have hg : ∀ (s : Sys (bndStorage true memStorage)) (a : Act),
      ((honestB s a && cleanB s a) && noSeekB s a) = true → (Honest s a ∧ CleanReconnect s a) ∧ NoSeek s a := by
    intro s a h
    simp only [Bool.and_eq_true] at h
    exact ⟨⟨honest_of h.1.1, clean_of h.1.2⟩, noSeek_of h.2⟩
  obtain ⟨t, h1, h2⟩ := of_any (o := wrun (fun s a => (honestB s a && cleanB s a) && noSeekB s a) cfgBounded
      (WSys.of (init cfgBounded demoBnd4) : WSys (bndStorage true memStorage))
      (wacts ([.chunk 4] ++ srcs 3 ++ [.read 4] ++ rdrs 3 ++ [.chunk 2] ++ srcs 6 ++ [.read 4] ++ rdrs 4 ++ [.chunk 4] ++
        srcs 9)))
    (p := fun t => decide (t.sys.rpc = .rWait 4 8 ∧ t.buf = [8] ∧ t.sync = 1 ∧ t.sys.permit = true) &&
      (wstep cfgBounded t (.act .src)).isNone) (by decide +kernel)
  obtain ⟨t', h3, h4⟩ := of_any (o := wrun (fun s a => (honestB s a && cleanB s a) && noSeekB s a) cfgBounded
      (WSys.of (init cfgBounded demoBnd4) : WSys (bndStorage true memStorage))
      (wacts ([.chunk 4] ++ srcs 3 ++ [.read 4] ++ rdrs 3 ++ [.chunk 2] ++ srcs 6 ++ [.read 4] ++ rdrs 4 ++ [.chunk 4] ++
        srcs 9) ++ [.drain] ++ wacts (srcs 7 ++ rdrs 5)))
    (p := fun t => decide (delivered t.sys.log = [1, 2, 3, 4, 5, 6, 7, 8])) (by decide +kernel)
  rw [Bool.and_eq_true, Option.isNone_iff_eq_none] at h2
  obtain ⟨e1, e2, e3, e4⟩ := of_decide_eq_true h2.1
  exact ⟨_, t, t', ⟨rfl, _, rfl, rfl⟩, wreach_wrun hg .refl h1, e1, e2, e3, e4, h2.2, wreach_wrun hg .refl h3,
    of_decide_eq_true h4⟩

/-- A seek whose request is received only after its store is visible. -/
example : ∃ (s0 : Sys memStorage) (t t' : WSys memStorage), Starts memProvider demoCfg s0 ∧
    WReach demoCfg (fun s a => Honest s a ∧ Sends s a) (WSys.of s0) t ∧
    t.sys.rpc = .sWait 6 ∧ t.buf = [6] ∧ t.sent = 1 ∧ t.sys.seekQ = some 6 ∧
    wstep demoCfg t (.act .recvSeek) = none ∧
    WReach demoCfg (fun s a => Honest s a ∧ Sends s a) (WSys.of s0) t' ∧ Ev.seekRet 6 (.ok 6) ∈ t'.sys.log := by
  have hg : ∀ (s : Sys memStorage) (a : Act), (honestB s a && sendsB s a) = true → Honest s a ∧ Sends s a := by
    intro s a h
    simp only [Bool.and_eq_true] at h
    exact ⟨honest_of h.1, sends_of h.2⟩
  obtain ⟨t, h1, h2⟩ := of_any (o := wrun (fun s a => honestB s a && sendsB s a) demoCfg
      (WSys.of (init demoCfg demoMem10) : WSys memStorage) (wacts ([.seek (.start 6)] ++ rdrs 3)))
    (p := fun t => decide (t.sys.rpc = .sWait 6 ∧ t.buf = [6] ∧ t.sent = 1 ∧ t.sys.seekQ = some 6) &&
      (wstep demoCfg t (.act .recvSeek)).isNone) (by decide +kernel)
  obtain ⟨t', h3, h4⟩ := of_any (o := wrun (fun s a => honestB s a && sendsB s a) demoCfg
      (WSys.of (init demoCfg demoMem10) : WSys memStorage)
      (wacts ([.seek (.start 6)] ++ rdrs 3) ++ [.drain] ++
        wacts ([.recvSeek] ++ srcs 1 ++ [.seekOk 6, .chunk 2] ++ srcs 3 ++ [.chunk 2] ++ srcs 8 ++ rdrs 3)))
    (p := fun t => decide (Ev.seekRet 6 (.ok 6) ∈ t.sys.log)) (by decide +kernel)
  rw [Bool.and_eq_true, Option.isNone_iff_eq_none] at h2
  obtain ⟨e1, e2, e3, e4⟩ := of_decide_eq_true h2.1
  exact ⟨_, t, t', ⟨rfl, _, rfl, rfl⟩, wreach_wrun hg .refl h1, e1, e2, e3, e4, h2.2, wreach_wrun hg .refl h3,
    of_decide_eq_true h4⟩

/-- The task sleeps on a full buffer, and a read wakes it. -/
example : ∃ (s0 : Sys (bndStorage true memStorage)) (t t1 t2 : WSys (bndStorage true memStorage)),
    Starts (bndProvider true memProvider 4) cfgBounded s0 ∧ WReach cfgBounded NoSeek (WSys.of s0) t ∧
    t.sys.rpc = .idle ∧ Paused cfgBounded t.sys ∧ WReach cfgBounded Any (WSys.of s0) t1 ∧
    Paused cfgBounded t1.sys ∧ t1.sys.rpc = .rWake ∧ wstep cfgBounded t1 (.act .rdr) = some t2 ∧
    t2.sys.rpc = .idle := by
  obtain ⟨t, h1, h2⟩ := of_any (o := wrun noSeekB cfgBounded
      (WSys.of (init cfgBounded demoBnd4) : WSys (bndStorage true memStorage))
      (wacts ([.chunk 4] ++ srcs 3 ++ [.chunk 2] ++ srcs 4)))
    (p := fun t => decide (t.sys.rpc = .idle ∧ t.sys.spc = .wWait 4 2 [5, 6] ∧ t.sys.permit = false)) (by decide +kernel)
  obtain ⟨t1, h3, h4⟩ := of_any (o := wrun (fun _ _ => true) cfgBounded
      (WSys.of (init cfgBounded demoBnd4) : WSys (bndStorage true memStorage))
      (wacts ([.chunk 4] ++ srcs 3 ++ [.chunk 2] ++ srcs 4 ++ [.read 4] ++ rdrs 3)))
    (p := fun t => decide (t.sys.rpc = .rWake ∧ t.sys.spc = .wWait 4 2 [5, 6] ∧ t.sys.permit = false ∧
      t.buf = [])) (by decide +kernel)
  obtain ⟨e1, e2, e3⟩ := of_decide_eq_true h2
  obtain ⟨e4, e5, e6, e7⟩ := of_decide_eq_true h4
  refine ⟨_, t, t1, { t1 with sys := { t1.sys with permit := true, rpc := .idle }, sync := 0 }, ⟨rfl, _, rfl, rfl⟩,
    wreach_wrun (fun _ _ => noSeek_of) .refl h1, e1, paused_iff.mpr ⟨⟨_, _, _, e2⟩, e3⟩,
    wreach_wrun (fun _ _ _ => trivial) .refl h3, paused_iff.mpr ⟨⟨_, _, _, e5⟩, e6⟩, e4, ?_, rfl⟩
  simp [wstep, step, rdrStep, e4, e7]

/-- The action of the system that an action stands for. -/
def WAct.ev : WAct → Option Act
  | .act a => some a
  | .drain => none

/-- The tests for `WSource`. -/
def wsourceB {S : Storage} (c : Cfg) (t : WSys S) : WAct → Bool
  | .act a => honestB t.sys a && askedB c t.sys a && decide (a ≠ .chunk 0) && sendsB t.sys a
  | .drain => true

/-- A finite history as an infinite one. -/
theorem wrun_trace {S : Storage} {c : Cfg} {s0 : Sys S} {bs : List WAct}
    (h : (fun t => (wstep c t (.act .src)).isNone && (wstep c t (.act .rdr)).isNone && (wstep c t .drain).isNone &&
      !t.sys.spc.awaits) (trace (wstep c) (wsourceB c) (fun _ b => b) (WSys.of s0) bs bs.length) = true) :
    WRun c s0 (trace (wstep c) (wsourceB c) (fun _ b => b) (WSys.of s0) bs)
        (traceAct (wstep c) (wsourceB c) (fun _ b => b) (WSys.of s0) bs) ∧
      WSource c (trace (wstep c) (wsourceB c) (fun _ b => b) (WSys.of s0) bs)
        (traceAct (wstep c) (wsourceB c) (fun _ b => b) (WSys.of s0) bs) ∧
      SendsAll (trace (wstep c) (wsourceB c) (fun _ b => b) (WSys.of s0) bs)
        (traceAct (wstep c) (wsourceB c) (fun _ b => b) (WSys.of s0) bs) := by
  simp only [Bool.and_eq_true, Option.isNone_iff_eq_none, Bool.not_eq_true'] at h
  obtain ⟨⟨⟨h1, h2⟩, h3⟩, h4⟩ := h
  refine ⟨⟨run_trace _ _, fair_trace h1, fair_trace h2, fair_trace h3⟩,
    ⟨working_trace (sys := WSys.sys) h4, ?_, ?_⟩, ?_⟩
  · intro i a ha
    have := guard_trace (G := fun t a => wsourceB c t a = true) (fun _ _ h => h) i _ ha
    simp only [wsourceB, Bool.and_eq_true] at this
    exact ⟨honest_of this.1.1.1, asked_of this.1.1.2⟩
  · intro i ha
    have := guard_trace (G := fun t a => wsourceB c t a = true) (fun _ _ h => h) i _ ha
    simp [wsourceB] at this
  · intro i a ha
    have := guard_trace (G := fun t a => wsourceB c t a = true) (fun _ _ h => h) i _ ha
    simp only [wsourceB, Bool.and_eq_true] at this
    exact sends_of this.2

/-- The hypotheses of the theorems about infinite histories: reading to the end with stores that
become visible late. -/
example : ∃ (s0 : Sys memStorage) (t : Nat → WSys memStorage) (ta : Nat → Option WAct),
    Starts memProvider demoCfg s0 ∧ WRun demoCfg s0 t ta ∧ WSource demoCfg t ta ∧
      (∀ j f, ta j ≠ some (.act (.seek f))) ∧
      (∀ j n, ta j = some (.act (.read n)) → 10 + n < two64 - 1) ∧
      (Reading (fun i => (t i).sys) fun j n => ta j = some (.act (.read n))) ∧
      (t 3).buf = [8] ∧ (t 4).sys.rpc = .rWait 8 8 ∧ (t 100).sys.spc = .ended ∧
      delivered (t 100).sys.log = [1, 2, 3, 4, 5, 6, 7, 8, 9, 10] := by
  let bs : List WAct := wacts ([.read 8] ++ rdrs 3 ++ [.chunk 10] ++ srcs 6) ++ [.drain] ++
    wacts ([.eof] ++ srcs 6 ++ rdrs 7 ++ [.read 8] ++ rdrs 9)
  obtain ⟨h1, h2, -⟩ := wrun_trace (S := memStorage) (c := demoCfg) (s0 := init demoCfg demoMem10) (bs := bs) (by decide +kernel)
  refine ⟨_, _, _, ⟨rfl, demoMem10, rfl, rfl⟩, h1, h2,
    seekless_trace (ev := WAct.ev) (sk := fun f => WAct.act (.seek f)) (fun _ b k h => by subst h; rfl) (by decide +kernel),
    short_trace (ev := WAct.ev) (rd := fun n => WAct.act (.read n)) (fun _ b k h => by subst h; rfl) (by decide +kernel),
    reading_trace (sys := WSys.sys) (ev := WAct.ev) (rd := fun n => WAct.act (.read n))
      (fun _ b n h => by cases b <;> simp [WAct.ev] at h; subst h; rfl) (by decide +kernel),
    by decide +kernel, by decide +kernel, by decide +kernel, by decide +kernel⟩

/-- The same with a seek, whose store becomes visible after the consumer has gone to sleep. -/
example : ∃ (s0 : Sys memStorage) (t : Nat → WSys memStorage) (ta : Nat → Option WAct),
    Starts memProvider demoCfg s0 ∧ WRun demoCfg s0 t ta ∧ WSource demoCfg t ta ∧ SendsAll t ta ∧
      (∀ j f, 50 ≤ j → ta j ≠ some (.act (.seek f))) ∧ (∀ j, Ev.request (two64 - 1) ∉ (t j).sys.log) ∧
      (t 4).sys.rpc = .sWait 6 ∧ (t 4).buf = [6] ∧ (t 100).sys.spc = .ended := by
  let bs : List WAct := wacts ([.seek (.start 6)] ++ rdrs 3) ++ [.drain] ++
    wacts ([.recvSeek] ++ srcs 1 ++ [.seekOk 6, .chunk 2] ++ srcs 3 ++ [.chunk 2] ++ srcs 8 ++ rdrs 3 ++ [.eof] ++
      srcs 1 ++ [.seekOk 0, .chunk 6] ++ srcs 6 ++ [.eof] ++ srcs 6)
  obtain ⟨h1, h2, h3⟩ := wrun_trace (S := memStorage) (c := demoCfg) (s0 := init demoCfg demoMem10) (bs := bs) (by decide +kernel)
  refine ⟨_, _, _, ⟨rfl, demoMem10, rfl, rfl⟩, h1, h2, h3, ?_, ?_, by decide +kernel, by decide +kernel, by decide +kernel⟩
  · intro j f hj e
    rw [trace_stops (Nat.le_trans (by decide) hj)] at e
    cases e
  · intro j
    have hall : ∀ k, k ≤ bs.length → Ev.request (two64 - 1) ∉
        (trace (wstep demoCfg) (wsourceB demoCfg) (fun _ b => b) (WSys.of (init demoCfg demoMem10) : WSys memStorage) bs k).sys.log := by
      decide +kernel
    by_cases hj : j ≤ bs.length
    · exact hall j hj
    · rw [trace_end (by omega)]
      exact hall _ (Nat.le_refl _)

end SD
