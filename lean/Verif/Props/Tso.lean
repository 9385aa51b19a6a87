import Verif.Proof.TsoLive
import Verif.Proof.TsoWake
import Verif.Proof.Sys.Wake
import Verif.Props.Wake
import Verif.Props.Finish
import Verif.Props.LiveSystem

/-!
# Property C73: hardware that delays stores

The requested position is stored and loaded with relaxed ordering.  On x86 a store may
become visible to other threads late.  Every result of a call is one that is possible
without delays; with storage that keeps everything the results about calls that return
and downloads that end hold as well; with bounded storage a reader and the task may sleep
for ever because of a delayed store.
-/

set_option linter.unusedVariables false

namespace SD

/-! ### Restrictions that do not look into calls -/

section
variable {S : Storage}

theorem outside_any : Outside (Any (S := S)) := ⟨fun _ => trivial, fun _ _ _ _ _ => trivial⟩

theorem Outside.and {G G' : Sys S → Act → Prop} (h : Outside G) (h' : Outside G') :
    Outside (fun s a => G s a ∧ G' s a) :=
  ⟨fun s => ⟨h.rdr s, h'.rdr s⟩, fun s a p q hg => ⟨h.blind s a p q hg.1, h'.blind s a p q hg.2⟩⟩

theorem outside_honest : Outside (Honest (S := S)) :=
  ⟨fun s => ⟨fun _ _ _ _ h => (nomatch h), fun _ _ _ h => nomatch h⟩, fun s a p q h => h⟩

theorem outside_noSeek : Outside (NoSeek (S := S)) := ⟨fun s f h => (nomatch h), fun s a p q h => h⟩

theorem outside_forward (c : Cfg) : Outside (Forward (S := S) c) :=
  ⟨fun s f p h => (nomatch h), fun s a p q h => h⟩

theorem outside_connected (c : Cfg) : Outside (Connected (S := S) c) :=
  ⟨fun s f p h => (nomatch h), fun s a p q h => h⟩

theorem outside_delivers (c : Cfg) : Outside (Delivers (S := S) c) :=
  ⟨fun s h => (nomatch h), fun s a p q h => h⟩

theorem outside_nonEmpty : Outside (NonEmpty (S := S)) := ⟨fun s h => (nomatch h), fun s a p q h => h⟩

theorem outside_clean : Outside (CleanReconnect (S := S)) := ⟨fun s pos h => (nomatch h), fun s a p q h => h⟩

theorem outside_faithful (c : Cfg) : Outside (Faithful (S := S) c) :=
  outside_honest.and ⟨fun s h => (nomatch h), fun s a p q h => h⟩

end

/-! ### The results of calls -/

/-- C73: whatever happens on hardware that delays stores, there is a history without delays
after which everything is the same — all results of calls and all requests to the source
so far, the storage, what is recorded as downloaded, where the task is — except for where
inside a call the consumer is, and for the stored wake-up of the task.  The history
satisfies the same restrictions. -/
theorem C73_same_results {S : Storage} {c : Cfg} {G : Sys S → Act → Prop} (hG : Outside G) {s0 : Sys S}
    {t : TSys S} (h : TReach c G { sys := s0, buf := none } t) :
    ∃ s, Reach c G s0 s ∧ SameButPlace t.sys s ∧ s.log = t.sys.log := by
  obtain ⟨s, h1, h2⟩ := treach_sim hG h
  exact ⟨s, h2, h1.place, h1.sys.1⟩

/-- C73: what is true of the results of calls in all histories without delays is true of them
in all histories with delays. -/
theorem C73_claims_carry_over {S : Storage} {c : Cfg} {G : Sys S → Act → Prop} (hG : Outside G) {s0 : Sys S}
    {Q : List Ev → Prop} (hQ : ∀ s, Reach c G s0 s → Q s.log) {t : TSys S}
    (h : TReach c G { sys := s0, buf := none } t) : Q t.sys.log := by
  obtain ⟨s, h1, -, h2⟩ := C73_same_results hG h
  rw [← h2]
  exact hQ s h1

/-- C73: with delayed stores, reading in sequence returns exactly the remote bytes (C01). -/
theorem C73_sequential_unbounded {P : Provider} {c : Cfg} (hP : Unbounded c.contentLength P)
    (hb : c.batchSize ≠ 0) (hlen : c.LengthHonest) (hk : c.KeepsErrors) {s0 : Sys P.S} (h0 : Starts P c s0)
    {t : TSys P.S}
    (h : TReach c (fun s a => Honest s a ∧ NoSeek s a ∧ Delivers c s a) { sys := s0, buf := none } t) :
    delivered t.sys.log = slice c.remote 0 (delivered t.sys.log).length :=
  C73_claims_carry_over (outside_honest.and (outside_noSeek.and (outside_delivers c)))
    (Q := fun l => delivered l = slice c.remote 0 (delivered l).length)
    (fun s hs => C01_sequential_unbounded_partial hP hb hlen hk h0 hs) h

/-- C73: the same with bounded storage. -/
theorem C73_sequential_bounded {P : Provider} {c : Cfg} (hP : Windowed c.contentLength P)
    (hk : c.KeepsErrors) {s0 : Sys P.S} (h0 : Starts P c s0) {t : TSys P.S}
    (h : TReach c (fun s a => Honest s a ∧ NoSeek s a ∧ CleanReconnect s a) { sys := s0, buf := none } t) :
    delivered t.sys.log = slice c.remote 0 (delivered t.sys.log).length :=
  C73_claims_carry_over (outside_honest.and (outside_noSeek.and outside_clean))
    (Q := fun l => delivered l = slice c.remote 0 (delivered l).length)
    (fun s hs => C01_sequential_bounded hP h0 hs) h

/-- C73: with delayed stores, a consumer that reads to the end has got everything (C62). -/
theorem C73_read_to_end_unbounded {P : Provider} {c : Cfg} (hP : Unbounded c.contentLength P)
    (hb : c.batchSize ≠ 0) (hk : c.KeepsErrors) {N : Nat} (hN : c.contentLength = some N)
    (hm : c.remoteLen = some N) {s0 : Sys P.S} (h0 : Starts P c s0) {t : TSys P.S}
    (h : TReach c (fun s a => Honest s a ∧ NoSeek s a ∧ Delivers c s a) { sys := s0, buf := none } t)
    {later earlier : List Ev} {pos len : Nat} {fast : Bool} {bs : List Byte}
    (hl : t.sys.log = later ++ .readRet pos len fast (.ok bs) :: earlier) (hlt : bs.length < len) :
    delivered t.sys.log = slice c.remote 0 N := by
  obtain ⟨s, h1, -, h2⟩ := C73_same_results (outside_honest.and (outside_noSeek.and (outside_delivers c))) h
  rw [← h2] at hl ⊢
  exact (C62_read_to_end_unbounded hP hb hk hN hm h0 h1 hl hlt).2

/-! ### Waiting, with storage that keeps everything -/

theorem tso_no_wait {P : Provider} {c : Cfg} (hP : Unbounded c.contentLength P) (hb : c.batchSize ≠ 0)
    {s0 : Sys P.S} (h0 : Starts P c s0) {t : TSys P.S} (h : TReach c Any { sys := s0, buf := none } t) :
    ∀ x y z, t.sys.spc ≠ .wWait x y z := by
  intro x y z e
  obtain ⟨s, h1, h2⟩ := treach_sim outside_any h
  obtain ⟨LP, -, -⟩ := keeps_lawful hP
  have := (Keep.reach hb LP h0 h2).ok
  rw [h1.sys.2, e] at this
  simp [SrcPc.fullOk] at this

/-- C73 for storage that keeps everything: the task never sleeps until the consumer wakes it,
so the two cannot sleep for each other. -/
theorem C73_no_mutual_wait_unbounded_partial {P : Provider} {c : Cfg} (hP : Unbounded c.contentLength P)
    (hb : c.batchSize ≠ 0) {s0 : Sys P.S} (h0 : Starts P c s0) {t : TSys P.S}
    (h : TReach c Any { sys := s0, buf := none } t) : ¬ Paused c t.sys := by
  rintro ⟨⟨x, y, z, e⟩, -⟩
  exact tso_no_wait hP hb h0 h x y z e

section
variable {S : Storage}

/-- An infinite history with delayed stores: the schedulers are fair, and no store is delayed
for ever. -/
structure TRun (c : Cfg) (s0 : Sys S) (t : Nat → TSys S) (ta : Nat → Option TAct) : Prop where
  run : Run (tstep c) { sys := s0, buf := none } t ta
  task : FairFor (tstep c) t ta (.act .src)
  consumer : FairFor (tstep c) t ta (.act .rdr)
  stores : FairFor (tstep c) t ta .drain

end

theorem TRun.follow {P : Provider} {c : Cfg} (hP : Unbounded c.contentLength P) (hb : c.batchSize ≠ 0)
    {s0 : Sys P.S} (h0 : Starts P c s0) {t : Nat → TSys P.S} {ta : Nat → Option TAct} (h : TRun c s0 t ta) :
    ∃ r act, Exec c s0 r act ∧ Fair c r act .src ∧ Fair c r act .rdr ∧ Follows t ta r act :=
  tso_exec h.run (fun i => tso_no_wait hP hb h0 (trun_reach h.run (fun _ _ _ => trivial) i)) h.task h.consumer
    h.stores

/-- C73 for storage that keeps everything: calls return (C63), with any source that keeps
delivering. -/
theorem C73_calls_return_unbounded {P : Provider} {c : Cfg} (hP : Unbounded c.contentLength P)
    (hb : c.batchSize ≠ 0) {s0 : Sys P.S} (h0 : Starts P c s0) {t : Nat → TSys P.S} {ta : Nat → Option TAct}
    (hr : TRun c s0 t ta)
    (hk : Working (fun i => (t i).sys) fun j => ∃ n, 0 < n ∧ ta j = some (.act (.chunk n)))
    (hne : ∀ j, ta j ≠ some (.act (.chunk 0))) (hmax : ∀ j, Ev.request (two64 - 1) ∉ (t j).sys.log) {i : Nat}
    (hc : (t i).sys.rpc.inCall = true) :
    ∃ j, i ≤ j ∧ ((t j).sys.rpc = .idle ∨ (t j).sys.rpc = .panicked) := by
  obtain ⟨r, act, he, hfs, hfr, hf⟩ := hr.follow hP hb h0
  obtain ⟨n, hn, h⟩ := C63_calls_return_unbounded hP hb h0 he hfs hfr
    (fun hw i => by
      obtain ⟨j, h1, n, h2, h3⟩ := hf.working (done := fun j => ∃ n, 0 < n ∧ act j = some (.chunk n)) hk
        (fun i ⟨n, h1, h2⟩ => ⟨n, h1, hf.ext i _ h2 (fun h => nomatch h)⟩) hw i
      exact ⟨j, n, h1, h2, h3⟩)
    (fun j e => by
      rcases hf.only j _ e with h | ⟨i, -, h⟩
      · cases h
      · exact hne i h)
    (fun j => by
      obtain ⟨i, -, e, -⟩ := hf.sys j
      rw [e]; exact hmax i)
    (i := 3 * i) ((hf.sim i).inCall hc)
  rcases h with h | h
  · obtain ⟨j, h1, -, h2⟩ := hf.returned (.inl rfl) h
    exact ⟨j, by omega, .inl h2⟩
  · obtain ⟨j, h1, -, h2⟩ := hf.returned (.inr rfl) h
    exact ⟨j, by omega, .inr h2⟩

/-- What the source does in the following theorems: it delivers or ends again and again while
the task waits, resumes where it is asked to, and ends only where it should. -/
structure TSource {S : Storage} (c : Cfg) (t : Nat → TSys S) (ta : Nat → Option TAct) : Prop where
  working : Working (fun i => (t i).sys) fun j =>
    (∃ n, 0 < n ∧ ta j = some (.act (.chunk n))) ∨ ta j = some (.act .eof)
  faithful : ∀ i a, ta i = some (.act a) → Faithful c (t i).sys a
  nonEmpty : ∀ j, ta j ≠ some (.act (.chunk 0))

theorem TSource.productive {S : Storage} {c : Cfg} {t : Nat → TSys S} {ta : Nat → Option TAct} {r : Nat → Sys S}
    {act : Nat → Option Act} (h : TSource c t ta) (hf : Follows t ta r act) : Productive r act :=
  hf.working (done := fun j => (∃ n, 0 < n ∧ act j = some (.chunk n)) ∨ act j = some .eof) h.working
    (fun i hi => hi.imp (fun ⟨n, h1, h2⟩ => ⟨n, h1, hf.ext i _ h2 (fun h => nomatch h)⟩)
      (fun h => hf.ext i _ h (fun h => nomatch h)))

/-- A restriction on single actions carries over. -/
theorem Follows.never {S : Storage} {t : Nat → TSys S} {ta : Nat → Option TAct} {r : Nat → Sys S}
    {act : Nat → Option Act} (hf : Follows t ta r act) {a : Act} (ha : a ≠ .rdr) {i0 : Nat}
    (h : ∀ j, i0 ≤ j → ta j ≠ some (.act a)) : ∀ j, 3 * i0 ≤ j → act j ≠ some a := by
  intro j hj e
  rcases hf.only j _ e with h1 | ⟨i, h1, h2⟩
  · exact ha h1
  · exact h i (by omega) h2

/-- C73 for storage that keeps everything: calls return (C63), with a finite resource. -/
theorem C73_calls_return_finite {P : Provider} {c : Cfg} (hP : Unbounded c.contentLength P)
    (hb : c.batchSize ≠ 0) {m : Nat} (hfin : c.Finite m) {s0 : Sys P.S} (h0 : Starts P c s0)
    {t : Nat → TSys P.S} {ta : Nat → Option TAct} (hr : TRun c s0 t ta) (hs : TSource c t ta)
    (hmax : ∀ j, Ev.request (two64 - 1) ∉ (t j).sys.log) {i : Nat} (hc : (t i).sys.rpc.inCall = true) :
    ∃ j, i ≤ j ∧ ((t j).sys.rpc = .idle ∨ (t j).sys.rpc = .panicked) := by
  obtain ⟨r, act, he, hfs, hfr, hf⟩ := hr.follow hP hb h0
  obtain ⟨n, hn, h⟩ := C63_calls_return_finite hP hb hfin h0 he hfs hfr (hs.productive hf)
    (hf.guard (outside_faithful c) hs.faithful)
    (fun j => hf.never (i0 := 0) (by simp) (fun j _ => hs.nonEmpty j) j (by omega))
    (fun j => by
      obtain ⟨i, -, e, -⟩ := hf.sys j
      rw [e]; exact hmax i)
    (i := 3 * i) ((hf.sim i).inCall hc)
  rcases h with h | h
  · obtain ⟨j, h1, -, h2⟩ := hf.returned (.inl rfl) h
    exact ⟨j, by omega, .inl h2⟩
  · obtain ⟨j, h1, -, h2⟩ := hf.returned (.inr rfl) h
    exact ⟨j, by omega, .inr h2⟩

/-- C73 for storage that keeps everything: the download ends (C71). -/
theorem C73_download_ends_unbounded {P : Provider} {c : Cfg} (hP : Unbounded c.contentLength P)
    (hb : c.batchSize ≠ 0) {m : Nat} (hfin : c.Finite m) {s0 : Sys P.S} (h0 : Starts P c s0)
    {t : Nat → TSys P.S} {ta : Nat → Option TAct} (hr : TRun c s0 t ta) (hs : TSource c t ta) {i0 : Nat}
    (hseek : ∀ j f, i0 ≤ j → ta j ≠ some (.act (.seek f))) :
    ∃ j, (t j).sys.spc = .ended := by
  obtain ⟨r, act, he, hfs, hfr, hf⟩ := hr.follow hP hb h0
  obtain ⟨n, h⟩ := C71_download_ends_unbounded hP hb hfin h0 he hfs (hs.productive hf)
    (hf.guard (outside_faithful c) hs.faithful)
    (fun j => hf.never (i0 := 0) (by simp) (fun j _ => hs.nonEmpty j) j (by omega)) (i0 := 3 * i0)
    (fun j f hj => hf.never (i0 := i0) (by simp) (fun j hj => hseek j f hj) j hj)
  obtain ⟨i, -, -, e⟩ := hf.sys n
  exact ⟨i, by rw [← e]; exact h⟩

/-- C73 for storage that keeps everything: a consumer that reads to the end gets there, with
all bytes or an error (C72). -/
theorem C73_reading_ends_unbounded {P : Provider} {c : Cfg} (hP : Unbounded c.contentLength P)
    (hb : c.batchSize ≠ 0) (hk : c.KeepsErrors) {m : Nat} (hfin : c.Finite m) {s0 : Sys P.S}
    (h0 : Starts P c s0) {t : Nat → TSys P.S} {ta : Nat → Option TAct} (hr : TRun c s0 t ta)
    (hs : TSource c t ta) (hns : ∀ j f, ta j ≠ some (.act (.seek f)))
    (hn : ∀ j n, ta j = some (.act (.read n)) → m + n < two64 - 1)
    (hread : Reading (fun i => (t i).sys) fun j n => ta j = some (.act (.read n))) :
    ∃ i, ReadFailed (t i).sys.log ∨ delivered (t i).sys.log = slice c.remote 0 m := by
  obtain ⟨r, act, he, hfs, hfr, hf⟩ := hr.follow hP hb h0
  obtain ⟨n, h⟩ := C72_reading_ends_unbounded hP hb hk hfin h0 he hfs hfr (hs.productive hf)
    (hf.guard (outside_faithful c) hs.faithful)
    (fun j => hf.never (i0 := 0) (by simp) (fun j _ => hs.nonEmpty j) j (by omega))
    (fun j f => hf.never (i0 := 0) (by simp) (fun j _ => hns j f) j (by omega))
    (fun j n e => by
      rcases hf.only j _ e with h | ⟨i, -, h⟩
      · cases h
      · exact hn i n h)
    (fun j hj hl => by
      obtain ⟨i, h1, h2, h3⟩ := hf.returned (.inl rfl) hj
      obtain ⟨k, n, h4, h5, h6⟩ := hread i h3 (by dsimp only; rw [← h2]; exact hl)
      exact ⟨3 * k, n, by omega, h5, hf.ext k _ h6 (fun h => nomatch h)⟩)
  obtain ⟨i, -, e, -⟩ := hf.sys n
  exact ⟨i, by rw [← e]; exact h⟩

/-! ### Waiting, with bounded storage -/

/-- Carries out a list of actions. -/
def trun {S : Storage} (g : Sys S → Act → Bool) (c : Cfg) : TSys S → List TAct → Option (TSys S)
  | t, [] => some t
  | t, .drain :: as =>
    match tstep c t .drain with
    | some t' => trun g c t' as
    | none => none
  | t, .act a :: as =>
    if g t.sys a then
      match tstep c t (.act a) with
      | some t' => trun g c t' as
      | none => none
    else none

theorem treach_trun {S : Storage} {g : Sys S → Act → Bool} {G : Sys S → Act → Prop} {c : Cfg}
    (hg : ∀ s a, g s a = true → G s a) {as : List TAct} {t0 t1 t : TSys S} (h1 : TReach c G t0 t1)
    (h : trun g c t1 as = some t) : TReach c G t0 t := by
  induction as generalizing t1 with
  | nil => simp only [trun, Option.some.injEq] at h; subst h; exact h1
  | cons a as ih =>
    cases a with
    | drain =>
      simp only [trun] at h
      split at h
      · next t2 e => exact ih (h1.drain e) h
      · cases h
    | act a =>
      simp only [trun] at h
      split at h
      · next hga =>
        split at h
        · next t2 e => exact ih (h1.act (hg _ _ hga) e) h
        · cases h
      · cases h

/-- A deadlock of the system without delays is one of the system with delays. -/
theorem tforever_of {S : Storage} {c : Cfg} {s : Sys S} {n r : Nat} (h : Forever c s) (hw : s.rpc = .rWait n r) :
    TForever c { sys := s, buf := none } := by
  intro t' ht
  obtain ⟨s', h1, h2⟩ := treach_sim outside_any ht
  obtain ⟨e1, e2, e3⟩ := h s' h2
  refine ⟨?_, h1.sys.2.symm.trans e2, h1.sys.1.symm.trans e3⟩
  obtain ⟨p, q, hp, hb, rfl⟩ := h1
  have e1 : q = .rWait n r := e1.trans hw
  subst e1
  show t'.sys.rpc = s.rpc
  rw [hw]
  cases hbuf : t'.buf with
  | none => rw [hbuf] at hb; simpa [behind] using hb
  | some r' =>
    rw [hbuf] at hb
    cases h1 : t'.sys.rpc <;> rw [h1] at hb <;> simp only [behind, reduceCtorEq] at hb <;> split at hb <;>
      simp at hb

/-- Actions without delays in between. -/
def tacts (as : List Act) : List TAct := as.map .act

/-- C73 and C15 fail with bounded storage.  The buffer holds 4 bytes and has been read; the
consumer reads the next 4, and the source delivers 6.  The consumer's store of the
requested position is delayed; the consumer sees that the task does not wait for it, and
goes to sleep.  The task fills the buffer, sees no request, and goes to sleep as well.
Then the store becomes visible, but nobody looks: the consumer, whose data is there, and
the task sleep for ever. -/
theorem C73_no_mutual_wait_violated :
    ∃ (s0 : Sys (bndStorage true memStorage)) (t : TSys (bndStorage true memStorage)),
      Starts (bndProvider true memProvider 4) cfgBounded s0 ∧
      TReach cfgBounded (fun s a => Honest s a ∧ NoSeek s a) { sys := s0, buf := none } t ∧
      t.buf = none ∧ BlockedRead cfgBounded t.sys 4 ∧ t.sys.rpc = .rWait 4 8 ∧
      (∀ i, i < 8 → RSet.Mem t.sys.dl i) ∧ Paused cfgBounded t.sys ∧ TForever cfgBounded t := by
  obtain ⟨t, h1, h2⟩ := of_any (o := trun (fun s a => honestB s a && noSeekB s a) cfgBounded
      ({ sys := init cfgBounded demoBnd4, buf := none } : TSys (bndStorage true memStorage))
      (tacts ([.chunk 4] ++ srcs 3 ++ [.read 4] ++ rdrs 3 ++ [.chunk 6, .read 4] ++ rdrs 3 ++ srcs 9) ++ [.drain]))
    (p := fun t => decide (t.sys.spc = .wWait 4 6 [9, 10] ∧ t.sys.permit = false ∧ t.sys.rpc = .rWait 4 8 ∧
      t.sys.done = false ∧ t.sys.reached = false ∧ t.buf = none ∧ t.sys.dl = [(0, 8)])) (by decide +kernel)
  obtain ⟨h4, h5, h6, h7, h8, h9, h10⟩ := of_decide_eq_true h2
  have ht : t = { sys := t.sys, buf := none } := by rw [← h9]
  refine ⟨_, t, ⟨rfl, _, rfl, rfl⟩, treach_trun (fun s a h => ?_) .refl h1, h9,
    blockedRead_iff.mpr ⟨⟨_, h6⟩, h7, h8⟩, h6, ?_, paused_iff.mpr ⟨⟨_, _, _, h4⟩, h5⟩, ?_⟩
  · rw [Bool.and_eq_true] at h; exact ⟨honest_of h.1, noSeek_of h.2⟩
  · rw [h10]; intro i hi; exact ⟨(0, 8), by simp, by simp, hi⟩
  · rw [ht]
    refine tforever_of ?_ h6
    intro s' hs
    obtain ⟨e1, e2, e3⟩ := Deadlock.forever ⟨⟨_, _, _, h4⟩, h5, .inr ⟨.inl ⟨_, _, h6⟩, h8, h7⟩⟩ hs
    exact ⟨e2, e1, e3⟩

/-- C73: with delayed stores, a `read` that ends or goes to sleep wakes the task (C14), for
every storage and every history. -/
theorem C73_read_wakes_task {P : Provider} {c : Cfg} {s0 : Sys P.S} {t t' : TSys P.S} (h0 : Starts P c s0)
    (h : TReach c Any { sys := s0, buf := none } t) (hs : tstep c t (.act .rdr) = some t')
    (hr : (t.sys.rpc = .rSwap ∨ t.sys.rpc = .rWake) ∧ t'.sys.rpc = .idle ∨ ∃ n r, t'.sys.rpc = .rWait n r) :
    ¬ Paused c t'.sys := by
  rw [paused_iff]
  rintro ⟨⟨p, l, x, h1⟩, h2⟩
  obtain ⟨-, st, -, rfl⟩ := h0
  have ha := tasked_reach h
  rcases tstep_sys hs with ⟨a, e, h3⟩ | ⟨-, n, r, e, h3⟩ | ⟨-, q, e, h3⟩ | ⟨e, -⟩
  · cases e
    have ht := tr_of_step h3
    generalize t'.sys = s' at *
    cases ht <;> grind [SrcPc.inRound]
  · rw [h3] at hr; grind
  · rw [h3] at hr; grind
  · cases e

/-- C73: with delayed stores and without seeks, if the consumer is between two calls and the
task sleeps, the storage is full (C14). -/
theorem C73_paused_means_full {P : Provider} {c : Cfg} (hP : Windowed c.contentLength P)
    (hb : c.batchSize ≠ 0) {s0 : Sys P.S} (h0 : Starts P c s0) {t : TSys P.S}
    (h : TReach c NoSeek { sys := s0, buf := none } t) (hi : t.sys.rpc = .idle) (hp : Paused c t.sys) :
    Takes0 t.sys := by
  obtain ⟨RP⟩ := windowed_ring hP
  obtain ⟨hok, hf⟩ := tfull_reach hb RP h0 h
  obtain ⟨⟨p, l, x, h1⟩, h2⟩ := paused_iff.mp hp
  have h3 := hf (by rw [h1]; rfl)
  simp only [hi, h2] at h3
  intro bs k st' hw
  have := (RP.ring.write hok hw).2.1
  rcases h3 with h3 | h3 | h3 | h3
  · omega
  · simp at h3
  · simp at h3
  · simp at h3

/-! ### Histories that meet the hypotheses -/

/-- A history with a delayed store in storage that keeps everything: the task records the
data and looks for a request before the consumer's request becomes visible. The consumer
still gets its data. -/
example : ∃ (s0 : Sys memStorage) (t : TSys memStorage), Starts memProvider demoCfg s0 ∧
    TReach demoCfg (fun s a => Honest s a ∧ NoSeek s a ∧ Delivers demoCfg s a) { sys := s0, buf := none } t ∧
    delivered t.sys.log = [1, 2, 3, 4] := by
  obtain ⟨t, h1, h2⟩ := of_any (o := trun (fun s a => honestB s a && (noSeekB s a && deliversB demoCfg s a)) demoCfg
      ({ sys := init demoCfg demoMem10, buf := none } : TSys memStorage)
      (tacts ([.read 4] ++ rdrs 3 ++ [.chunk 6] ++ srcs 6) ++ [.drain] ++ tacts ([.chunk 4] ++ srcs 8 ++ rdrs 5)))
    (p := fun t => decide (delivered t.sys.log = [1, 2, 3, 4])) (by decide +kernel)
  refine ⟨_, t, ⟨rfl, _, rfl, rfl⟩, treach_trun (fun s a h => ?_) .refl h1, of_decide_eq_true h2⟩
  simp only [Bool.and_eq_true] at h
  exact ⟨honest_of h.1, noSeek_of h.2.1, delivers_of h.2.2⟩

/-- The same with bounded storage. -/
example : ∃ (s0 : Sys (bndStorage true memStorage)) (t : TSys (bndStorage true memStorage)),
    Starts (bndProvider true memProvider 4) cfgBounded s0 ∧
    TReach cfgBounded (fun s a => Honest s a ∧ NoSeek s a ∧ CleanReconnect s a) { sys := s0, buf := none } t ∧
    delivered t.sys.log = [1, 2, 3, 4, 5, 6, 7, 8] := by
  obtain ⟨t, h1, h2⟩ := of_any (o := trun (fun s a => honestB s a && (noSeekB s a && cleanB s a)) cfgBounded
      ({ sys := init cfgBounded demoBnd4, buf := none } : TSys (bndStorage true memStorage))
      (tacts ([.chunk 4] ++ srcs 3 ++ [.read 4] ++ rdrs 3 ++ [.chunk 6, .read 4] ++ rdrs 3 ++ srcs 4) ++ [.drain] ++
        tacts (srcs 6 ++ rdrs 5)))
    (p := fun t => decide (delivered t.sys.log = [1, 2, 3, 4, 5, 6, 7, 8])) (by decide +kernel)
  refine ⟨_, t, ⟨rfl, _, rfl, rfl⟩, treach_trun (fun s a h => ?_) .refl h1, of_decide_eq_true h2⟩
  simp only [Bool.and_eq_true] at h
  exact ⟨honest_of h.1, noSeek_of h.2.1, clean_of h.2.2⟩

/-- The task sleeps on a full buffer, and a read wakes it. -/
example : ∃ (s0 : Sys (bndStorage true memStorage)) (t t1 t2 : TSys (bndStorage true memStorage)),
    Starts (bndProvider true memProvider 4) cfgBounded s0 ∧ TReach cfgBounded NoSeek { sys := s0, buf := none } t ∧
    t.sys.rpc = .idle ∧ Paused cfgBounded t.sys ∧ TReach cfgBounded Any { sys := s0, buf := none } t1 ∧
    Paused cfgBounded t1.sys ∧ t1.sys.rpc = .rWake ∧ tstep cfgBounded t1 (.act .rdr) = some t2 ∧
    t2.sys.rpc = .idle := by
  obtain ⟨t, h1, h2⟩ := of_any (o := trun noSeekB cfgBounded
      ({ sys := init cfgBounded demoBnd4, buf := none } : TSys (bndStorage true memStorage))
      (tacts ([.chunk 4] ++ srcs 3 ++ [.chunk 2] ++ srcs 4)))
    (p := fun t => decide (t.sys.rpc = .idle ∧ t.sys.spc = .wWait 4 2 [5, 6] ∧ t.sys.permit = false)) (by decide +kernel)
  obtain ⟨t1, h3, h4⟩ := of_any (o := trun (fun _ _ => true) cfgBounded
      ({ sys := init cfgBounded demoBnd4, buf := none } : TSys (bndStorage true memStorage))
      (tacts ([.chunk 4] ++ srcs 3 ++ [.chunk 2] ++ srcs 4 ++ [.read 4] ++ rdrs 3)))
    (p := fun t => decide (t.sys.rpc = .rWake ∧ t.sys.spc = .wWait 4 2 [5, 6] ∧ t.sys.permit = false ∧
      t.buf = none)) (by decide +kernel)
  obtain ⟨e1, e2, e3⟩ := of_decide_eq_true h2
  obtain ⟨e4, e5, e6, e7⟩ := of_decide_eq_true h4
  refine ⟨_, t, t1, { t1 with sys := { t1.sys with permit := true, rpc := .idle } }, ⟨rfl, _, rfl, rfl⟩,
    treach_trun (fun _ _ => noSeek_of) .refl h1, e1, paused_iff.mpr ⟨⟨_, _, _, e2⟩, e3⟩,
    treach_trun (fun _ _ _ => trivial) .refl h3, paused_iff.mpr ⟨⟨_, _, _, e5⟩, e6⟩, e4, ?_, rfl⟩
  simp [tstep, step, rdrStep, e4, e7]

/-- The action of the system that an action stands for. -/
def TAct.ev : TAct → Option Act
  | .act a => some a
  | .drain => none

/-- The tests for `TSource`. -/
def tsourceB {S : Storage} (c : Cfg) (t : TSys S) : TAct → Bool
  | .act a => honestB t.sys a && askedB c t.sys a && decide (a ≠ .chunk 0)
  | .drain => true

/-- A finite history as an infinite one. -/
theorem trun_trace {S : Storage} {c : Cfg} {s0 : Sys S} {bs : List TAct}
    (h : (fun t => (tstep c t (.act .src)).isNone && (tstep c t (.act .rdr)).isNone && (tstep c t .drain).isNone &&
      !t.sys.spc.awaits) (trace (tstep c) (tsourceB c) (fun _ b => b) { sys := s0, buf := none } bs bs.length) = true) :
    TRun c s0 (trace (tstep c) (tsourceB c) (fun _ b => b) { sys := s0, buf := none } bs)
        (traceAct (tstep c) (tsourceB c) (fun _ b => b) { sys := s0, buf := none } bs) ∧
      TSource c (trace (tstep c) (tsourceB c) (fun _ b => b) { sys := s0, buf := none } bs)
        (traceAct (tstep c) (tsourceB c) (fun _ b => b) { sys := s0, buf := none } bs) := by
  simp only [Bool.and_eq_true, Option.isNone_iff_eq_none, Bool.not_eq_true'] at h
  obtain ⟨⟨⟨h1, h2⟩, h3⟩, h4⟩ := h
  refine ⟨⟨run_trace _ _, fair_trace h1, fair_trace h2, fair_trace h3⟩, working_trace (sys := TSys.sys) h4, ?_, ?_⟩
  · intro i a ha
    have := guard_trace (G := fun t a => tsourceB c t a = true) (fun _ _ h => h) i _ ha
    simp only [tsourceB, Bool.and_eq_true] at this
    exact ⟨honest_of this.1.1, asked_of this.1.2⟩
  · intro i ha
    have := guard_trace (G := fun t a => tsourceB c t a = true) (fun _ _ h => h) i _ ha
    simp [tsourceB] at this

/-- The hypotheses of the theorems about infinite histories: reading to the end with delayed
stores. -/
example : ∃ (s0 : Sys memStorage) (t : Nat → TSys memStorage) (ta : Nat → Option TAct),
    Starts memProvider demoCfg s0 ∧ TRun demoCfg s0 t ta ∧ TSource demoCfg t ta ∧
      (∀ j f, ta j ≠ some (.act (.seek f))) ∧
      (∀ j n, ta j = some (.act (.read n)) → 10 + n < two64 - 1) ∧
      (Reading (fun i => (t i).sys) fun j n => ta j = some (.act (.read n))) ∧
      (t 3).buf = some 8 ∧ (t 4).sys.rpc = .rWait 8 8 ∧ (t 100).sys.spc = .ended ∧
      delivered (t 100).sys.log = [1, 2, 3, 4, 5, 6, 7, 8, 9, 10] := by
  let bs : List TAct := tacts ([.read 8] ++ rdrs 3 ++ [.chunk 10] ++ srcs 6) ++ [.drain] ++
    tacts ([.eof] ++ srcs 6 ++ rdrs 7 ++ [.read 8] ++ rdrs 9)
  obtain ⟨h1, h2⟩ := trun_trace (S := memStorage) (c := demoCfg) (s0 := init demoCfg demoMem10) (bs := bs) (by decide +kernel)
  refine ⟨_, _, _, ⟨rfl, demoMem10, rfl, rfl⟩, h1, h2,
    seekless_trace (ev := TAct.ev) (sk := fun f => TAct.act (.seek f)) (fun _ b k h => by subst h; rfl) (by decide +kernel),
    short_trace (ev := TAct.ev) (rd := fun n => TAct.act (.read n)) (fun _ b k h => by subst h; rfl) (by decide +kernel),
    reading_trace (sys := TSys.sys) (ev := TAct.ev) (rd := fun n => TAct.act (.read n))
      (fun _ b n h => by cases b <;> simp [TAct.ev] at h; subst h; rfl) (by decide +kernel),
    by decide +kernel, by decide +kernel, by decide +kernel, by decide +kernel⟩

end SD
