import Verif.Proof.Sys.LiveTask
import Verif.Props.Wake
import Verif.Props.Panic

/-!
# Property C63: calls return as long as the transport keeps delivering

The other theorems about waiting say that a state is not a deadlock.  Here:
on infinite histories with fair scheduling, a call that is made returns.
-/

set_option linter.unusedVariables false

namespace SD

/-- A consumer that waits has asked for the position it waits for. -/
theorem asked_log {S : Storage} {c : Cfg} {G : Sys S → Act → Prop} {st : S.σ} {s : Sys S}
    (h : Reach c G (init c st) s) : ∀ w, s.rpc.waiting = some w → Ev.request w ∈ s.log := by
  refine Reach.inv (P := fun s : Sys S => ∀ w, s.rpc.waiting = some w → Ev.request w ∈ s.log) h
    (by simp [init, RdrPc.waiting]) ?_
  intro s s' a h1 _ ht
  cases ht <;> grind [RdrPc.waiting]

theorem asleep_waiting {p : RdrPc} {w : Nat} (h : p.asleep = some w) : p.waiting = some w := by
  revert h; cases p <;> simp [RdrPc.asleep, RdrPc.waiting]

theorem call_returns {P : Provider} {c : Cfg} (PP : PositionalProvider P c.contentLength) {s0 : Sys P.S}
    (h0 : Starts P c s0) {r : Nat → Sys P.S} {act : Nat → Option Act} (he : Exec c s0 r act)
    (hfs : Fair c r act .src) (hfr : Fair c r act .rdr) (hk : KeepsDelivering r act)
    (hpan : ∀ j, (r j).spc ≠ .panicked) (hmax : ∀ j, Ev.request (two64 - 1) ∉ (r j).log) {i : Nat}
    (hc : (r i).rpc.inCall = true)
    (hnp : ∀ j p w, i ≤ j → (r j).rpc = p → p.asleep = some w → w ≠ two64 - 1 →
      ((r i).rpc.inReadCall = true → p.inReadCall = true) →
      (r j).done = false → (r j).reached = false →
      ∀ pos l t, (r j).spc = .wWait pos l t → (r j).permit = true) :
    ∃ j, i ≤ j ∧ ((r j).rpc = .idle ∨ (r j).rpc = .panicked) := by
  rcases ends_or_sleeps he hfr _ i (Nat.le_refl _) hc with h | ⟨i0, p, w, hi, hp, hrd, hs⟩
  · exact h
  exfalso
  have hw : w ≠ two64 - 1 := by
    intro e
    subst e
    obtain ⟨-, st, -, rfl⟩ := h0
    refine hmax i0 (asked_log (he.reach i0) _ ?_)
    rw [(hs i0 (Nat.le_refl _)).1]
    exact asleep_waiting hp
  have hT := fun j => Track.reach PP h0 (he.reach j)
  exact no_sleep he hfs hk (fun j => (hT j).1.1) (fun j => (hT j).1.2) (fun j => (hT j).2) hp hw ⟨hs⟩ hpan
    fun j hj => hnp j p w (by omega) (hs j hj).1 hp hw hrd (hs j hj).2.1 (hs j hj).2.2

theorem keeps_calls_return {eager : Bool} {P : Provider} {c : Cfg} (hP : Keeps eager false c.contentLength P)
    (hb : c.batchSize ≠ 0) {s0 : Sys P.S} (h0 : Starts P c s0) {r : Nat → Sys P.S}
    {act : Nat → Option Act} (he : Exec c s0 r act) (hfs : Fair c r act .src) (hfr : Fair c r act .rdr)
    (hk : KeepsDelivering r act) (hne : ∀ j, act j ≠ some (.chunk 0))
    (hmax : ∀ j, Ev.request (two64 - 1) ∉ (r j).log) {i : Nat} (hc : (r i).rpc.inCall = true) :
    ∃ j, i ≤ j ∧ ((r j).rpc = .idle ∨ (r j).rpc = .panicked) := by
  obtain ⟨PP⟩ := keeps_positional hP
  refine call_returns PP h0 he hfs hfr hk ?_ hmax hc ?_
  · intro j
    refine keeps_no_panic hP hb h0 (he.reachG (fun i a ha e => ?_) j)
    exact hne i (by rw [ha, e])
  · intro j p w _ _ _ _ _ _ _ pos l t h
    by_cases hp : (r j).permit = true
    · exact hp
    · exact absurd (paused_iff.mpr ⟨⟨_, _, _, h⟩, by simpa using hp⟩) (keeps_never_pauses hP hb h0 (he.reach j))

/-- C63 for storage that keeps everything: every `read` and every `seek` returns, in every
history, with any other calls, errors, stalls, early ends and reconnects, as long as the
transport keeps delivering chunks that are not empty.  (`panicked` is the overflow of
a position in the call itself.  The last `u64` is the marker of C26.) -/
theorem C63_calls_return_unbounded {P : Provider} {c : Cfg} (hP : Unbounded c.contentLength P)
    (hb : c.batchSize ≠ 0) {s0 : Sys P.S} (h0 : Starts P c s0) {r : Nat → Sys P.S}
    {act : Nat → Option Act} (he : Exec c s0 r act) (hfs : Fair c r act .src) (hfr : Fair c r act .rdr)
    (hk : KeepsDelivering r act) (hne : ∀ j, act j ≠ some (.chunk 0))
    (hmax : ∀ j, Ev.request (two64 - 1) ∉ (r j).log) {i : Nat} (hc : (r i).rpc.inCall = true) :
    ∃ j, i ≤ j ∧ ((r j).rpc = .idle ∨ (r j).rpc = .panicked) :=
  keeps_calls_return hP hb h0 he hfs hfr hk hne hmax hc

theorem read_returns {b : Bool} {P : Provider} {c : Cfg} (PP : PositionalProvider P c.contentLength)
    (RP : RingProvider P c.contentLength b) (hb : c.batchSize ≠ 0) (hbs : RP.bufferSize ≠ 0) {s0 : Sys P.S}
    (h0 : Starts P c s0) {r : Nat → Sys P.S} {act : Nat → Option Act} (he : Exec c s0 r act)
    (hfs : Fair c r act .src) (hfr : Fair c r act .rdr) (hk : KeepsDelivering r act)
    (hpan : ∀ j, (r j).spc ≠ .panicked) (hmax : ∀ j, Ev.request (two64 - 1) ∉ (r j).log)
    (hn : ∀ j n w, (r j).rpc = .rWait n w → c.excessiveRead n = false → n ≤ RP.bufferSize)
    {i : Nat} (hc : (r i).rpc.inReadCall = true) :
    ∃ j, i ≤ j ∧ ((r j).rpc = .idle ∨ (r j).rpc = .panicked) := by
  have hc' : (r i).rpc.inCall = true := by
    revert hc; cases (r i).rpc <;> simp [RdrPc.inCall, RdrPc.inReadCall]
  refine call_returns PP h0 he hfs hfr hk hpan hmax hc' ?_
  intro j p w _ hp hs hw hrd hd hr pos l t h
  by_cases hpm : (r j).permit = true
  · exact hpm
  exfalso
  have h1 := hrd hc
  obtain ⟨n, rfl⟩ : ∃ n, p = .rWait n w := by
    revert h1 hs
    cases p <;> simp [RdrPc.asleep, RdrPc.inReadCall]
  obtain ⟨⟨hok, hsz⟩, hW⟩ := Wake.reach hb RP h0 (he.reach j)
  obtain ⟨e1, e2⟩ := hW.rd n w (by rw [hp]; rfl)
  refine no_mutual_wait RP hb hbs h0 (he.reach j) (n := n) (hn j n w hp) ?_
    (blockedRead_iff.mpr ⟨⟨w, hp⟩, hd, hr⟩) (paused_iff.mpr ⟨⟨_, _, _, h⟩, by simpa using hpm⟩)
  rw [(RP.ring.tell hok).1, ← e1]
  exact hw

/-- C63 for reads on bounded storage, in every history (with any seeks before): every
`read` returns.  The buffer size is not zero in the code; the task does not panic (C39).
Missing: `seek` calls, for which `C63_calls_return_violated` shows that it fails. -/
theorem C63_reads_return_bounded_partial {F : Provider} {checks : Bool} {bufferSize : Nat} {c : Cfg}
    (hF : Sparing (some (Bnd.sizeFor bufferSize c.contentLength)) F)
    (hb : c.batchSize ≠ 0) (hbs : bufferSize ≠ 0) {s0 : Sys (bndStorage checks F.S)}
    (h0 : Starts (bndProvider checks F bufferSize) c s0) {r : Nat → Sys (bndStorage checks F.S)}
    {act : Nat → Option Act} (he : Exec c s0 r act) (hfs : Fair c r act .src) (hfr : Fair c r act .rdr)
    (hk : KeepsDelivering r act) (hpan : ∀ j, (r j).spc ≠ .panicked)
    (hmax : ∀ j, Ev.request (two64 - 1) ∉ (r j).log) {i : Nat} (hc : (r i).rpc.inReadCall = true) :
    ∃ j, i ≤ j ∧ ((r j).rpc = .idle ∨ (r j).rpc = .panicked) := by
  obtain ⟨LF, TF, -⟩ := keeps_lawful hF
  obtain ⟨PP⟩ := windowed_positional (.bounded c.contentLength checks F bufferSize hF)
  refine read_returns PP (bndRingProvider checks bufferSize c.contentLength LF TF (keeps_read_le hF)) hb hbs h0
    he hfs hfr hk hpan hmax ?_ hc
  intro j n w _ hx
  have := h0.1
  have hx : n ≤ bufferSize := by simpa [Cfg.excessiveRead, this] using hx
  exact hx

theorem buf_reach {S : Storage} {c : Cfg} {B : Nat} {st : S.σ} {s : Sys S}
    (h : Reach c (fun _ a => ∀ n, a = .read n → n ≤ B) (init c st) s) : ∀ n, s.rpc.buf = some n → n ≤ B := by
  refine Reach.inv (P := fun s : Sys S => ∀ n, s.rpc.buf = some n → n ≤ B) h (by simp [init, RdrPc.buf]) ?_
  intro s s' a h1 h2 ht
  cases ht <;> grind [RdrPc.buf]

/-- C63 for reads on adaptive storage and a stream of unknown length, if no buffer is
longer than the storage (C26). -/
theorem C63_reads_return_adaptive_partial {F V : Provider} {checks : Bool} {bufferSize : Nat} {c : Cfg}
    (hF : Sparing (some bufferSize) F) (hV : Sparing (some bufferSize) V) (hcl : c.contentLength = none)
    (hb : c.batchSize ≠ 0) (hbs : bufferSize ≠ 0) {s0 : Sys (adpStorage checks F.S V.S)}
    (h0 : Starts (adpProvider checks F V bufferSize) c s0) {r : Nat → Sys (adpStorage checks F.S V.S)}
    {act : Nat → Option Act} (he : Exec c s0 r act) (hfs : Fair c r act .src) (hfr : Fair c r act .rdr)
    (hk : KeepsDelivering r act) (hpan : ∀ j, (r j).spc ≠ .panicked)
    (hmax : ∀ j, Ev.request (two64 - 1) ∉ (r j).log) (hn : ∀ j n, act j = some (.read n) → n ≤ bufferSize)
    {i : Nat} (hc : (r i).rpc.inReadCall = true) :
    ∃ j, i ≤ j ∧ ((r j).rpc = .idle ∨ (r j).rpc = .panicked) := by
  obtain ⟨RP, e⟩ : ∃ RP : RingProvider (adpProvider checks F V bufferSize) c.contentLength false,
      RP.bufferSize = bufferSize := by rw [hcl]; exact adaptive_ring checks hF
  obtain ⟨PP⟩ : Nonempty (PositionalProvider (adpProvider checks F V bufferSize) c.contentLength) := by
    rw [hcl]; exact windowed_positional (.adaptive checks F V bufferSize hF hV)
  refine read_returns PP RP hb (by omega) h0 he hfs hfr hk hpan hmax ?_ hc
  intro j n w hp _
  have := he.reachG (G := fun _ a => ∀ n, a = .read n → n ≤ bufferSize) (fun i a ha n e => hn i n (by rw [ha, e])) j
  obtain ⟨-, st, -, rfl⟩ := h0
  rw [e]
  exact buf_reach this n (by rw [hp]; rfl)

/-! ### Histories that stop -/

/-- The state after the first `i` actions. -/
def after {S : Storage} (c : Cfg) (s0 : Sys S) (as : List Act) (i : Nat) : Sys S :=
  (as.take i).foldl (fun s a => (step c s a).getD s) s0

theorem after_succ {S : Storage} {c : Cfg} {s0 : Sys S} {as : List Act} {i : Nat} {a : Act}
    (h : as[i]? = some a) : after c s0 as (i + 1) = (step c (after c s0 as i) a).getD (after c s0 as i) := by
  unfold after
  rw [List.take_add_one, h]
  simp

theorem after_end {S : Storage} {c : Cfg} {s0 : Sys S} {as : List Act} {i : Nat} (h : as.length ≤ i) :
    after c s0 as i = after c s0 as as.length := by
  unfold after
  rw [List.take_of_length_le h, List.take_of_length_le (Nat.le_refl _)]

theorem runG_prefix {S : Storage} {c : Cfg} {g : Sys S → Act → Bool} {as : List Act} {s0 s : Sys S}
    (h : runG g c s0 as = some s) : ∀ i a, as[i]? = some a →
      ∃ s', step c (after c s0 as i) a = some s' := by
  induction as generalizing s0 with
  | nil => simp
  | cons b as ih =>
    unfold runG at h
    split at h
    · split at h
      · next s1 hs =>
        intro i a ha
        cases i with
        | zero =>
          simp at ha
          subst ha
          exact ⟨s1, hs⟩
        | succ i =>
          obtain ⟨s', h'⟩ := ih h i a (by simpa using ha)
          refine ⟨s', ?_⟩
          simpa [after, hs] using h'
      · simp at h
    · simp at h

theorem after_last {S : Storage} {c : Cfg} {g : Sys S → Act → Bool} {as : List Act} {s0 s : Sys S}
    (h : runG g c s0 as = some s) : after c s0 as as.length = s := by
  induction as generalizing s0 with
  | nil => simpa [runG, after] using h
  | cons b as ih =>
    unfold runG at h
    split at h
    · split at h
      · next s1 hs =>
        have := ih h
        simpa [after, hs] using this
      · simp at h
    · simp at h

/-- A finite history after which nothing happens any more. -/
theorem exec_of_run {S : Storage} {c : Cfg} {g : Sys S → Act → Bool} {as : List Act} {s0 s : Sys S}
    (h : runG g c s0 as = some s) : Exec c s0 (after c s0 as) (fun i => as[i]?) where
  start := by simp [after]
  pause i hi := by
    have : as.length ≤ i := by simpa using hi
    rw [after_end this, after_end (i := i + 1) (by omega)]
  next i a ha := by
    obtain ⟨s', h'⟩ := runG_prefix h i a ha
    rw [after_succ ha, h']
    rfl

theorem fair_of_run {S : Storage} {c : Cfg} {g : Sys S → Act → Bool} {as : List Act} {s0 s : Sys S}
    (h : runG g c s0 as = some s) {a : Act} (hs : step c s a = none) :
    Fair c (after c s0 as) (fun i => as[i]?) a := by
  intro i hi
  refine absurd ?_ (hi (max i as.length) (by omega))
  rw [after_end (by omega), after_last h]
  exact hs

theorem delivering_of_run {S : Storage} {c : Cfg} {g : Sys S → Act → Bool} {as : List Act} {s0 s : Sys S}
    (h : runG g c s0 as = some s) (hs : s.spc.awaits = false) :
    KeepsDelivering (after c s0 as) (fun i => as[i]?) := by
  intro hi
  obtain ⟨j, hj, h'⟩ := hi as.length
  rw [after_end hj, after_last h, hs] at h'
  cases h'

/-- No step is possible. -/
def stopped {S : Storage} (c : Cfg) (s : Sys S) : Bool :=
  (step c s .src).isNone && (step c s .rdr).isNone && !s.spc.awaits

/-- What the theorems assume of a history, for one that stops. -/
theorem assumed_of_run {P : Provider} {c : Cfg} {g : Sys P.S → Act → Bool} (st : P.S.σ) (as : List Act)
    (hcap : c.capacity = P.maxCapacity) (hst : P.create c.contentLength = .ok st)
    (h : (runG g c (init c st) as).any (stopped c) = true)
    (h' : ((List.range (as.length + 1)).all fun j =>
      decide ((after c (init c st) as j).spc ≠ .panicked) &&
      decide (Ev.request (two64 - 1) ∉ (after c (init c st) as j).log)) = true) :
    Starts P c (init c st) ∧ Exec c (init c st) (after c (init c st) as) (fun i => as[i]?) ∧
      Fair c (after c (init c st) as) (fun i => as[i]?) .src ∧
      Fair c (after c (init c st) as) (fun i => as[i]?) .rdr ∧
      KeepsDelivering (after c (init c st) as) (fun i => as[i]?) ∧
      (∀ j, (after c (init c st) as j).spc ≠ .panicked) ∧
      ∀ j, Ev.request (two64 - 1) ∉ (after c (init c st) as j).log := by
  cases hr : runG g c (init c st) as with
  | none => rw [hr] at h; simp at h
  | some s =>
    rw [hr] at h
    simp only [Option.any_some, stopped, Bool.and_eq_true, Option.isNone_iff_eq_none, Bool.not_eq_true'] at h
    have key : ∀ j, (after c (init c st) as j).spc ≠ .panicked ∧
        Ev.request (two64 - 1) ∉ (after c (init c st) as j).log := by
      intro j
      have hj : after c (init c st) as j = after c (init c st) as (min j as.length) := by
        rcases Nat.le_total j as.length with h1 | h1
        · rw [Nat.min_eq_left h1]
        · rw [Nat.min_eq_right h1, after_end h1]
      have := List.all_eq_true.mp h' (min j as.length) (by simp)
      rw [hj]
      simpa using this
    exact ⟨⟨hcap, st, hst, rfl⟩, exec_of_run hr, fair_of_run hr h.1.1, fair_of_run hr h.1.2,
      delivering_of_run hr h.2, fun j => (key j).1, fun j => (key j).2⟩

/-- C63 fails for seeks on bounded storage: the buffer is full, the task sleeps until
something is read, and a seek to the byte that it wants to write next sleeps for
ever. -/
theorem C63_calls_return_violated :
    ∃ (s0 : Sys (bndStorage true memStorage)) (r : Nat → Sys (bndStorage true memStorage))
      (act : Nat → Option Act), Starts (bndProvider true memProvider 4) cfgBounded s0 ∧
      Exec cfgBounded s0 r act ∧ Fair cfgBounded r act .src ∧ Fair cfgBounded r act .rdr ∧
      KeepsDelivering r act ∧ (∀ j, (r j).spc ≠ .panicked) ∧ (∀ j, act j ≠ some (.chunk 0)) ∧
      (∀ j, Ev.request (two64 - 1) ∉ (r j).log) ∧ ∀ j, 20 ≤ j → (r j).rpc = .sWait 4 := by
  have h := assumed_of_run (P := bndProvider true memProvider 4) (c := cfgBounded) (g := fun _ _ => true) demoBnd4
    ([.chunk 4] ++ srcs 3 ++ [.chunk 2] ++ srcs 4 ++ [.seek (.start 4)] ++ rdrs 3) rfl rfl (by decide +kernel)
    (by decide +kernel)
  obtain ⟨h1, h2, h3, h4, h5, h6, h7⟩ := h
  refine ⟨_, _, _, h1, h2, h3, h4, h5, h6, ?_, h7, ?_⟩
  · intro j e
    exact absurd (List.mem_of_getElem? e) (by decide +kernel)
  · intro j hj
    rw [after_end (by simp [srcs, rdrs]; omega)]
    decide +kernel

/-- A history for the theorem about storage that keeps everything: a read and a seek
sleep, the transport fails, is reconnected, ends early and is asked for the gap. -/
example : ∃ (s0 : Sys memStorage) (r : Nat → Sys memStorage) (act : Nat → Option Act),
    Starts memProvider demoCfg s0 ∧ Exec demoCfg s0 r act ∧ Fair demoCfg r act .src ∧
      Fair demoCfg r act .rdr ∧ KeepsDelivering r act ∧ (∀ j, act j ≠ some (.chunk 0)) ∧
      (∀ j, Ev.request (two64 - 1) ∉ (r j).log) ∧ (r 4).rpc = .rWait 4 4 ∧ (r 34).rpc = .sWait 8 := by
  have h := assumed_of_run (P := memProvider) (c := demoCfg) (g := fun _ _ => true) demoMem10
    ([.read 4] ++ rdrs 3 ++ [.chunkErr, .timeout, .reconnOk 0, .chunk 2] ++ srcs 6 ++
      [.timeout, .reconnOk 2, .chunk 2] ++ srcs 8 ++ rdrs 5 ++ [.seek (.start 8)] ++ rdrs 3 ++
      [.recvSeek, .src, .seekOk 8, .chunk 2] ++ srcs 3 ++ [.eof, .src, .seekOk 4, .chunk 4] ++ srcs 8 ++ rdrs 3 ++
      [.eof] ++ srcs 6) rfl rfl (by decide +kernel) (by decide +kernel)
  obtain ⟨h1, h2, h3, h4, h5, h6, h7⟩ := h
  refine ⟨_, _, _, h1, h2, h3, h4, h5, ?_, h7, ?_, ?_⟩
  · intro j e
    exact absurd (List.mem_of_getElem? e) (by decide +kernel)
  · decide +kernel
  · decide +kernel

/-- A history for the theorem about bounded storage: the buffer is full and the task
sleeps, then a read sleeps. -/
example : ∃ (s0 : Sys (bndStorage true memStorage)) (r : Nat → Sys (bndStorage true memStorage))
    (act : Nat → Option Act), Starts (bndProvider true memProvider 4) cfgBounded s0 ∧
      Exec cfgBounded s0 r act ∧ Fair cfgBounded r act .src ∧ Fair cfgBounded r act .rdr ∧
      KeepsDelivering r act ∧ (∀ j, (r j).spc ≠ .panicked) ∧
      (∀ j, Ev.request (two64 - 1) ∉ (r j).log) ∧ (r 18).rpc = .rWait 4 7 ∧
      (r 18).spc = .wWait 4 6 [5, 6, 7, 8, 9, 10] := by
  have h := assumed_of_run (P := bndProvider true memProvider 4) (c := cfgBounded) (g := fun _ _ => true) demoBnd4
    ([.chunk 4] ++ srcs 3 ++ [.chunk 6] ++ srcs 4 ++ [.read 3] ++ rdrs 4 ++ [.read 4] ++ rdrs 3 ++ srcs 12 ++
      rdrs 5 ++ srcs 7 ++ [.read 4] ++ rdrs 4 ++ [.eof] ++ srcs 6) rfl rfl (by decide +kernel) (by decide +kernel)
  obtain ⟨h1, h2, h3, h4, h5, h6, h7⟩ := h
  exact ⟨_, _, _, h1, h2, h3, h4, h5, h6, h7, by decide +kernel, by decide +kernel⟩

/-- A history for the theorem about adaptive storage. -/
example : ∃ (s0 : Sys (adpStorage true memStorage memStorage))
    (r : Nat → Sys (adpStorage true memStorage memStorage)) (act : Nat → Option Act),
      Starts (adpProvider true memProvider memProvider 4) cfgUnknown s0 ∧
      Exec cfgUnknown s0 r act ∧ Fair cfgUnknown r act .src ∧ Fair cfgUnknown r act .rdr ∧
      KeepsDelivering r act ∧ (∀ j, (r j).spc ≠ .panicked) ∧
      (∀ j, Ev.request (two64 - 1) ∉ (r j).log) ∧ (∀ j n, act j = some (.read n) → n ≤ 4) ∧
      (r 21).rpc = .rWait 4 7 ∧ (r 50).rpc = .rWait 4 11 := by
  have h := assumed_of_run (P := adpProvider true memProvider memProvider 4) (c := cfgUnknown)
    (g := fun _ _ => true) demoAdp4
    ([.chunk 4] ++ srcs 6 ++ [.chunk 6] ++ srcs 4 ++ [.read 3] ++ rdrs 4 ++ [.read 4] ++ rdrs 3 ++ srcs 12 ++
      rdrs 5 ++ srcs 7 ++ [.read 4] ++ rdrs 4 ++ [.eof] ++ srcs 6 ++ rdrs 5) rfl rfl (by decide +kernel)
      (by decide +kernel)
  obtain ⟨h1, h2, h3, h4, h5, h6, h7⟩ := h
  refine ⟨_, _, _, h1, h2, h3, h4, h5, h6, h7, ?_, by decide +kernel, by decide +kernel⟩
  intro j n e
  have := List.mem_of_getElem? e
  simp [srcs, rdrs, List.mem_replicate] at this
  omega

end SD
