import Verif.Props.Broken
import Verif.Spec.Endless

/-!
# Property C87: streams without end

A consumer of a stream that never ends receives any number of its bytes, in order: neither the
consumer nor the download task comes to a halt.
-/

set_option linter.unusedVariables false

namespace SD

variable {P : Provider} {c : Cfg}

/-- A transport that never ends is never logged as ended. -/
theorem no_eof_reach {S : Storage} {s0 s : Sys S} {st : S.σ} (e : s0 = init c st)
    (h : Reach c (fun _ a => a ≠ .eof) s0 s) : Ev.eof ∉ s.log := by
  refine Reach.inv (P := fun s : Sys S => Ev.eof ∉ s.log) h (by subst e; simp [init]) ?_
  intro s s' a h1 h2 ht
  cases ht <;> grind

/-- Without seeks, the consumer is behind the bytes that it has received. -/
theorem logPos_delivered {log : List Ev} (h : ∀ t r, Ev.seekRet t r ∉ log) : logPos log = (delivered log).length := by
  induction log with
  | nil => rfl
  | cons e l ih =>
    have ih := ih fun t r hm => h t r (List.mem_cons_of_mem _ hm)
    cases e with
    | readRet pos len fast res => cases res <;> simp [logPos, delivered, ih]
    | seekRet t r => exact absurd (by simp) (h t r)
    | _ => exact ih

theorem tell_delivered (PP : PositionalProvider P c.contentLength) {s0 s : Sys P.S} (h0 : Starts P c s0)
    (h : Reach c NoSeek s0 s) : (P.S.tell s.st).1 = (delivered s.log).length := by
  have hp := PosInv.reach PP h0 h
  rw [(PP.pos.tell hp.ok).1, hp.rp]
  obtain ⟨-, st, -, rfl⟩ := h0
  exact logPos_delivered (noSeek_reach (fun _ _ hg => hg) h).2

theorem endless_core {s0 : Sys P.S} (h0 : Starts P c s0) {r : Nat → Sys P.S} {act : Nat → Option Act}
    (he : Exec c s0 r act) {limit k : Nat} (hk : k + limit < two64 - 1) (hc : Listens limit r act)
    (htell : ∀ i, (P.S.tell (r i).st).1 = (delivered (r i).log).length)
    (hfail : ∀ i, ¬ ReadFailed (r i).log)
    (hshort : ∀ i later earlier pos len fast bs, (r i).log = later ++ .readRet pos len fast (.ok bs) :: earlier →
      bs.length < len → False)
    (hret : (∀ j, Ev.request (two64 - 1) ∉ (r j).log) → ∀ i, (r i).rpc.inReadCall = true →
      ∃ j, i ≤ j ∧ ((r j).rpc = .idle ∨ (r j).rpc = .panicked)) :
    ∃ i, k ≤ (delivered (r i).log).length := by
  apply Classical.byContradiction
  intro hno
  have hle : ∀ i, (delivered (r i).log).length ≤ k := fun i =>
    Nat.le_of_lt (Nat.lt_of_not_le fun h => hno ⟨i, h⟩)
  have hov := no_overflow he (by obtain ⟨-, st, -, h⟩ := h0; exact ⟨st, h⟩) hc.noSeek
    (fun i => by rw [htell i]; exact hle i) (fun j n hj => by have := hc.short j n hj; omega)
  have hlast : ∃ i, ∃ e ∈ (r i).log, e.last = true := by
    obtain ⟨i, h | h⟩ := reads_progress he (by obtain ⟨-, st, -, rfl⟩ := h0; rfl) hc.reads hle
      (hret fun j hj => absurd ((hov j).1 _ hj) (Nat.lt_irrefl _))
    · obtain ⟨e, h1, h2, -⟩ := (hov i).2.2.2.1 h
      exact ⟨i, e, h1, h2⟩
    · exact ⟨i, h⟩
  obtain ⟨i, e, hm, hl⟩ := hlast
  rcases last_cases hm hl with h | ⟨later, earlier, pos, len, fast, bs, h1, h2⟩
  · exact hfail i h
  · exact hshort i _ _ _ _ _ _ h1 h2

/-- C87 for storage that keeps everything. -/
theorem C87_never_dry_unbounded (hP : Unbounded c.contentLength P) (hb : c.batchSize ≠ 0) (hke : c.KeepsErrors)
    (hf : c.Accepts) (hend : c.Endless) {s0 : Sys P.S} (h0 : Starts P c s0) {r : Nat → Sys P.S}
    {act : Nat → Option Act} (he : Exec c s0 r act) (hfs : Fair c r act .src) (hfr : Fair c r act .rdr)
    (ht : Broadcasts r act) {limit : Nat} (hc : Listens limit r act) {k : Nat} (hk : k + limit < two64 - 1) :
    ∃ i m, k ≤ m ∧ delivered (r i).log = slice c.remote 0 m := by
  have hns : ∀ i a, act i = some a → NoSeek (r i) a := fun i a ha f e => hc.noSeek i f (by rw [ha, e])
  have hlen : c.LengthHonest := fun n hn => by rw [hend.2] at hn; cases hn
  have hdel : ∀ (s : Sys P.S) a, Delivers c s a := fun s a _ _ n hn => by rw [hend.2] at hn; cases hn
  have hfw : ∀ s a, NoSeek (S := P.S) s a → Connected c s a := fun s a hn f p hf => absurd hf (hn f)
  obtain ⟨PP⟩ := keeps_positional hP
  have hex := fun i => C01_sequential_unbounded_partial hP hb hlen hke h0
    (he.reachG (fun i a ha => ⟨ht.honest i a ha, hns i a ha, hdel _ _⟩) i)
  suffices h : ∃ i, k ≤ (delivered (r i).log).length from h.elim fun i hi => ⟨i, _, hi, hex i⟩
  refine endless_core h0 he hk hc (fun i => tell_delivered PP h0 (he.reachG hns i))
    (fun i => C76_reads_succeed_unbounded hP hf h0
      (he.reachG (fun i a ha => ⟨ht.undisturbed i a ha, hns i a ha⟩) i))
    (fun i later earlier pos len fast bs hl hlt => ?_)
    (fun hmax i hi => keeps_calls_return hP hb h0 he hfs hfr ht.delivering ht.nonEmpty hmax
      (by revert hi; cases (r i).rpc <;> simp [RdrPc.inCall, RdrPc.inReadCall]))
  · rcases C13_short_reads_unbounded hP hb hlen hke h0 (he.reachG (fun i a ha =>
      ⟨ht.honest i a ha, hdel _ _, hfw _ _ (hns i a ha)⟩) i) hl hlt with ⟨N, hN, -⟩ | hm
    · rw [hend.2] at hN; cases hN
    · obtain ⟨-, st, -, e⟩ := h0
      exact no_eof_reach e (he.reachG (fun i a ha e => ht.endless i (by rw [ha, e])) i) (by rw [hl]; simp [hm])

theorem win_never_dry {b : Bool} (hP : Windowed c.contentLength P)
    (RP : RingProvider P c.contentLength b) (hb : c.batchSize ≠ 0) (hbs : RP.bufferSize ≠ 0)
    (hke : c.KeepsErrors) (hend : c.Endless) {s0 : Sys P.S} (h0 : Starts P c s0) {r : Nat → Sys P.S}
    {act : Nat → Option Act} (he : Exec c s0 r act) (hfs : Fair c r act .src) (hfr : Fair c r act .rdr)
    (ht : Broadcasts r act) (hcl : ∀ i a, act i = some a → CleanReconnect (r i) a)
    (hc : Listens RP.bufferSize r act) (hfail : ∀ i, ¬ ReadFailed (r i).log)
    {k : Nat} (hk : k + RP.bufferSize < two64 - 1) :
    ∃ i m, k ≤ m ∧ delivered (r i).log = slice c.remote 0 m := by
  have hns : ∀ i a, act i = some a → NoSeek (r i) a := fun i a ha f e => hc.noSeek i f (by rw [ha, e])
  obtain ⟨PP⟩ := windowed_positional hP
  have hex := fun i => C01_sequential_bounded hP h0
    (he.reachG (fun i a ha => ⟨ht.honest i a ha, hns i a ha, hcl i a ha⟩) i)
  have hpan : ∀ j, (r j).spc ≠ .panicked := fun j =>
    C39_no_panic_windowed_sequential_partial hP h0 (he.reachG (fun i a ha =>
      ⟨fun e => ht.nonEmpty i (by rw [ha, e]), ht.honest i a ha, hns i a ha, hcl i a ha⟩) j)
  suffices h : ∃ i, k ≤ (delivered (r i).log).length from h.elim fun i hi => ⟨i, _, hi, hex i⟩
  refine endless_core h0 he hk hc (fun i => tell_delivered PP h0 (he.reachG hns i)) hfail
    (fun i later earlier pos len fast bs hl hlt => ?_)
    (fun hmax i hi => read_returns PP RP hb hbs h0 he hfs hfr ht.delivering hpan hmax (fun j n w hp _ => ?_) hi)
  · rcases C13_short_reads_bounded hP hke h0 (he.reachG (fun i a ha =>
      ⟨ht.honest i a ha, hcl i a ha, hns i a ha⟩) i) hl hlt with ⟨N, hN, -⟩ | hm
    · rw [hend.2] at hN; cases hN
    · obtain ⟨-, st, -, e⟩ := h0
      exact no_eof_reach e (he.reachG (fun i a ha e => ht.endless i (by rw [ha, e])) i) (by rw [hl]; simp [hm])
  · have := he.reachG (G := fun _ a => ∀ n, a = .read n → n ≤ RP.bufferSize)
      (fun i a ha n e => hc.short i n (by rw [ha, e])) j
    obtain ⟨-, st, -, rfl⟩ := h0
    exact buf_reach this n (by rw [hp]; rfl)

/-- C87 for bounded storage, if no reconnect succeeds while received bytes wait to be written (C35) and no
buffer is longer than the storage. -/
theorem C87_never_dry_bounded_partial {F : Provider} {checks : Bool} {bufferSize : Nat}
    (hF : Sparing (some (Bnd.sizeFor bufferSize c.contentLength)) F) (hb : c.batchSize ≠ 0) (hbs : bufferSize ≠ 0)
    (hke : c.KeepsErrors) (hf : c.Accepts) (hend : c.Endless) {s0 : Sys (bndStorage checks F.S)}
    (h0 : Starts (bndProvider checks F bufferSize) c s0) {r : Nat → Sys (bndStorage checks F.S)}
    {act : Nat → Option Act} (he : Exec c s0 r act) (hfs : Fair c r act .src) (hfr : Fair c r act .rdr)
    (ht : Broadcasts r act) (hcl : ∀ i a, act i = some a → CleanReconnect (r i) a)
    (hc : Listens bufferSize r act) {k : Nat} (hk : k + bufferSize < two64 - 1) :
    ∃ i m, k ≤ m ∧ delivered (r i).log = slice c.remote 0 m := by
  obtain ⟨LF, TF, -⟩ := keeps_lawful hF
  exact win_never_dry (.bounded c.contentLength checks F bufferSize hF)
    (bndRingProvider checks bufferSize c.contentLength LF TF (keeps_read_le hF)) hb hbs hke hend h0 he hfs hfr ht hcl hc
    (fun i => C76_reads_succeed_bounded_partial hF hf h0 (he.reachG (fun i a ha =>
      ⟨ht.undisturbed i a ha, fun f e => hc.noSeek i f (by rw [ha, e]), fun n e => by
        have := hc.short i n (by rw [ha, e])
        simpa [Bnd.sizeFor, hend.2] using this⟩) i)) hk

/-- C87 for adaptive storage, which is bounded for a stream of unknown length. -/
theorem C87_never_dry_adaptive_partial {F V : Provider} {checks : Bool} {bufferSize : Nat}
    (hF : Sparing (some bufferSize) F) (hV : Sparing (some bufferSize) V) (hb : c.batchSize ≠ 0) (hbs : bufferSize ≠ 0)
    (hke : c.KeepsErrors) (hf : c.Accepts) (hend : c.Endless) {s0 : Sys (adpStorage checks F.S V.S)}
    (h0 : Starts (adpProvider checks F V bufferSize) c s0) {r : Nat → Sys (adpStorage checks F.S V.S)}
    {act : Nat → Option Act} (he : Exec c s0 r act) (hfs : Fair c r act .src) (hfr : Fair c r act .rdr)
    (ht : Broadcasts r act) (hcl : ∀ i a, act i = some a → CleanReconnect (r i) a)
    (hc : Listens bufferSize r act) {k : Nat} (hk : k + bufferSize < two64 - 1) :
    ∃ i m, k ≤ m ∧ delivered (r i).log = slice c.remote 0 m := by
  obtain ⟨RP, e⟩ : ∃ RP : RingProvider (adpProvider checks F V bufferSize) c.contentLength false,
      RP.bufferSize = bufferSize := by rw [hend.2]; exact adaptive_ring checks hF
  exact win_never_dry (by rw [hend.2]; exact .adaptive checks F V bufferSize hF hV) RP hb (by omega) hke hend h0 he
    hfs hfr ht hcl (by rw [e]; exact hc)
    (fun i => C76_reads_succeed_adaptive_partial hF hV hend.2 hf h0 (he.reachG (fun i a ha =>
      ⟨ht.undisturbed i a ha, fun f e => hc.noSeek i f (by rw [ha, e]), fun n e => hc.short i n (by rw [ha, e])⟩) i))
    (by omega)

/-! ### Such histories exist

After a first part, every round gives the task, the consumer's call, the transport and the consumer a turn. -/

/-- Who has the turn. -/
def turn (i : Nat) : Act :=
  if i % 4 = 0 then .src else if i % 4 = 1 then .rdr else if i % 4 = 2 then .chunk 1 else .read 1

/-- What is tried at each time. -/
def script (pre : List Act) (i : Nat) : Act := pre[i]?.getD (turn i)

/-- The state at each time; whoever cannot move passes. -/
def rounds {S : Storage} (c : Cfg) (pre : List Act) (s0 : Sys S) : Nat → Sys S
  | 0 => s0
  | i + 1 => (step c (rounds c pre s0 i) (script pre i)).getD (rounds c pre s0 i)

/-- What happens at each time. -/
def roundAct {S : Storage} (c : Cfg) (pre : List Act) (s0 : Sys S) (i : Nat) : Option Act :=
  if (step c (rounds c pre s0 i) (script pre i)).isSome then some (script pre i) else none

section
variable {S : Storage} {pre : List Act} {s0 : Sys S}

theorem rounds_exec : Exec c s0 (rounds c pre s0) (roundAct c pre s0) := by
  refine ⟨rfl, fun i h => ?_, fun i a h => ?_⟩
  · simp only [roundAct] at h
    rw [rounds]
    cases hs : step c (rounds c pre s0 i) (script pre i) <;> simp_all
  · simp only [roundAct] at h
    rw [rounds]
    cases hs : step c (rounds c pre s0 i) (script pre i) <;> simp_all

theorem script_turn {i : Nat} (h : pre.length ≤ i) : script pre i = turn i := by
  simp [script, List.getElem?_eq_none h]

theorem roundAct_turn {i : Nat} {a : Act} (h : roundAct c pre s0 i = some a) : a = script pre i := by
  simp only [roundAct] at h
  split at h <;> simp_all

theorem turn_cases (i : Nat) : turn i = .src ∨ turn i = .rdr ∨ turn i = .chunk 1 ∨ turn i = .read 1 := by
  rw [turn]
  split <;> [skip; split <;> [skip; split]] <;> simp

theorem roundAct_cases {i : Nat} {a : Act} (h : roundAct c pre s0 i = some a) :
    (i < pre.length ∧ a ∈ pre) ∨ a = .src ∨ a = .rdr ∨ a = .chunk 1 ∨ a = .read 1 := by
  rw [roundAct_turn h]
  by_cases hi : i < pre.length
  · exact .inl ⟨hi, by simp [script, List.getElem?_eq_getElem hi]⟩
  · rw [script_turn (by omega)]
    exact .inr (turn_cases i)

theorem rounds_fair_src : Fair c (rounds c pre s0) (roundAct c pre s0) .src := by
  intro i hi
  refine ⟨4 * (i + pre.length), by omega, ?_⟩
  have h1 : script pre (4 * (i + pre.length)) = .src := by rw [script_turn (by omega)]; simp [turn]
  have := hi (4 * (i + pre.length)) (by omega)
  rw [roundAct, h1, if_pos (Option.isSome_iff_ne_none.mpr this)]

theorem rounds_fair_rdr : Fair c (rounds c pre s0) (roundAct c pre s0) .rdr := by
  intro i hi
  refine ⟨4 * (i + pre.length) + 1, by omega, ?_⟩
  have h1 : script pre (4 * (i + pre.length) + 1) = .rdr := by rw [script_turn (by omega)]; simp [turn]
  have := hi (4 * (i + pre.length) + 1) (by omega)
  rw [roundAct, h1, if_pos (Option.isSome_iff_ne_none.mpr this)]

/-- What the transport and the consumer are like after the first part. -/
structure Quiet (s : Sys S) : Prop where
  tlim : s.tlim = none
  tend : s.tend = false
  seeking : ∀ a b, s.spc ≠ .seeking a b
  reconn : ∀ p, s.spc ≠ .reconn p
  msg : ∀ p, s.spc ≠ .seekMsg p
  queue : s.seekQ = none
  target : s.rpc.target = none

theorem quiet_init (st : S.σ) : Quiet (init c st) := by
  refine ⟨?_, ?_, ?_, ?_, ?_, ?_, ?_⟩ <;> simp [init, RdrPc.target]

theorem Quiet.step {s s' : Sys S} {a : Act} (h : Quiet s)
    (hcl : c.contentLength = none) (hg : a = .src ∨ a = .rdr ∨ a = .chunk 1 ∨ a = .read 1) (ht : Tr c s a s') :
    Quiet s' := by
  obtain ⟨h1, h2, h3, h4, h5, h6, h7⟩ := h
  have : a ≠ .eof ∧ a ≠ .timeout ∧ a ≠ .recvSeek ∧ ∀ f, a ≠ .seek f := by
    rcases hg with rfl | rfl | rfl | rfl <;> simp
  obtain ⟨g1, g2, g3, g4⟩ := this
  cases ht <;> constructor <;> grind [RdrPc.target, startPc, roundPc]

theorem rounds_quiet (hq : Quiet (rounds c pre s0 pre.length)) (hcl : c.contentLength = none) {i : Nat}
    (hi : pre.length ≤ i) : Quiet (rounds c pre s0 i) := by
  induction i with
  | zero => rwa [Nat.le_zero.mp hi] at hq
  | succ i ih =>
    by_cases he : pre.length = i + 1
    · rwa [he] at hq
    · have ih := ih (by omega)
      rw [rounds, script_turn (by omega)]
      cases hs : SD.step c (rounds c pre s0 i) (turn i) with
      | none => exact ih
      | some s' => exact ih.step hcl (turn_cases i) (tr_of_step hs)

/-- While the task waits for a chunk, nobody but the transport changes that. -/
theorem rounds_sel {i : Nat} (hi : pre.length ≤ i) (h : (rounds c pre s0 i).spc = .sel) (ht : i % 4 ≠ 2) :
    (rounds c pre s0 (i + 1)).spc = .sel := by
  rw [rounds, script_turn hi]
  cases hs : step c (rounds c pre s0 i) (turn i) with
  | none => exact h
  | some s' =>
    have hg : turn i = .src ∨ turn i = .rdr ∨ turn i = .read 1 := by
      unfold turn
      split
      · simp
      · split <;> simp_all
    have ht := tr_of_step hs
    generalize rounds c pre s0 i = s at ht h
    generalize turn i = a at ht hg
    rw [Option.getD_some]
    cases ht <;> simp_all

theorem rounds_idle {i : Nat} (hi : pre.length ≤ i) (h : (rounds c pre s0 i).rpc = .idle) (ht : i % 4 ≠ 3) :
    (rounds c pre s0 (i + 1)).rpc = .idle := by
  rw [rounds, script_turn hi]
  cases hs : step c (rounds c pre s0 i) (turn i) with
  | none => exact h
  | some s' =>
    have hg : turn i = .src ∨ turn i = .rdr ∨ turn i = .chunk 1 := by
      unfold turn
      split
      · simp
      · split
        · simp
        · split
          · simp
          · omega
    have ht := tr_of_step hs
    generalize rounds c pre s0 i = s at ht h
    generalize turn i = a at ht hg
    rw [Option.getD_some]
    cases ht <;> simp_all

/-- A condition that lasts until somebody's turn meets that turn. -/
theorem until_turn {Q : Nat → Prop} {t : Nat} (ht : t < 4) {n : Nat}
    (hQ : ∀ i, n ≤ i → Q i → i % 4 ≠ t → Q (i + 1)) {i : Nat} (hi : n ≤ i) (h : Q i) :
    ∃ j, i ≤ j ∧ j % 4 = t ∧ Q j := by
  have key : ∀ d i, n ≤ i → (i + d) % 4 = t → Q i → ∃ j, i ≤ j ∧ j % 4 = t ∧ Q j := by
    intro d
    induction d with
    | zero => exact fun i _ hi h => ⟨i, Nat.le_refl _, hi, h⟩
    | succ d ih =>
      intro i hn hi h
      by_cases hm : i % 4 = t
      · exact ⟨i, Nat.le_refl _, hm, h⟩
      · obtain ⟨j, h1, h2, h3⟩ := ih (i + 1) (by omega) (by omega) (hQ i hn h hm)
        exact ⟨j, by omega, h2, h3⟩
  exact key ((t + 4 - i % 4) % 4) i hi (by omega) h

theorem rounds_broadcasts (hend : c.Endless) (hq : Quiet (rounds c pre s0 pre.length))
    (hpre : ∀ i a, roundAct c pre s0 i = some a → i < pre.length → Honest (rounds c pre s0 i) a ∧
      a ≠ .chunk 0 ∧ a ≠ .eof ∧ Undisturbed (rounds c pre s0 i) a) :
    Broadcasts (rounds c pre s0) (roundAct c pre s0) := by
  have all : ∀ i a, roundAct c pre s0 i = some a → Honest (rounds c pre s0 i) a ∧
      a ≠ .chunk 0 ∧ a ≠ .eof ∧ Undisturbed (rounds c pre s0 i) a := by
    intro i a ha
    rcases roundAct_cases ha with h | rfl | rfl | rfl | rfl
    · exact hpre i a ha h.1
    all_goals simp [Honest, Undisturbed]
  refine ⟨fun hinf i => ?_, fun i a ha => (all i a ha).1, fun i ha => (all i _ ha).2.1 rfl,
    fun i ha => (all i _ ha).2.2.1 rfl, fun i a ha => (all i a ha).2.2.2⟩
  obtain ⟨j, hj, hw⟩ := hinf (i + pre.length)
  have hq' := rounds_quiet hq hend.2 (i := j) (by omega)
  have hsel : (rounds c pre s0 j).spc = .sel := by
    have h1 := hq'.seeking
    have h2 := hq'.reconn
    revert hw h1 h2
    cases (rounds c pre s0 j).spc <;> simp [SrcPc.awaits]
  obtain ⟨l, h1, h2, h3⟩ := until_turn (Q := fun i => (rounds c pre s0 i).spc = .sel) (t := 2) (by omega)
    (fun i => rounds_sel) (n := pre.length) (by omega) hsel
  refine ⟨l, 1, by omega, by omega, ?_⟩
  have hq := rounds_quiet hq hend.2 (i := l) (by omega)
  have ht : script pre l = .chunk 1 := by rw [script_turn (by omega)]; simp [turn, h2]
  rw [roundAct, ht, if_pos]
  simp [step, h3, hq.tend, hq.tlim, hend.1, leOpt]

/-- The first part ends with a call of `read`, unless there is none. -/
theorem rounds_listens {limit : Nat} (hl : 1 ≤ limit)
    (hpre : ∀ a ∈ pre, (∀ f, a ≠ .seek f) ∧ ∀ n, a = .read n → n ≤ limit)
    (hlast : pre = [] ∨ ∃ n, 0 < n ∧ roundAct c pre s0 (pre.length - 1) = some (.read n)) :
    Listens limit (rounds c pre s0) (roundAct c pre s0) := by
  have all : ∀ i a, roundAct c pre s0 i = some a → (∀ f, a ≠ .seek f) ∧ ∀ n, a = .read n → n ≤ limit := by
    intro i a ha
    rcases roundAct_cases ha with h | rfl | rfl | rfl | rfl
    · exact hpre a h.2
    all_goals simp [hl]
  refine ⟨fun i hi _ => ?_, fun i f ha => (all i _ ha).1 f rfl, fun i n ha => (all i _ ha).2 n rfl⟩
  by_cases hip : pre.length ≤ i
  · obtain ⟨l, h1, h2, h3⟩ := until_turn (Q := fun i => (rounds c pre s0 i).rpc = .idle) (t := 3) (by omega)
      (fun i => rounds_idle) (n := pre.length) hip hi
    refine ⟨l, 1, by omega, by omega, ?_⟩
    have ht : script pre l = .read 1 := by rw [script_turn (by omega)]; simp [turn, h2]
    rw [roundAct, ht, if_pos]
    simp [step, h3]
  · rcases hlast with rfl | ⟨n, hn, h⟩
    · simp at hip
    · exact ⟨_, n, by omega, hn, h⟩

theorem rounds_clean (i : Nat) (a : Act) (ha : roundAct c [] s0 i = some a) :
    CleanReconnect (rounds c [] s0 i) a := by
  rcases roundAct_cases ha with h | rfl | rfl | rfl | rfl <;> simp_all [CleanReconnect]
end

/-- A radio station: the bytes 0, 1, …, 255, 0, 1, … -/
def cfgRadio : Cfg := { demoCfg with remote := fun i => UInt8.ofNat i, remoteLen := none, contentLength := none }

theorem radio_endless : cfgRadio.Endless := ⟨rfl, rfl⟩

/-- C87 for storage that keeps everything, with buffers and chunks of one byte. -/
example : ∃ (s0 : Sys memStorage) (r : Nat → Sys memStorage) (act : Nat → Option Act), Starts memProvider cfgRadio s0 ∧
    Exec cfgRadio s0 r act ∧ Fair cfgRadio r act .src ∧ Fair cfgRadio r act .rdr ∧ Broadcasts r act ∧
    Listens 1 r act ∧ cfgRadio.Endless ∧ cfgRadio.Accepts ∧ cfgRadio.KeepsErrors :=
  ⟨init cfgRadio { buf := [], written := 0, rp := 0, wp := 0 }, _, _, ⟨rfl, _, rfl, rfl⟩, rounds_exec, rounds_fair_src, rounds_fair_rdr,
    rounds_broadcasts (pre := []) radio_endless (quiet_init _) nofun, rounds_listens (Nat.le_refl _) nofun (.inl rfl), radio_endless, rfl, demo_keepsErrors⟩

/-- The same for bounded storage of four bytes, all of it filled by the prefetch. -/
def cfgRadio4 : Cfg := { cfgRadio with prefetchBytes := 4, capacity := some 4 }

theorem radio4_endless : cfgRadio4.Endless := ⟨rfl, rfl⟩

/-- C87 for bounded storage.  The theorem applies: the consumer receives more than a million bytes. -/
example : ∃ (s0 : Sys (bndStorage true memStorage)) (r : Nat → Sys (bndStorage true memStorage))
    (act : Nat → Option Act), Starts (bndProvider true memProvider 4) cfgRadio4 s0 ∧
    Exec cfgRadio4 s0 r act ∧ Fair cfgRadio4 r act .src ∧ Fair cfgRadio4 r act .rdr ∧ Broadcasts r act ∧
    (∀ i a, act i = some a → CleanReconnect (r i) a) ∧ Listens 4 r act ∧ cfgRadio4.Endless ∧
    ∃ i m, 1000000 ≤ m ∧ delivered (r i).log = slice cfgRadio4.remote 0 m := by
  have h0 : Starts (bndProvider true memProvider 4) cfgRadio4 (init cfgRadio4 demoBnd4) := ⟨rfl, _, rfl, rfl⟩
  have h1 := rounds_broadcasts (S := bndStorage true memStorage) (pre := []) (s0 := init cfgRadio4 demoBnd4) radio4_endless
    (quiet_init _) nofun
  have h2 := rounds_listens (S := bndStorage true memStorage) (c := cfgRadio4) (pre := []) (s0 := init cfgRadio4 demoBnd4)
    (limit := 4) (by decide) nofun (.inl rfl)
  refine ⟨_, _, _, h0, rounds_exec, rounds_fair_src, rounds_fair_rdr, h1, rounds_clean, h2, radio4_endless, ?_⟩
  exact C87_never_dry_bounded_partial (c := cfgRadio4) (F := memProvider) (bufferSize := 4) (.memory _ nofun) (by decide) (by decide) demo_keepsErrors rfl
    radio4_endless h0 rounds_exec rounds_fair_src rounds_fair_rdr h1 rounds_clean h2 (by decide)

/-- C87 for adaptive storage. -/
example : ∃ (s0 : Sys (adpStorage true memStorage memStorage)) (r : Nat → Sys (adpStorage true memStorage memStorage))
    (act : Nat → Option Act), Starts (adpProvider true memProvider memProvider 4) cfgRadio s0 ∧
    Exec cfgRadio s0 r act ∧ Fair cfgRadio r act .src ∧ Fair cfgRadio r act .rdr ∧ Broadcasts r act ∧
    (∀ i a, act i = some a → CleanReconnect (r i) a) ∧ Listens 4 r act ∧ cfgRadio.Endless :=
  ⟨init cfgRadio demoAdp4, _, _, ⟨rfl, _, rfl, rfl⟩, rounds_exec, rounds_fair_src, rounds_fair_rdr,
    rounds_broadcasts (pre := []) radio_endless (quiet_init _) nofun, rounds_clean,
    rounds_listens (by decide) nofun (.inl rfl), radio_endless⟩

/-! ### Reconnects while received bytes wait -/

/-- What was delivered is never taken back. -/
theorem delivered_prefix {S : Storage} {s0 : Sys S} {r : Nat → Sys S} {act : Nat → Option Act} (he : Exec c s0 r act)
    {i j : Nat} (h : i ≤ j) : delivered (r i).log <+: delivered (r j).log := by
  obtain ⟨es, hes⟩ := log_exec he h
  rw [hes]
  clear hes
  induction es with
  | nil => exact List.prefix_refl _
  | cons e es ih =>
    refine ih.trans ?_
    cases e with
    | readRet pos len fast res => cases res <;> simp [delivered]
    | _ => simp [delivered]

/-- The first part of the history: the connection stalls while bytes 5 and 6 wait for room. -/
def stall : List Act :=
  [.chunk 6] ++ srcs 3 ++ [.timeout, .reconnOk 4] ++ [.read 4] ++ rdrs 3 ++ [.chunk 2] ++ srcs 6 ++ [.read 4] ++
    rdrs 4 ++ [.read 1]

/-- C87 fails for bounded storage if a reconnect succeeds while received bytes wait to be written: bytes 5
and 6 arrive again and are stored twice, and everything that the consumer receives from then on, for ever, is
two places off. -/
theorem C87_never_dry_bounded_violated :
    ∃ (s0 : Sys (bndStorage true memStorage)) (r : Nat → Sys (bndStorage true memStorage)) (act : Nat → Option Act),
      Starts (bndProvider true memProvider 4) cfgRadio4 s0 ∧ cfgRadio4.Endless ∧ Exec cfgRadio4 s0 r act ∧
      Fair cfgRadio4 r act .src ∧ Fair cfgRadio4 r act .rdr ∧ Broadcasts r act ∧ Listens 4 r act ∧
      ∀ i m, 9 ≤ m → delivered (r i).log ≠ slice cfgRadio4.remote 0 m := by
  let s0 : Sys (bndStorage true memStorage) := init cfgRadio4 demoBnd4
  have he := rounds_exec (S := bndStorage true memStorage) (c := cfgRadio4) (pre := stall) (s0 := s0)
  have hq : (fun s : Sys (bndStorage true memStorage) => s.tlim = none ∧ s.tend = false ∧ s.spc = .sel ∧ s.seekQ = none ∧
      s.rpc.target = none ∧ delivered s.log = [0, 1, 2, 3, 4, 5, 4, 5]) (rounds cfgRadio4 stall s0 stall.length) := by
    decide +kernel
  have hh : ∀ i < stall.length, honestB (rounds cfgRadio4 stall s0 i) (script stall i) = true := by decide +kernel
  obtain ⟨q1, q2, q3, q4, q5, q6⟩ := hq
  refine ⟨s0, _, _, ⟨rfl, _, rfl, rfl⟩, radio4_endless, he, rounds_fair_src, rounds_fair_rdr,
    rounds_broadcasts radio4_endless ⟨q1, q2, by simp [q3], by simp [q3], by simp [q3], q4, q5⟩ (fun i a ha hi => ?_),
    rounds_listens (by decide) (fun a ha => ?_) (.inr ⟨1, by decide, by decide +kernel⟩), fun i m hm e => ?_⟩
  · have := hh i hi
    rw [← roundAct_turn ha] at this
    refine ⟨honest_of this, ?_⟩
    rcases roundAct_cases ha with ⟨-, h⟩ | rfl | rfl | rfl | rfl
    · simp only [stall, srcs, rdrs, List.mem_append, List.mem_cons, List.mem_replicate, List.not_mem_nil] at h
      simp only [Undisturbed]
      refine ⟨?_, ?_, ?_, ?_⟩ <;> intros <;> rintro rfl <;> simp at h
    all_goals simp [Undisturbed]
  · simp only [stall, srcs, rdrs, List.mem_append, List.mem_cons, List.mem_replicate, List.not_mem_nil] at ha
    refine ⟨fun f => ?_, fun n => ?_⟩ <;> rintro rfl <;> simp at ha
    omega
  · have hlen : (delivered (rounds cfgRadio4 stall s0 i).log).length = m := by rw [e]; simp [slice]
    rcases Nat.le_total i stall.length with h | h
    · have := (delivered_prefix he h).length_le
      rw [q6] at this
      simp at this
      omega
    · have := delivered_prefix he h
      rw [q6, e] at this
      obtain ⟨t, ht⟩ := this
      have h6 := congrArg (fun l => l[6]?) ht
      simp [slice] at h6
      have : 6 < m := by omega
      simp [this, cfgRadio4, cfgRadio] at h6

end SD
