import Verif.Proof.Sys.Calls
import Verif.Proof.Sys.Run

/-!
# Properties C05 to C09: positions of the consumer and calls rejected up front

`logPos log` is the position of the consumer according to what `read` and `seek` have
returned to it; `Cfg.exactTarget` is the target of a seek in exact arithmetic.
-/

set_option linter.unusedVariables false

namespace SD

/-! ### C05: seek returns the clamped target and the next read starts there -/

/-- C05, the result: a seek is issued in a reachable state `s`; its exact target `t` is
representable.  Whatever happens afterwards, the first call that returns is this
seek: it fails, or it is the result of seeking to the clamped target, which is also
the position it returns. -/
theorem C05_seek_returns_target {P : Provider} {c : Cfg} (hP : Supported c.contentLength P)
    {G : Sys P.S → Act → Prop} {s0 s s1 s' : Sys P.S} (h0 : Starts P c s0) (h : Reach c G s0 s)
    {f : SeekFrom} {t : Int} (hf : step c s (.seek f) = some s1)
    (ht : c.exactTarget (logPos s.log) f = some t) (ht0 : 0 ≤ t) (ht1 : t < 2 ^ 64)
    (h' : Reach c G s1 s') {later mid : List Ev} {e : Ev}
    (hl : s'.log = later ++ e :: (mid ++ s.log)) (he : e.isReturn = true)
    (hm : ∀ e ∈ mid, e.isReturn = false) :
    e.isError = true ∨ e = .seekRet (clamp c.contentLength t.toNat) .panic ∨
      e = .seekRet (clamp c.contentLength t.toNat) (.ok (clamp c.contentLength t.toNat)) := by
  obtain ⟨PP⟩ := supported_positional hP
  have hp := PosInv.reach PP h0 h
  have htell : (P.S.tell s.st).1 = logPos s.log := by rw [← hp.rp]; exact (PP.pos.tell hp.ok).1
  rw [← htell] at ht
  have hcl : c.normalize t.toNat = clamp c.contentLength t.toNat := rfl
  have hc := seek_call hf ht ht0 (by simpa [two64] using ht1) h'
  rw [hcl] at hc
  rcases hc with ⟨mid', h1, h2, -⟩ | ⟨later', e', mid', h1, h2, h3, h4⟩
  · exfalso
    rw [h1] at hl
    have hl' : mid' ++ s.log = (later ++ e :: mid) ++ s.log := by simpa using hl
    have := List.append_cancel_right hl'
    have := h2 e (by rw [this]; simp)
    rw [this] at he; simp at he
  · rw [h1] at hl
    obtain ⟨-, rfl, -⟩ := split_unique hl h3 hm h2 he
    rcases h4 with ⟨k, rfl⟩ | ⟨res, rfl, hres⟩
    · exact Or.inl rfl
    · cases res with
      | ok p => rw [hres p rfl]; exact Or.inr (Or.inr rfl)
      | err k => exact Or.inl rfl
      | panic => exact Or.inr (Or.inl rfl)

/-- C05, the position: in every history, with every storage, every read starts at the
position that follows from the results of the calls before it, and every successful
seek returns its target; so nothing else moves the consumer. -/
theorem C05_next_read_starts_there {P : Provider} {c : Cfg} (hP : Supported c.contentLength P)
    {G : Sys P.S → Act → Prop} {s0 s : Sys P.S} (h0 : Starts P c s0) (h : Reach c G s0 s)
    {later earlier : List Ev} {pos len : Nat} {fast : Bool} {res : Res (List Byte)}
    (hl : s.log = later ++ .readRet pos len fast res :: earlier) :
    pos = logPos earlier := by
  obtain ⟨PP⟩ := supported_positional hP
  exact ((PosInv.reach PP h0 h).rule.split hl).1

/-- Memory storage for 10 bytes. -/
def demoMem : Mem := { buf := List.replicate 10 0, written := 0, rp := 0, wp := 0 }

/-- A seek relative to the end, which has to wait, and a read after it. -/
example : ∃ s0 s s1 s' : Sys memStorage, Starts memProvider demoCfg s0 ∧ Reach demoCfg Any s0 s ∧
    step demoCfg s (.seek (.fromEnd (-3))) = some s1 ∧
    demoCfg.exactTarget (logPos s.log) (.fromEnd (-3)) = some 7 ∧ Reach demoCfg Any s1 s' ∧
    (∃ later mid, s'.log = later ++ Ev.seekRet 7 (.ok 7) :: (mid ++ s.log) ∧
      ∀ e ∈ mid, e.isReturn = false) ∧
    ∃ l, s'.log = Ev.readRet 7 2 true (.ok [8, 9]) :: l ∧ logPos l = 7 := by
  have key : (run demoCfg (callSeek demoCfg (init (S := memStorage) demoCfg demoMem)
      (.fromEnd (-3))) (rdrs 3 ++ [.recvSeek, .src, .seekOk 7, .chunk 2] ++ srcs 3 ++ [.chunk 1] ++
      srcs 8 ++ rdrs 3 ++ [.read 2] ++ rdrs 2)).any (fun s => decide (s.log.take 2 =
        [Ev.readRet 7 2 true (.ok [8, 9]), Ev.seekRet 7 (.ok 7)]) &&
        (s.log.drop 2).all fun e => !e.isReturn) = true := by decide +kernel
  obtain ⟨s', hs, h⟩ := of_any key
  rw [Bool.and_eq_true, decide_eq_true_eq] at h
  obtain ⟨h1, h2⟩ := h
  refine ⟨_, _, _, s', ⟨rfl, demoMem, rfl, rfl⟩, .refl, rfl, rfl, reach_run hs, ?_⟩
  match hl : s'.log, h1, h2 with
  | a :: b :: l, h1, h2 =>
    simp only [List.take_succ_cons, List.take_zero, List.cons.injEq, and_true] at h1
    obtain ⟨rfl, rfl⟩ := h1
    refine ⟨⟨[Ev.readRet 7 2 true (.ok [8, 9])], l, by simp [init], ?_⟩, _, rfl, rfl⟩
    simpa using h2

/-! ### C06: seeking before byte 0 -/

/-- C06 fails: a seek to position -1 succeeds and moves the consumer, to the end of the
stream (the target wraps to `2^64 - 1`, which is then clamped). -/
theorem C06_before_start_violated :
    ∃ s0 s : Sys memStorage, Starts memProvider demoCfg s0 ∧
      (∃ s1, step demoCfg s0 (.seek (.current (-1))) = some s1 ∧ Reach demoCfg Any s1 s) ∧
      demoCfg.exactTarget (logPos s0.log) (.current (-1)) = some (-1) ∧
      ∃ l, s.log = Ev.seekRet 10 (.ok 10) :: l ∧ logPos s.log = 10 := by
  exact ⟨_, _, ⟨rfl, _, rfl, rfl⟩, ⟨_, rfl, reach_run (as := rdrs 3 ++ [.chunk 10] ++
    srcs 8 ++ rdrs 3) rfl⟩, rfl, _, rfl, rfl⟩

/-- C06 holds where the storage has a capacity `cap` and the stream is longer than
`position + cap`, or of unknown length: the call fails with `InvalidInput` and
nothing changes.  Missing: all other configurations. -/
theorem C06_before_start_partial {S : Storage} {c : Cfg} {s s1 : Sys S} {f : SeekFrom} {t : Int}
    (hf : step c s (.seek f) = some s1) (hpos : (S.tell s.st).1 < 2 ^ 63)
    (hlen : ∀ n, c.contentLength = some n → n < 2 ^ 63)
    (ht : c.exactTarget (S.tell s.st).1 f = some t) (ht0 : t < 0) (hok : s.failed = false)
    {cap : Nat} (hc : c.capacity = some cap) (hcap : (S.tell s.st).1 + cap < 2 ^ 63)
    (hroom : ∀ n, c.contentLength = some n → (S.tell s.st).1 + cap < n) :
    s1 = { s with log := .seekErr .invalidInput :: s.log } := by
  have hv : f.valid = true := by
    simp only [step] at hf; split at hf
    · next h => exact h.2
    · simp at hf
  have key : ∀ p, c.absolute (S.tell s.st).1 f = .ok p →
      c.excessiveSeek (S.tell s.st).1 (c.normalize p) = true := by
    intro p hp
    have hbig : 2 ^ 63 ≤ p := by
      cases f with
      | start q => simp [Cfg.exactTarget] at ht; omega
      | current d =>
        simp only [Cfg.exactTarget, Option.some.injEq] at ht
        simp only [SeekFrom.valid, Bool.and_eq_true, decide_eq_true_eq] at hv
        simp only [Cfg.absolute, addCast] at hp
        split at hp
        · simp at hp
        · simp only [Res.ok.injEq] at hp
          rw [← hp]
          unfold toU64 toI64 two64 two63 at *
          rw [if_pos (by omega)]
          omega
      | fromEnd d =>
        simp only [SeekFrom.valid, Bool.and_eq_true, decide_eq_true_eq] at hv
        simp only [Cfg.exactTarget] at ht
        simp only [Cfg.absolute] at hp
        cases hcl : c.contentLength with
        | none => rw [hcl] at ht; simp at ht
        | some n =>
          have hn := hlen n hcl
          rw [hcl] at ht hp
          simp at ht
          dsimp only at hp
          unfold addCast at hp
          split at hp
          · simp at hp
          · simp only [Res.ok.injEq] at hp
            rw [← hp]
            unfold toU64 toI64 two64 two63 at *
            rw [if_pos (by omega)]
            omega
    unfold Cfg.excessiveSeek Cfg.normalize
    cases hcl : c.contentLength with
    | none => simp only [hc, decide_eq_true_eq]; omega
    | some n => have := hroom n hcl; have := hlen n hcl; simp only [hc, decide_eq_true_eq]; omega
  simp only [step] at hf
  split at hf
  swap
  · simp at hf
  simp only [Option.some.injEq] at hf
  subst hf
  unfold callSeek
  rw [if_neg (by simp [hok])]
  cases ha : c.absolute (S.tell s.st).1 f with
  | ok p => simp [key p ha]
  | err k =>
    exfalso
    cases f with
    | start q => simp [Cfg.absolute] at ha
    | current d => simp only [Cfg.absolute, addCast] at ha; split at ha <;> simp at ha
    | fromEnd d =>
      simp only [Cfg.absolute] at ha
      simp only [Cfg.exactTarget] at ht
      cases hcl : c.contentLength with
      | none => rw [hcl] at ht; simp at ht
      | some n => rw [hcl] at ha; simp only [addCast] at ha; split at ha <;> simp at ha
  | panic =>
    exfalso
    cases f with
    | start q => simp [Cfg.absolute] at ha
    | current d =>
      simp only [SeekFrom.valid, Bool.and_eq_true, decide_eq_true_eq] at hv
      simp only [Cfg.exactTarget, Option.some.injEq] at ht
      simp only [Cfg.absolute, addCast, toI64_small (n := (S.tell s.st).1) (by simpa [two63] using hpos)] at ha
      unfold two63 at ha hv
      split at ha
      · next hov => simp at hov; omega
      · simp at ha
    | fromEnd d =>
      simp only [SeekFrom.valid, Bool.and_eq_true, decide_eq_true_eq] at hv
      simp only [Cfg.exactTarget] at ht
      simp only [Cfg.absolute] at ha
      cases hcl : c.contentLength with
      | none => rw [hcl] at ht; simp at ht
      | some n =>
        have hn := hlen n hcl
        rw [hcl] at ha ht
        simp at ht
        simp only [addCast, toI64_small (n := n) (by simpa [two63] using hn)] at ha
        unfold two63 at ha hv
        split at ha
        · next hov => simp at hov; omega
        · simp at ha

example : ∃ s1 : Sys memStorage,
    step { demoCfg with capacity := some 4 } (init { demoCfg with capacity := some 4 } demoMem)
      (.seek (.fromEnd (-11))) = some s1 ∧
    demoCfg.exactTarget 0 (.fromEnd (-11)) = some (-1) ∧ s1.log = [.seekErr .invalidInput] :=
  ⟨_, rfl, rfl, rfl⟩

/-! ### C07: seeking from the end of a stream of unknown length -/

/-- C07: the call fails at once, with `Unsupported` unless the download has failed, and
nothing else changes. -/
theorem C07_from_end_unknown_length {S : Storage} {c : Cfg} (hc : c.contentLength = none)
    {s s1 : Sys S} {d : Int} (hf : step c s (.seek (.fromEnd d)) = some s1) :
    s1 = { s with log := .seekErr (if s.failed then .other else .unsupported) :: s.log } := by
  simp only [step] at hf
  split at hf
  · simp only [Option.some.injEq] at hf
    subst hf
    unfold callSeek
    cases s.failed <;> simp [Cfg.absolute, hc]
  · simp at hf

/-- The call is possible whenever the consumer is not inside another one, so in
particular after reads in a stream of unknown length. -/
example : ∃ s0 s s1 : Sys memStorage, Starts memProvider { demoCfg with contentLength := none } s0 ∧
    Reach { demoCfg with contentLength := none } Any s0 s ∧ logPos s.log = 2 ∧
    step { demoCfg with contentLength := none } s (.seek (.fromEnd (-1))) = some s1 := by
  obtain ⟨s0, s, h1, h2, h3⟩ := exists_of_run (P := memProvider)
    (c := { demoCfg with contentLength := none }) { buf := [], written := 0, rp := 0, wp := 0 }
    ([.chunk 3] ++ srcs 6 ++ [.read 2] ++ rdrs 4)
    (fun s => decide (logPos s.log = 2 ∧ s.rpc = .idle)) rfl rfl (by decide +kernel)
  obtain ⟨h3, h4⟩ := of_decide_eq_true h3
  exact ⟨s0, s, _, h1, h2, h3, by simp only [step, h4]; rfl⟩

/-! ### C08: oversized reads -/

/-- C08, first half: a read with a buffer larger than the capacity fails at once, with
`InvalidInput` unless the download has failed, and nothing else changes. -/
theorem C08_oversized_read_rejected {S : Storage} {c : Cfg} {cap n : Nat}
    (hc : c.capacity = some cap) (hn : cap < n) {s s1 : Sys S}
    (hf : step c s (.read n) = some s1) :
    s1 = { s with log := .readErr n (if s.failed then .other else .invalidInput) :: s.log } := by
  simp only [step] at hf
  split at hf
  · simp only [Option.some.injEq] at hf
    subst hf
    unfold callRead
    cases s.failed <;> simp [Cfg.excessiveRead, hc, hn]
  · simp at hf

/-- C08, second half: in no history is a read rejected that fits the capacity. -/
theorem C08_fitting_read_accepted {S : Storage} {c : Cfg} {G : Sys S → Act → Prop} {st : S.σ}
    {s : Sys S} (h : Reach c G (init c st) s) {n : Nat}
    (hr : Ev.readErr n .invalidInput ∈ s.log) : ∃ cap, c.capacity = some cap ∧ cap < n := by
  revert n
  refine Reach.inv (P := fun s => ∀ {n}, Ev.readErr n .invalidInput ∈ s.log →
    ∃ cap, c.capacity = some cap ∧ cap < n) h (by simp [init]) ?_
  intro s s' a ih _ ht n hr
  cases ht
  case readExcess h1 h2 h3 _ =>
    rcases List.mem_cons.mp hr with hr | hr
    · simp only [Ev.readErr.injEq, and_true] at hr
      subst hr
      unfold Cfg.excessiveRead at h3
      cases hc : c.capacity with
      | none => rw [hc] at h3; simp at h3
      | some cap => rw [hc] at h3; exact ⟨cap, rfl, by simpa using h3⟩
    · exact ih hr
  all_goals first
    | exact ih hr
    | (rcases List.mem_cons.mp hr with hr | hr
       · cases hr
       · exact ih hr)

example : ∃ s1 : Sys memStorage,
    step { demoCfg with capacity := some 4 } (init { demoCfg with capacity := some 4 } demoMem)
      (.read 5) = some s1 ∧ s1.log = [.readErr 5 .invalidInput] ∧
    ∃ s2, step { demoCfg with capacity := some 4 } s1 (.read 4) = some s2 ∧ s2.rpc = .rDecide 4 :=
  ⟨_, rfl, rfl, _, rfl, rfl⟩

/-! ### C09: seeks beyond the capacity -/

/-- C09, first half: if the clamped target is further ahead than the capacity, the call
fails at once with `InvalidInput` and nothing else changes. -/
theorem C09_far_seek_rejected {P : Provider} {c : Cfg} (hP : Supported c.contentLength P)
    {G : Sys P.S → Act → Prop} {s0 s s1 : Sys P.S} (h0 : Starts P c s0) (h : Reach c G s0 s)
    {f : SeekFrom} {t : Int} {cap : Nat} (hc : c.capacity = some cap)
    (hf : step c s (.seek f) = some s1) (hok : s.failed = false)
    (ht : c.exactTarget (logPos s.log) f = some t) (ht0 : 0 ≤ t) (ht1 : t < 2 ^ 63)
    (hpos : logPos s.log < 2 ^ 63) (hlen : ∀ n, c.contentLength = some n → n < 2 ^ 63)
    (hfar : logPos s.log + cap < clamp c.contentLength t.toNat) :
    s1 = { s with log := .seekErr .invalidInput :: s.log } := by
  obtain ⟨PP⟩ := supported_positional hP
  have hp := PosInv.reach PP h0 h
  have htell : (P.S.tell s.st).1 = logPos s.log := by rw [← hp.rp]; exact (PP.pos.tell hp.ok).1
  rw [← htell] at ht hpos hfar
  have hab := absolute_total ht ht0 (by simpa [two63] using ht1) (by simpa [two63] using hpos)
    (fun n hn => by simpa [two63] using hlen n hn) (c := c)
  simp only [step] at hf
  split at hf
  swap
  · simp at hf
  simp only [Option.some.injEq] at hf
  subst hf
  have hex : c.excessiveSeek (P.S.tell s.st).1 (c.normalize t.toNat) = true := by
    have hcl : c.normalize t.toNat = clamp c.contentLength t.toNat := rfl
    have hle : clamp c.contentLength t.toNat ≤ t.toNat := by
      unfold clamp; split <;> omega
    rw [hcl]
    unfold Cfg.excessiveSeek
    rw [hc]
    simp only [decide_eq_true_eq]
    omega
  simp [callSeek, hok, hab, hex]

/-- C09, second half: a seek whose clamped target is within the capacity is not
rejected: it goes on. -/
theorem C09_near_seek_accepted {P : Provider} {c : Cfg} (hP : Supported c.contentLength P)
    {G : Sys P.S → Act → Prop} {s0 s s1 : Sys P.S} (h0 : Starts P c s0) (h : Reach c G s0 s)
    {f : SeekFrom} {t : Int} (hf : step c s (.seek f) = some s1) (hok : s.failed = false)
    (ht : c.exactTarget (logPos s.log) f = some t) (ht0 : 0 ≤ t) (ht1 : t < 2 ^ 63)
    (hpos : logPos s.log < 2 ^ 63) (hlen : ∀ n, c.contentLength = some n → n < 2 ^ 63)
    (hnear : ∀ cap, c.capacity = some cap →
      clamp c.contentLength t.toNat ≤ logPos s.log + cap) :
    s1.log = s.log ∧ s1.rpc = .sDecide (clamp c.contentLength t.toNat) := by
  obtain ⟨PP⟩ := supported_positional hP
  have hp := PosInv.reach PP h0 h
  have htell : (P.S.tell s.st).1 = logPos s.log := by rw [← hp.rp]; exact (PP.pos.tell hp.ok).1
  rw [← htell] at ht hpos hnear
  have hab := absolute_total ht ht0 (by simpa [two63] using ht1) (by simpa [two63] using hpos)
    (fun n hn => by simpa [two63] using hlen n hn) (c := c)
  simp only [step] at hf
  split at hf
  swap
  · simp at hf
  simp only [Option.some.injEq] at hf
  subst hf
  have hcl : c.normalize t.toNat = clamp c.contentLength t.toNat := rfl
  have hex : c.excessiveSeek (P.S.tell s.st).1 (c.normalize t.toNat) = false := by
    have hle : clamp c.contentLength t.toNat ≤ t.toNat := by
      unfold clamp; split <;> omega
    rw [hcl]
    unfold Cfg.excessiveSeek
    cases hc : c.capacity with
    | none => rfl
    | some cap =>
      have := hnear cap hc
      show decide (min _ _ < _) = false
      rw [decide_eq_false_iff_not]
      unfold two64
      omega
  rw [hcl] at hex
  simp [callSeek, hok, hab, hcl, hex]

example : ∃ s1 : Sys memStorage,
    step { demoCfg with capacity := some 4 } (init { demoCfg with capacity := some 4 } demoMem)
      (.seek (.start 5)) = some s1 ∧ s1.log = [.seekErr .invalidInput] ∧
    ∃ s2, step { demoCfg with capacity := some 4 } s1 (.seek (.start 4)) = some s2 ∧
      s2.rpc = .sDecide 4 :=
  ⟨_, rfl, rfl, _, rfl, rfl⟩

end SD
