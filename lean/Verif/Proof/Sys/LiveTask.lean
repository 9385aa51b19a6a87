import Verif.Proof.Sys.Live

/-!
# Calls return: the task
-/

set_option linter.unusedSimpArgs false
set_option linter.unusedVariables false

namespace SD

variable {S : Storage}

/-! ### The task gets back to waiting for the source -/

/-- How many steps the task takes, at most, before it waits for the source or for a read. -/
def SrcPc.rank : SrcPc → Nat
  | .wReq _ _ t => 16 * t.length + 7
  | .wWrite _ _ t bw => 16 * t.length + if bw = 0 then 6 else 12
  | .wAdd _ _ t bw => 16 * t.length + if bw = 0 then 5 else 11
  | .wChk _ _ t bw => 16 * t.length + if bw = 0 then 4 else 10
  | .wClr _ _ t bw => 16 * t.length + if bw = 0 then 3 else 9
  | .wNtf _ _ t bw => 16 * t.length + if bw = 0 then 2 else 8
  | .wWait _ _ t => 16 * t.length + 1
  | .pfWrite _ t => t.length + 6
  | .pfPost _ _ => 2
  | .wRep _ => 1
  | .seekMsg _ => 1
  | .fin => 8
  | .finSig => 7
  | .report => 6
  | .onFin _ _ => 5
  | .setFail => 4
  | .sigDone => 3
  | .tokCancel => 2
  | _ => 0

/-- What a stored permit is worth. -/
def SrcPc.worth : SrcPc → Nat
  | .wReq _ _ t | .wWrite _ _ t _ | .wAdd _ _ t _ | .wChk _ _ t _ | .wClr _ _ t _ | .wNtf _ _ t _
  | .wWait _ _ t => 16 * t.length + 20
  | _ => 0

def taskRank (s : Sys S) : Nat := s.spc.rank + if s.permit = true then s.spc.worth else 0

set_option maxHeartbeats 4000000 in
theorem src_rank {Q : Positional S} {c : Cfg} {s s' : Sys S} (hok : Q.Ok s.st) (ht : Tr c s .src s') :
    s'.spc.awaits = true ∨ taskRank s' < taskRank s := by
  have hw : ∀ t k st', S.write s.st (batch c t) = .ok (k, st') → k ≤ t.length := by
    intro t k st' h
    have := (Q.write hok h).2.1
    simp only [batch, List.length_take] at this
    omega
  have hd : ∀ (t : List Byte) k, (t.drop k).length = t.length - k := by simp
  cases ht
  all_goals grind [taskRank, SrcPc.awaits, SrcPc.rank, SrcPc.worth, roundPc, startPc]

/-- Only its own steps move the task, unless it waits for the source. -/
theorem spc_frame {c : Cfg} {s s' : Sys S} {a : Act} (ht : Tr c s a s') (h : s.spc.awaits = false)
    (ha : a ≠ .src) : s'.spc = s.spc := by
  cases ht <;> simp_all [SrcPc.awaits]

theorem permit_frame {c : Cfg} {s s' : Sys S} {a : Act} (ht : Tr c s a s') (h1 : a ≠ .src)
    (h2 : a ≠ .rdr) : s'.permit = s.permit := by
  cases ht <;> simp_all

theorem src_enabled {c : Cfg} {s : Sys S} (h1 : s.spc.awaits = false) (h2 : s.spc ≠ .ended)
    (h3 : s.spc ≠ .panicked) (h4 : ∀ p l t, s.spc = .wWait p l t → s.permit = true) :
    step c s .src ≠ none := by
  unfold step srcStep
  cases hp : s.spc <;> simp_all [SrcPc.awaits]
  all_goals (repeat' split) <;> simp_all

/-! ### A measure -/

open Classical in
/-- How many positions below a bound are not in a set. -/
noncomputable def gaps (P : Nat → Prop) : Nat → Nat
  | 0 => 0
  | n + 1 => gaps P n + if P n then 0 else 1

theorem gaps_le {P P' : Nat → Prop} (h : ∀ q, P q → P' q) (n : Nat) : gaps P' n ≤ gaps P n := by
  induction n with
  | zero => simp [gaps]
  | succ n ih =>
    unfold gaps
    have := h n
    by_cases h1 : P n
    · simp [h1, this h1]; exact ih
    · simp only [h1, if_false]
      split <;> omega

theorem gaps_lt {P P' : Nat → Prop} (h : ∀ q, P q → P' q) {n q : Nat} (hq : q < n) (h1 : ¬ P q) (h2 : P' q) :
    gaps P' n < gaps P n := by
  induction n with
  | zero => omega
  | succ n ih =>
    unfold gaps
    rcases Nat.lt_or_ge q n with h3 | h3
    · have := ih h3
      by_cases h4 : P n
      · simp [h4, h n h4]; exact this
      · simp only [h4, if_false]
        split <;> omega
    · obtain rfl : q = n := by omega
      have := gaps_le h q
      simp only [h1, h2, if_true, if_false]
      omega

/-- Where the next byte goes. -/
def place (s : Sys S) : Nat :=
  match s.spc.base, s.spc with
  | some p, _ => p
  | none, .seeking p _ => p
  | none, _ => S.wtell s.st

def SrcPc.gone : SrcPc → Bool
  | .finSig | .report | .onFin _ _ | .setFail | .sigDone | .tokCancel | .ended | .panicked => true
  | _ => false

/-- Seek messages and prefetches that are ahead. -/
def ahead (s : Sys S) : Nat :=
  (if s.seekQ.isSome then 4 else 0) +
    match s.spc with
    | .seekMsg _ => 3
    | .seeking _ _ => if s.pfDone then 0 else 2
    | _ => if s.pfDone then 0 else 1

/-- What is missing of the prefetch, or below the position waited for. -/
noncomputable def missing (c : Cfg) (w : Nat) (s : Sys S) : Nat :=
  if s.pfDone then gaps (RSet.Mem s.dl) w else s.pfStart + c.prefetchBytes - place s

open Classical in
/-- How far it is to the position waited for, if the task overwrites what was there before. -/
noncomputable def lag (w : Nat) (s : Sys S) : Nat :=
  if s.pfDone = true ∧ RSet.Mem s.dl (place s) ∧ s.spc.gone = false then w - place s else 0

/-- The measure of `s'` is smaller. -/
def Less (c : Cfg) (w : Nat) (s' s : Sys S) : Prop :=
  ahead s' < ahead s ∨ (ahead s' = ahead s ∧ (missing c w s' < missing c w s ∨
    (missing c w s' = missing c w s ∧ lag w s' < lag w s)))

def Same (c : Cfg) (w : Nat) (s' s : Sys S) : Prop :=
  ahead s' = ahead s ∧ missing c w s' = missing c w s ∧ lag w s' = lag w s

/-- A chunk is being handled that will make the measure smaller. -/
def Fresh (c : Cfg) (s : Sys S) : Prop :=
  s.spc.base ≠ none ∨ ∃ t, s.spc.pfTodo = some t ∧ (t ≠ [] ∨ s.pfStart + c.prefetchBytes ≤ S.wtell s.st)

theorem less_trans {c : Cfg} {w : Nat} {s1 s2 s3 : Sys S} (h : Less c w s1 s2)
    (h' : Less c w s2 s3 ∨ Same c w s2 s3) : Less c w s1 s3 := by
  unfold Less Same at *; omega

theorem less_trans' {c : Cfg} {w : Nat} {s1 s2 s3 : Sys S} (h : Less c w s1 s2 ∨ Same c w s1 s2)
    (h' : Less c w s2 s3) : Less c w s1 s3 := by
  unfold Less Same at *; omega

theorem less_wf (c : Cfg) (w : Nat) (r : Nat → Sys S) (i : Nat)
    (h : ∀ j, i ≤ j → ∃ k, j ≤ k ∧ Less c w (r k) (r j)) : False := by
  have key : ∀ a b d j, i ≤ j → ahead (r j) = a → missing c w (r j) = b → lag w (r j) = d → False := by
    intro a
    induction a using Nat.strongRecOn with
    | _ a iha =>
      intro b
      induction b using Nat.strongRecOn with
      | _ b ihb =>
        intro d
        induction d using Nat.strongRecOn with
        | _ d ihd =>
          intro j hj h1 h2 h3
          obtain ⟨k, hk, hl⟩ := h j hj
          rcases hl with hl | ⟨e1, hl | ⟨e2, hl⟩⟩
          · exact iha _ (by omega) _ _ k (by omega) rfl rfl rfl
          · exact ihb _ (by omega) _ k (by omega) (by omega) rfl rfl
          · exact ihd _ (by omega) k (by omega) (by omega) (by omega) rfl
  exact key _ _ _ i (Nat.le_refl _) rfl rfl rfl

theorem less_of_ahead {c : Cfg} {w : Nat} {s s' : Sys S} (h : ahead s' < ahead s) :
    (Less c w s' s ∨ Same c w s' s) ∧ (Fresh c s → Less c w s' s ∨ Fresh c s') :=
  ⟨Or.inl (Or.inl h), fun _ => Or.inl (Or.inl h)⟩

theorem less_of_le {c : Cfg} {w : Nat} {s s' : Sys S} (h1 : ahead s' ≤ ahead s)
    (h2 : missing c w s' ≤ missing c w s) (h3 : lag w s' ≤ lag w s) (h4 : Fresh c s → Fresh c s') :
    (Less c w s' s ∨ Same c w s' s) ∧ (Fresh c s → Less c w s' s ∨ Fresh c s') := by
  refine ⟨?_, fun h => Or.inr (h4 h)⟩
  unfold Less Same; omega

theorem lag_zero {w : Nat} {s : Sys S} (h : s.spc.gone = true) : lag w s = 0 := by
  simp [lag, h]

theorem lag_max {w : Nat} {s : Sys S} : lag w s ≤ w - place s := by
  unfold lag; split <;> omega

theorem lag_of {w : Nat} {s : Sys S} (h1 : s.pfDone = true) (h2 : RSet.Mem s.dl (place s))
    (h3 : s.spc.gone = false) : lag w s = w - place s := by
  unfold lag; rw [if_pos ⟨h1, h2, h3⟩]

theorem lag_le {w : Nat} {s s' : Sys S} (h : s'.pfDone = true → RSet.Mem s'.dl (place s') →
    s'.spc.gone = false → s.pfDone = true ∧ RSet.Mem s.dl (place s) ∧ s.spc.gone = false ∧
      w - place s' ≤ w - place s) : lag w s' ≤ lag w s := by
  by_cases h1 : s'.pfDone = true ∧ RSet.Mem s'.dl (place s') ∧ s'.spc.gone = false
  · obtain ⟨e1, e2, e3, e4⟩ := h h1.1 h1.2.1 h1.2.2
    rw [lag_of h1.1 h1.2.1 h1.2.2, lag_of e1 e2 e3]
    exact e4
  · unfold lag; rw [if_neg h1]; omega

theorem less_of_frame {c : Cfg} {w : Nat} {s s' : Sys S} (h1 : ahead s' ≤ ahead s)
    (h2 : s'.pfDone = s.pfDone) (h3 : s'.dl = s.dl) (h4 : s'.pfStart = s.pfStart)
    (h5 : place s' = place s) (h6 : s'.spc.gone = false → s.spc.gone = false) (h7 : Fresh c s → Fresh c s') :
    (Less c w s' s ∨ Same c w s' s) ∧ (Fresh c s → Less c w s' s ∨ Fresh c s') := by
  refine less_of_le h1 ?_ ?_ h7
  · unfold missing; rw [h2, h3, h4, h5]
  · refine lag_le fun e1 e2 e3 => ⟨h2 ▸ e1, ?_, h6 e3, by rw [h5]⟩
    rw [← h3, ← h5]; exact e2

set_option maxHeartbeats 4000000 in
/-- While the consumer sleeps for `w`, nothing makes the measure bigger, and a chunk makes
it smaller. -/
theorem less_step {Q : Positional S} {c : Cfg} {s s' : Sys S} {a : Act} {w : Nat} (hok : Q.Ok s.st)
    (hwf : RSet.WF s.dl) (h : Track s) (hw : s.rpc.asleep = some w) (hm : w ≠ two64 - 1)
    (hd : s.done = false) (hr : s.reached = false) (hd' : s'.done = false) (hr' : s'.reached = false)
    (hng : s'.spc.gone ≠ true) (ht : Tr c s a s') :
    (Less c w s' s ∨ Same c w s' s) ∧ (Fresh c s → Less c w s' s ∨ Fresh c s') := by
  obtain ⟨h1, h2, h3, h4, h5, h6, h7⟩ := h
  have h7 := h7 w (by revert hw; cases s.rpc <;> simp [RdrPc.asleep, RdrPc.waiting]) hm hd hr
  have hwr : ∀ t k st', S.write s.st (batch c t) = .ok (k, st') →
      S.wtell st' = S.wtell s.st + k ∧ k ≤ t.length := by
    intro t k st' h
    have := Q.write hok h
    refine ⟨this.2.2.2, ?_⟩
    have := this.2.1
    simp only [batch, List.length_take] at this
    omega
  have hmem : ∀ lo hi p, RSet.Mem (RSet.add s.dl lo hi) p ↔ RSet.Mem s.dl p ∨ (lo ≤ p ∧ p < hi) :=
    fun lo hi p => RSet.mem_add hwf lo hi p
  cases ht
  -- the consumer sleeps
  case wAdd pos0 len todo bw heq =>
    have hpf := (h4 pos0 (by simp [heq, SrcPc.base])).2
    have hge := gaps_le (fun q (hq : RSet.Mem s.dl q) => (hmem pos0 (S.wtell s.st) q).mpr (Or.inl hq)) w
    have hpl : place s = pos0 := by simp [place, heq, SrcPc.base]
    generalize hs' : ({ s with dl := RSet.add s.dl pos0 (S.wtell s.st), spc := .wChk pos0 len todo bw } : Sys S) = s'
    have hpl' : place s' = pos0 := by subst hs'; simp [place, SrcPc.base]
    have ha : ahead s' = ahead s := by subst hs'; simp [ahead, heq]
    have hmi : missing c w s = gaps (RSet.Mem s.dl) w := by simp [missing, hpf]
    have hmi' : missing c w s' = gaps (RSet.Mem (RSet.add s.dl pos0 (S.wtell s.st))) w := by
      subst hs'; simp [missing, hpf]
    refine ⟨?_, fun _ => Or.inr (Or.inl (by subst hs'; simp [SrcPc.base]))⟩
    have hl := lag_max (w := w) (s := s')
    by_cases hp : RSet.Mem s.dl pos0
    · have := lag_of (w := w) hpf (by rw [hpl]; exact hp) (by simp [heq, SrcPc.gone])
      unfold Less Same; omega
    · by_cases hp' : RSet.Mem (RSet.add s.dl pos0 (S.wtell s.st)) pos0
      · by_cases hlt : pos0 < w
        · have := gaps_lt (fun q (hq : RSet.Mem s.dl q) => (hmem pos0 (S.wtell s.st) q).mpr (Or.inl hq)) hlt hp hp'
          unfold Less Same; omega
        · unfold Less Same; omega
      · have : lag w s' ≤ lag w s := lag_le fun _ e _ => absurd (by rw [hpl'] at e; subst hs'; exact e) hp'
        unfold Less Same; omega
  case wChkMiss pos0 len todo bw heq hq =>
    have hpf := (h4 pos0 (by simp [heq, SrcPc.base])).2
    have hlt := hq w (h7 (by simp [heq, SrcPc.telling]))
    unfold roundPc
    split
    · refine less_of_frame ?_ rfl rfl rfl ?_ ?_ ?_
      all_goals simp [ahead, place, SrcPc.base, SrcPc.gone, Fresh, heq]
    · next hbw =>
      split
      · have e1 := h5 pos0 (by simp [heq, SrcPc.base]) (by simp [heq, SrcPc.wrote, hbw])
        have e2 := h6 pos0 (by simp [heq, SrcPc.base]) (by simp [heq, SrcPc.wrote, hbw])
          (by simp [heq, SrcPc.noted])
        have hpl : place s = pos0 := by simp [place, heq, SrcPc.base]
        have : Less c w { s with spc := .wRep len } s := by
          have := lag_of (w := w) hpf (by rw [hpl]; exact e2) (by simp [heq, SrcPc.gone])
          have hl := lag_max (w := w) (s := ({ s with spc := .wRep len } : Sys S))
          have hpl' : place ({ s with spc := .wRep len } : Sys S) = S.wtell s.st := by simp [place, SrcPc.base]
          refine Or.inr ⟨by simp [ahead, heq], Or.inr ⟨by simp [missing, hpf], ?_⟩⟩
          omega
        exact ⟨Or.inl this, fun _ => Or.inl this⟩
      · refine less_of_frame ?_ rfl rfl rfl ?_ ?_ ?_
        all_goals simp [ahead, place, SrcPc.base, SrcPc.gone, Fresh, heq]
  case wWriteErr pos0 len todo bw k heq hx => exact absurd rfl hng
  case pfWriteErr len todo k heq hx => exact absurd rfl hng
  case seekOkErr start stop pos k heq hx => exact absurd rfl hng
  case seekFail start stop k heq => exact absurd rfl hng
  case seekOkPanic start stop pos heq hx => exact absurd rfl hng
  case pfWritePanic => exact absurd rfl hng
  case wWritePanic => exact absurd rfl hng
  case wRepPanic => exact absurd rfl hng
  case seeCancel => exact absurd rfl hng
  case pfWriteMore len todo k st' heq hx hk =>
    have hpf := h3 todo (by simp [heq, SrcPc.pfTodo])
    obtain ⟨e1, e2⟩ := hwr _ _ _ hx
    by_cases hlt : S.wtell s.st < s.pfStart + c.prefetchBytes
    · have : Less c w { s with st := st', spc := .pfWrite len (todo.drop k)
                               log := .write (S.wtell s.st) (batch c todo) k :: s.log } s := by
        refine Or.inr ⟨by simp [ahead, heq], Or.inl ?_⟩
        simp [missing, place, heq, SrcPc.base, hpf, e1]
        omega
      exact ⟨Or.inl this, fun _ => Or.inl this⟩
    · refine less_of_le ?_ ?_ ?_ ?_
      · simp [ahead, heq]
      · simp [missing, hpf, place, heq, SrcPc.base, e1]; omega
      · simp [lag, hpf]
      · intro _
        exact Or.inr ⟨_, rfl, Or.inr (by simp only [e1]; omega)⟩
  case pfWriteEnd len todo st' heq hx =>
    obtain ⟨e1, e2⟩ := hwr _ _ _ hx
    refine less_of_frame ?_ rfl rfl rfl ?_ ?_ ?_
    all_goals simp [ahead, place, SrcPc.base, SrcPc.gone, Fresh, SrcPc.pfTodo, heq, e1]
  case pfPostMore len heq hlt =>
    have := less_of_frame (c := c) (w := w) (s := s)
      (s' := { s with spc := .sel
                      log := .progress (S.wtell s.st) (0, S.wtell s.st) (.prefetching len) :: s.log })
      (by simp [ahead, heq]) rfl rfl rfl (by simp [place, heq, SrcPc.base]) (by simp [heq, SrcPc.gone])
      (by simp [Fresh, heq, SrcPc.base, SrcPc.pfTodo]; omega)
    exact this
  case finGap n a b heq _ _ hg =>
    have hpf := h2 heq
    have hna : ¬ RSet.Mem s.dl a := (RSet.nextGap_some hwf hg).2.2.2.2.1 a (Nat.le_refl _)
      (RSet.nextGap_some hwf hg).2.1
    refine less_of_le ?_ ?_ ?_ ?_
    · simp [ahead, heq, hpf]
    · simp [missing, hpf]
    · exact lag_le fun _ e _ => absurd (by simpa [place, SrcPc.base] using e) hna
    · simp [Fresh, heq, SrcPc.base, SrcPc.pfTodo]
  case seekOk start stop pos st' heq hx =>
    have e1 := (Q.wseek hok hx).2.2
    refine less_of_frame ?_ rfl rfl rfl ?_ ?_ ?_
    · simp [ahead, heq]
      split <;> simp
    all_goals simp [place, SrcPc.base, SrcPc.gone, Fresh, SrcPc.pfTodo, heq, e1]
  case wWriteMore pos0 len todo bw k st' heq hx hk =>
    refine less_of_frame ?_ rfl rfl rfl ?_ ?_ ?_
    all_goals simp [ahead, place, SrcPc.base, SrcPc.gone, Fresh, SrcPc.pfTodo, heq]
  case wWriteEnd pos0 len todo bw st' heq hx =>
    refine less_of_frame ?_ rfl rfl rfl ?_ ?_ ?_
    all_goals simp [ahead, place, SrcPc.base, SrcPc.gone, Fresh, SrcPc.pfTodo, heq]
  all_goals try (exfalso; simp_all [RdrPc.asleep]; done)
  case seekIgnore p heq _ => exact less_of_ahead (by simp [ahead, heq]; split <;> omega)
  case seekRestart p n a b heq _ _ _ _ => exact less_of_ahead (by simp [ahead, heq])
  case seekRestartNone p n heq _ _ _ _ => exact less_of_ahead (by simp [ahead, heq])
  case seekRestartUnk p heq _ _ _ => exact less_of_ahead (by simp [ahead, heq])
  case seekAbort p n a b heq _ _ _ _ => exact less_of_ahead (by simp [ahead, heq])
  case seekAbortNone p n heq _ _ _ _ => exact less_of_ahead (by simp [ahead, heq])
  case seekAbortUnk p heq _ _ _ => exact less_of_ahead (by simp [ahead, heq])
  case pfPostDone len heq _ =>
    have := h3 [] (by simp [heq, SrcPc.pfTodo])
    exact less_of_ahead (by simp [ahead, heq, this])
  case pfPostPart len todo heq _ =>
    have := h3 todo (by simp [heq, SrcPc.pfTodo])
    exact less_of_ahead (by simp [ahead, heq, this])
  case recvSeek p heq hq => exact less_of_ahead (by simp [ahead, heq, hq]; omega)
  case eofPf heq hq => exact less_of_ahead (by simp [ahead, heq, hq])
  case chunkRem n r heq _ _ _ _ _ =>
    unfold startPc
    split <;> refine less_of_frame ?_ rfl rfl rfl ?_ ?_ ?_
    all_goals simp [ahead, place, SrcPc.base, SrcPc.gone, Fresh, SrcPc.pfTodo, heq]
  case chunk n heq _ _ _ _ _ =>
    unfold startPc
    split <;> refine less_of_frame ?_ rfl rfl rfl ?_ ?_ ?_
    all_goals simp [ahead, place, SrcPc.base, SrcPc.gone, Fresh, SrcPc.pfTodo, heq]
  case eofRem r heq _ _ =>
    unfold startPc
    split <;> refine less_of_frame ?_ rfl rfl rfl ?_ ?_ ?_
    all_goals simp [ahead, place, SrcPc.base, SrcPc.gone, Fresh, SrcPc.pfTodo, heq]
  all_goals refine less_of_frame ?_ rfl rfl rfl ?_ ?_ ?_
  all_goals simp_all [ahead, place, SrcPc.base, SrcPc.gone, Fresh, SrcPc.pfTodo]

theorem gone_step {c : Cfg} {s s' : Sys S} {a : Act} (ht : Tr c s a s') (h : s.spc.gone = true) :
    s'.spc.gone = true := by
  cases ht <;> simp_all [SrcPc.gone]

/-- A chunk that is not empty starts a write. -/
theorem fresh_chunk {c : Cfg} {s s' : Sys S} {n : Nat} (hn : 0 < n) (ht : Tr c s (.chunk n) s') : Fresh c s' := by
  have hne : slice c.remote s.tpos n ≠ [] := by
    intro h
    have := congrArg List.length h
    simp [slice] at this
    omega
  cases ht
  · exact Or.inr ⟨_, rfl, Or.inl hne⟩
  · refine Or.inl ?_
    simp [startPc, hne, SrcPc.base]
  · refine Or.inl ?_
    simp [startPc, hne, SrcPc.base]

section exec

variable {c : Cfg} {r : Nat → Sys S} {act : Nat → Option Act}

/-- A history in which the consumer sleeps for ever from time `i0` on. -/
structure Sleeps (r : Nat → Sys S) (i0 : Nat) (p : RdrPc) : Prop where
  here : ∀ j, i0 ≤ j → (r j).rpc = p ∧ (r j).done = false ∧ (r j).reached = false

theorem asleep_inCall {p : RdrPc} {w : Nat} (h : p.asleep = some w) : p.inCall = true := by
  revert h; cases p <;> simp [RdrPc.asleep, RdrPc.inCall, RdrPc.inReadCall]

theorem asleep_no_rdr {s s' : Sys S} {w : Nat} (h : s.rpc.asleep = some w) (h1 : s.done = false)
    (h2 : s.reached = false) : ¬ step c s .rdr = some s' := by
  unfold step rdrStep
  revert h
  cases s.rpc <;> simp [RdrPc.asleep, h1, h2]

theorem awaits_again {Q : Positional S} {s0 : Sys S} (he : Exec c s0 r act) (hf : Fair c r act .src)
    (hok : ∀ j, Q.Ok (r j).st) (htr : ∀ j, Track (r j)) {i0 : Nat} {p : RdrPc} {w : Nat}
    (hp : p.asleep = some w) (hs : Sleeps r i0 p) (hpan : ∀ j, (r j).spc ≠ .panicked)
    (hnp : ∀ j, i0 ≤ j → ∀ pos l t, (r j).spc = .wWait pos l t → (r j).permit = true) :
    ∀ n i, i0 ≤ i → taskRank (r i) ≤ n → ∃ j, i ≤ j ∧ (r j).spc.awaits = true := by
  intro n
  induction n using Nat.strongRecOn with
  | _ n ih =>
    intro i hi hn
    by_cases haw : (r i).spc.awaits = true
    · exact ⟨i, Nat.le_refl _, haw⟩
    have haw : (r i).spc.awaits = false := by simpa using haw
    have hen : ∀ j, i0 ≤ j → (r j).spc = (r i).spc → step c (r j) .src ≠ none := by
      intro j hj hsp
      refine src_enabled (by rw [hsp]; exact haw) ?_ (hpan j) (hnp j hj)
      intro h
      have := (htr j).late (by rw [h]; rfl)
      rw [(hs.here j hj).2.1] at this
      cases this
    obtain ⟨j, hj, ⟨hsp, hpm⟩, ha⟩ := hf.next (i := i)
      (Q := fun j => (r j).spc = (r i).spc ∧ (r j).permit = (r i).permit) ⟨rfl, rfl⟩
      (fun j hj hq ha => by
        cases hact : act j with
        | none => rw [he.pause j hact]; exact hq
        | some a =>
          have hst := he.next j a hact
          have ht := tr_of_step hst
          have h1 : a ≠ .src := fun e => ha (by rw [hact, e])
          have h2 : a ≠ .rdr := by
            intro e
            subst e
            obtain ⟨e1, e2, e3⟩ := hs.here j (by omega)
            exact asleep_no_rdr (by rw [e1]; exact hp) e2 e3 hst
          exact ⟨(spc_frame ht (by rw [hq.1]; exact haw) h1).trans hq.1, (permit_frame ht h1 h2).trans hq.2⟩)
      (fun j hj hq => hen j (by omega) hq.1)
    rcases src_rank (hok j) (tr_of_step (he.next j _ ha)) with h | h
    · exact ⟨j + 1, by omega, h⟩
    · have : taskRank (r j) = taskRank (r i) := by unfold taskRank; rw [hsp, hpm]
      obtain ⟨k, hk, h'⟩ := ih (taskRank (r (j + 1))) (by omega) (j + 1) (by omega) (Nat.le_refl _)
      exact ⟨k, by omega, h'⟩

/-- A consumer does not sleep for ever if the transport keeps delivering. -/
theorem no_sleep {Q : Positional S} {s0 : Sys S} (he : Exec c s0 r act) (hf : Fair c r act .src)
    (hk : KeepsDelivering r act)
    (hok : ∀ j, Q.Ok (r j).st) (hwf : ∀ j, RSet.WF (r j).dl) (htr : ∀ j, Track (r j)) {i0 : Nat}
    {p : RdrPc} {w : Nat} (hp : p.asleep = some w) (hw : w ≠ two64 - 1) (hs : Sleeps r i0 p)
    (hpan : ∀ j, (r j).spc ≠ .panicked)
    (hnp : ∀ j, i0 ≤ j → ∀ pos l t, (r j).spc = .wWait pos l t → (r j).permit = true) : False := by
  have haw : ∀ i, i0 ≤ i → ∃ j, i ≤ j ∧ (r j).spc.awaits = true := fun i hi =>
    awaits_again he hf hok htr hp hs hpan hnp _ i hi (Nat.le_refl _)
  have hgone : ∀ i, i0 ≤ i → (r i).spc.gone ≠ true := by
    intro i hi hg
    obtain ⟨j, hj, ha⟩ := haw i hi
    have : ∀ d, (r (i + d)).spc.gone = true := by
      intro d
      induction d with
      | zero => exact hg
      | succ d ih =>
        cases hact : act (i + d) with
        | none => rw [← Nat.add_assoc, he.pause _ hact]; exact ih
        | some a => exact gone_step (tr_of_step (he.next _ a hact)) ih
    have := this (j - i)
    rw [Nat.add_sub_cancel' hj] at this
    revert ha this
    cases (r j).spc <;> simp [SrcPc.awaits, SrcPc.gone]
  have hstep : ∀ j, i0 ≤ j → (Less c w (r (j + 1)) (r j) ∨ Same c w (r (j + 1)) (r j)) ∧
      (Fresh c (r j) → Less c w (r (j + 1)) (r j) ∨ Fresh c (r (j + 1))) := by
    intro j hj
    cases hact : act j with
    | none =>
      rw [he.pause j hact]
      exact ⟨Or.inr ⟨rfl, rfl, rfl⟩, Or.inr⟩
    | some a =>
      obtain ⟨e1, e2, e3⟩ := hs.here j hj
      obtain ⟨-, e2', e3'⟩ := hs.here (j + 1) (by omega)
      exact less_step (hok j) (hwf j) (htr j) (by rw [e1]; exact hp) hw e2 e3 e2' e3' (hgone (j + 1) (by omega))
        (tr_of_step (he.next j a hact))
  have hmono : ∀ i d, i0 ≤ i → (Less c w (r (i + d)) (r i) ∨ Same c w (r (i + d)) (r i)) := by
    intro i d hi
    induction d with
    | zero => exact Or.inr ⟨rfl, rfl, rfl⟩
    | succ d ih =>
      have := (hstep (i + d) (by omega)).1
      unfold Less Same at *
      rw [← Nat.add_assoc]
      omega
  have hfresh : ∀ i d, i0 ≤ i → Fresh c (r i) → (Less c w (r (i + d)) (r i) ∨ Fresh c (r (i + d))) := by
    intro i d hi hfr
    induction d with
    | zero => exact Or.inr hfr
    | succ d ih =>
      obtain ⟨h1, h2⟩ := hstep (i + d) (by omega)
      rcases ih with h | h
      · exact Or.inl (less_trans' h1 h)
      · rcases h2 h with h' | h'
        · exact Or.inl (less_trans h' (hmono i d hi))
        · exact Or.inr h'
  have hkd := hk fun i => by
    obtain ⟨j, hj, h⟩ := haw (max i i0) (by omega)
    exact ⟨j, by omega, h⟩
  refine less_wf c w r i0 fun j hj => ?_
  obtain ⟨k, n, hk', hn, ha⟩ := hkd j
  have hfr := fresh_chunk hn (tr_of_step (he.next k _ ha))
  obtain ⟨m, hm, haw'⟩ := haw (k + 1) (by omega)
  have h1 := hfresh (k + 1) (m - (k + 1)) (by omega) hfr
  rw [Nat.add_sub_cancel' hm] at h1
  have h2 := hmono j (k + 1 - j) hj
  rw [Nat.add_sub_cancel' (by omega)] at h2
  refine ⟨m, by omega, ?_⟩
  rcases h1 with h1 | h1
  · exact less_trans h1 h2
  · exfalso
    revert haw' h1
    unfold Fresh
    cases (r m).spc <;> simp [SrcPc.awaits, SrcPc.base, SrcPc.pfTodo]

end exec

/-- A history that satisfies a restriction. -/
theorem Exec.reachG {S : Storage} {c : Cfg} {s0 : Sys S} {r : Nat → Sys S} {act : Nat → Option Act}
    (h : Exec c s0 r act) {G : Sys S → Act → Prop} (hG : ∀ i a, act i = some a → G (r i) a) (i : Nat) :
    Reach c G s0 (r i) := by
  induction i with
  | zero => rw [h.start]; exact .refl
  | succ i ih =>
    cases ha : act i with
    | none => rw [h.pause i ha]; exact ih
    | some a => exact .step ih (hG i a ha) (h.next i a ha)

end SD
