import Verif.Proof.Sys.Finish
import Verif.Spec.Requests

/-!
# How often the source is asked for a range

What is missing falls into gaps.  A seek of the consumer opens at most one new gap, and a request
that is answered in full closes one.
-/

set_option linter.unusedSimpArgs false
set_option linter.unusedVariables false

namespace SD

variable {S : Storage}

theorem gaps_none (n : Nat) : gaps (fun _ => True) n = 0 := by
  induction n with
  | zero => rfl
  | succ n ih => simp [gaps, ih]

theorem gaps_succ {P P' : Nat → Prop} (x : Nat) (h : ∀ q, q ≠ x → P q → P' q) (n : Nat) :
    gaps P' n ≤ gaps P n + 1 := by
  have h1 : gaps (fun q => P' q ∨ q = x) n ≤ gaps P n :=
    gaps_le (fun q hq => by
      by_cases e : q = x
      · exact Or.inr e
      · exact Or.inl (h q e hq)) n
  have h2 : gaps P' n ≤ gaps (fun q => P' q ∨ q = x) n + (if x < n then 1 else 0) := by
    clear h1 h
    induction n with
    | zero => simp [gaps]
    | succ n ih =>
      unfold gaps
      by_cases e : n = x
      · subst e
        have : gaps P' n ≤ gaps (fun q => P' q ∨ q = n) n := by simpa using ih
        have e2 : n < n + 1 := by omega
        rw [if_pos e2, if_pos (Or.inr rfl)]
        split <;> omega
      · have e2 : (x < n + 1) ↔ (x < n) := by omega
        have e3 : (if x < n + 1 then 1 else 0) = if x < n then 1 else 0 := by simp only [e2]
        rw [e3]
        by_cases hp : P' n
        · rw [if_pos hp, if_pos (Or.inl hp)]; omega
        · rw [if_neg hp, if_neg (by simp [hp, e])]; omega
  have h3 : (if x < n then 1 else 0) ≤ 1 := by split <;> omega
  omega

/-- The positions that are downloaded, counting what the prefetch and the current `write` have
stored. -/
def got (s : Sys S) (q : Nat) : Prop :=
  RSet.Mem s.dl q ∨ (s.pfDone = false ∧ s.pfStart ≤ q ∧ q < wnext s) ∨
    ∃ p, s.spc.base = some p ∧ p ≤ q ∧ q < wnext s

/-- A gap starts at `q`, and it is not the one that is being filled. -/
def opens (D : Nat → Prop) (w q : Nat) : Prop := ¬ D q ∧ q ≠ w ∧ (q = 0 ∨ D (q - 1))

/-- How many gaps there are besides the one that is being filled. -/
noncomputable def openGaps (n : Nat) (D : Nat → Prop) (w : Nat) : Nat := gaps (fun q => ¬ (opens D w q ∧ q < n)) n

/-- The writer stands where a gap starts. -/
def hungry (n : Nat) (s : Sys S) : Prop :=
  ¬ got s (wnext s) ∧ wnext s < n ∧ (wnext s = 0 ∨ got s (wnext s - 1))

open Classical in
/-- One if it holds. -/
noncomputable def flag (P : Prop) : Nat := if P then 1 else 0

theorem flag_pos {P : Prop} (h : P) : flag P = 1 := by simp [flag, h]

theorem flag_neg {P : Prop} (h : ¬ P) : flag P = 0 := by simp [flag, h]

theorem flag_le (P : Prop) : flag P ≤ 1 := by
  unfold flag; split
  · exact Nat.le_refl _
  · exact Nat.zero_le _

theorem flag_mono {P Q : Prop} (h : P → Q) : flag P ≤ flag Q := by
  by_cases hp : P
  · rw [flag_pos hp, flag_pos (h hp)]
  · rw [flag_neg hp]; exact Nat.zero_le _

/-- Nothing was asked for that comes next. -/
def stray (n : Nat) (s : Sys S) : Prop := s.spc ≠ .fin ∧ hungry n s ∧ ∃ b, vlim s = some b ∧ b < wnext s

/-- Requests for gaps that may still be made without a seek and without a connection that breaks
off. -/
noncomputable def debt (n : Nat) (s : Sys S) : Nat :=
  if s.spc.active = true then
    openGaps n (got s) (wnext s) + flag (s.spc = .fin ∧ hungry n s) + flag (stray n s)
  else 0

theorem openGaps_congr {n : Nat} {D D' : Nat → Prop} {w : Nat} (h : ∀ q, D' q ↔ D q) :
    openGaps n D' w = openGaps n D w := by
  have : D' = D := funext fun q => propext (h q)
  rw [this]

theorem openGaps_write {n : Nat} {D D' : Nat → Prop} {w k : Nat}
    (h : ∀ q, D' q ↔ D q ∨ (w ≤ q ∧ q < w + k)) : openGaps n D' (w + k) ≤ openGaps n D w := by
  unfold openGaps
  refine gaps_le (fun q hq hop => hq ⟨?_, hop.2⟩) n
  obtain ⟨⟨h1, h2, h3⟩, -⟩ := hop
  simp only [h] at h1 h3
  refine ⟨fun h => h1 (.inl h), ?_, ?_⟩
  · intro e
    rcases Nat.eq_zero_or_pos k with e0 | e0
    · omega
    · exact h1 (.inr (by omega))
  · rcases h3 with h3 | h3 | h3
    · exact .inl h3
    · exact .inr h3
    · exact absurd (.inr (by omega)) h1

theorem openGaps_move {n : Nat} {D : Nat → Prop} {w w' : Nat} :
    openGaps n D w' ≤ openGaps n D w + 1 := by
  unfold openGaps
  refine gaps_succ w (fun q hq hop h => hop ?_) n
  exact ⟨⟨h.1.1, hq, h.1.2.2⟩, h.2⟩

theorem openGaps_fill {n : Nat} {D : Nat → Prop} {w a : Nat} (hw : ¬ (¬ D w ∧ w < n ∧ (w = 0 ∨ D (w - 1))))
    (ha : a < n) (h1 : ¬ D a) (h2 : a = 0 ∨ D (a - 1)) : openGaps n D a + 1 ≤ openGaps n D w := by
  have hne : a ≠ w := by
    rintro rfl
    exact hw ⟨h1, ha, h2⟩
  have hsub : ∀ q, ¬ (opens D w q ∧ q < n) → ¬ (opens D a q ∧ q < n) := by
    intro q hq hop
    apply hq
    obtain ⟨⟨o1, o2, o3⟩, o4⟩ := hop
    refine ⟨⟨o1, fun e => ?_, o3⟩, o4⟩
    subst e
    exact hw ⟨o1, o4, o3⟩
  have hin : ¬ ¬ (opens D w a ∧ a < n) := fun h => h ⟨⟨h1, hne, h2⟩, ha⟩
  have hout : ¬ (opens D a a ∧ a < n) := fun h => h.1.2.1 rfl
  exact gaps_lt hsub ha hin hout

/-- What the range that is being downloaded has to do with what is missing. -/
structure Aim (n : Nat) (s : Sys S) : Prop where
  pf : s.pfDone = false → s.spc.active = true → ∀ q, wnext s ≤ q → q < s.pfStart → RSet.Mem s.dl q
  lim : s.spc.active = true → ∀ b, vlim s = some b → got s b ∨ n ≤ b
  inside : s.spc.live = true → ∀ b, s.tlim = some b → s.tpos ≤ b ∨ s.spc.pend = []

/-- How far the step has moved the writer by writing. -/
def adv (s s' : Sys S) : Nat :=
  match s.spc with
  | .pfWrite _ _ | .wWrite _ _ _ _ => S.wtell s'.st - S.wtell s.st
  | _ => 0

set_option maxHeartbeats 4000000 in
theorem got_step {c : Cfg} {L : Lawful S true} {W : Finset Nat} {s s' : Sys S}
    {a : Act} (hF : Full c L W s) (hN : Noted s) (hT : Track s)
    (hA : s.pfDone = false → s.spc.active = true → ∀ q, wnext s ≤ q → q < s.pfStart → RSet.Mem s.dl q)
    (hact : s'.spc.active = true) (ht : Tr c s a s') (q : Nat) :
    got s' q ↔ got s q ∨ (wnext s ≤ q ∧ q < wnext s + adv s s') := by
  cases ha : a.isRdr
  case true =>
    obtain ⟨f, -, -⟩ := rdr_frame L ha ht hF.src.inv hF.rdr.clean
    have h1 : wnext s' = wnext s := by unfold wnext; rw [f.spc, f.wtell]
    have h2 : adv s s' = 0 := by unfold adv; split <;> simp [f.wtell]
    unfold got
    rw [f.dl, f.pfDone, f.pfStart, f.spc, h1, h2]
    grind
  obtain ⟨i1, i2, i3, i4, i5, i6, i7, i8, i9, i10, i11, i12⟩ := hF.src
  obtain ⟨t1, t2, t3, t4, t5, t6, t7⟩ := hT
  have hmem : ∀ lo hi p, RSet.Mem (RSet.add s.dl lo hi) p ↔ RSet.Mem s.dl p ∨ (lo ≤ p ∧ p < hi) :=
    fun lo hi p => RSet.mem_add i2 lo hi p
  cases ht
  case seekRestart p n a b heq hs hpf hcn hg =>
    obtain ⟨g1, g2, g3, g4, g5, g6⟩ := RSet.nextGap_some i2 hg
    simp only [got, wnext, adv, heq, SrcPc.base, hpf]
    have := g4 q
    grind
  case seekRestartNone p n heq hs hpf hcn hg =>
    have g := RSet.nextGap_none hg q
    obtain ⟨-, b2, -⟩ := i12 n hcn
    have b3 := b2 (by simp [heq, SrcPc.active, SrcPc.live])
    simp only [got, wnext, adv, heq, SrcPc.base, hpf] at b3 ⊢
    grind
  case pfWriteMore len todo k st' heq hw hk =>
    obtain ⟨w1, -, -, -, w2, -⟩ := L.write_ok i1 hw
    have := i9 (by rw [heq]; rfl)
    have hA := hA this (by rw [heq]; rfl) q
    simp only [got, wnext, adv, heq, SrcPc.base, w2, this] at hA ⊢
    grind
  case pfWriteEnd len todo st' heq hw =>
    obtain ⟨w1, -, -, -, w2, -⟩ := L.write_ok i1 hw
    simp only [got, wnext, adv, heq, SrcPc.base, w2]
    grind
  case wWriteMore pos0 len todo bw k st' heq hw hk =>
    obtain ⟨w1, -, -, -, w2, -⟩ := L.write_ok i1 hw
    have := t4 pos0 (by rw [heq]; rfl)
    simp only [got, wnext, adv, heq, SrcPc.base, w2]
    grind
  case wWriteEnd pos0 len todo bw st' heq hw =>
    obtain ⟨w1, -, -, -, w2, -⟩ := L.write_ok i1 hw
    simp only [got, wnext, adv, heq, SrcPc.base, w2]
    grind
  case seekOk start stop pos st' heq hw =>
    obtain ⟨-, -, -, w2, -⟩ := L.wseek_ok i1 (.inl rfl) hw
    simp only [got, wnext, adv, heq, SrcPc.base, w2]
    grind
  case wChkMiss pos0 len todo bw heq hq =>
    obtain ⟨rfl, hbw⟩ : todo = [] ∧ bw ≠ 0 := by simpa [heq, SrcPc.fullOk] using i10
    have hn := hN pos0 (by simp [heq, SrcPc.base]) (by simp [heq, SrcPc.noted])
    simp only [got, wnext, adv, heq, SrcPc.base, roundPc, hbw, if_false, if_true]
    grind
  case wNtf pos0 len todo bw heq =>
    obtain ⟨rfl, hbw⟩ : todo = [] ∧ bw ≠ 0 := by simpa [heq, SrcPc.fullOk] using i10
    have hn := hN pos0 (by simp [heq, SrcPc.base]) (by simp [heq, SrcPc.noted])
    simp only [got, wnext, adv, heq, SrcPc.base, roundPc, hbw, if_false, if_true]
    grind
  case chunk n heq h1 h2 h3 hpf hr =>
    simp only [got, wnext, adv, heq, startPc]
    split <;> simp [SrcPc.base, hpf] <;> grind
  case pfPostDone len heq hp =>
    have := i9 (by rw [heq]; rfl)
    simp only [got, wnext, adv, heq, SrcPc.base, hmem]
    grind
  case pfPostPart len todo heq hp =>
    exact absurd (by simpa [heq, SrcPc.fullOk] using i10) hp
  all_goals first
    | (simp [Act.isRdr] at ha; done)
    | (simp [SrcPc.active, SrcPc.live] at hact; done)
    | (simp only [got, wnext, adv, SrcPc.base, *]; grind)

/-- The task handles a seek, or looks for a gap. -/
def SrcPc.turns : SrcPc → Bool
  | .seekMsg _ | .fin => true
  | _ => false

set_option maxHeartbeats 4000000 in
theorem wnext_step {c : Cfg} {L : Lawful S true} {W : Finset Nat} {s s' : Sys S}
    {a : Act} (hF : Full c L W s) (hact : s'.spc.active = true) (ht : Tr c s a s') :
    (s.spc.turns = true ∧ a = .src) ∨ wnext s' = wnext s + adv s s' := by
  cases ha : a.isRdr
  case true =>
    obtain ⟨f, -, -⟩ := rdr_frame L ha ht hF.src.inv hF.rdr.clean
    have h1 : wnext s' = wnext s := by unfold wnext; rw [f.spc, f.wtell]
    have h2 : adv s s' = 0 := by unfold adv; split <;> simp [f.wtell]
    exact .inr (by omega)
  have i1 := hF.src.inv
  cases ht
  case pfWriteMore len todo k st' heq hw hk =>
    obtain ⟨w1, -, -, -, w2, -⟩ := L.write_ok i1 hw
    simp [wnext, adv, heq, w2]
  case pfWriteEnd len todo st' heq hw =>
    obtain ⟨w1, -, -, -, w2, -⟩ := L.write_ok i1 hw
    simp [wnext, adv, heq, w2]
  case wWriteMore pos0 len todo bw k st' heq hw hk =>
    obtain ⟨w1, -, -, -, w2, -⟩ := L.write_ok i1 hw
    simp [wnext, adv, heq, w2]
  case wWriteEnd pos0 len todo bw st' heq hw =>
    obtain ⟨w1, -, -, -, w2, -⟩ := L.write_ok i1 hw
    simp [wnext, adv, heq, w2]
  case seekOk start stop pos st' heq hw =>
    obtain ⟨-, -, -, w2, -⟩ := L.wseek_ok i1 (.inl rfl) hw
    simp [wnext, adv, heq, w2]
  case wChkMiss pos0 len todo bw heq hq =>
    obtain ⟨rfl, hbw⟩ : todo = [] ∧ bw ≠ 0 := by simpa [heq, SrcPc.fullOk] using hF.src.ok
    simp [wnext, adv, heq, roundPc, hbw]
  case wNtf pos0 len todo bw heq =>
    obtain ⟨rfl, hbw⟩ : todo = [] ∧ bw ≠ 0 := by simpa [heq, SrcPc.fullOk] using hF.src.ok
    simp [wnext, adv, heq, roundPc, hbw]
  case chunk n heq h1 h2 h3 hpf hr =>
    by_cases e : slice c.remote s.tpos n = [] <;> simp [wnext, adv, heq, startPc, e]
  case chunkRem n r heq h1 h2 h3 hpf hr => rw [hF.src.rem] at hr; cases hr
  case eofRem r heq hpf hr => rw [hF.src.rem] at hr; cases hr
  all_goals first
    | (simp [Act.isRdr] at ha; done)
    | (simp [SrcPc.active, SrcPc.live] at hact; done)
    | (left; simp only [SrcPc.turns, *]; done)
    | (right; simp only [wnext, adv, Nat.add_zero, *]; done)
    | (left; simp [SrcPc.turns, *]; done)

/-- Writing uses up what is pending. -/
theorem adv_pend {c : Cfg} {L : Lawful S true} {W : Finset Nat} {s s' : Sys S}
    {a : Act} (hF : Full c L W s) (ht : Tr c s a s') : adv s s' ≤ s.spc.pend.length := by
  cases ha : a.isRdr
  case true =>
    obtain ⟨f, -, -⟩ := rdr_frame L ha ht hF.src.inv hF.rdr.clean
    have h2 : adv s s' = 0 := by unfold adv; split <;> simp [f.wtell]
    omega
  have i1 := hF.src.inv
  have hwr : ∀ t k st', S.write s.st (batch c t) = .ok (k, st') → S.wtell st' = S.wtell s.st + k ∧ k ≤ t.length := by
    intro t k st' hw
    obtain ⟨w1, -, -, -, w2, -⟩ := L.write_ok i1 hw
    simp only [batch, List.length_take] at w1
    exact ⟨w2, by omega⟩
  cases ht
  all_goals first
    | (simp [Act.isRdr] at ha; done)
    | (simp only [adv, *]; exact Nat.zero_le _)
    | (have := hwr _ _ _ ‹_›; simp only [adv, SrcPc.pend, *]; omega)
    | (simp only [adv, SrcPc.pend, *]; omega)

set_option maxHeartbeats 4000000 in
theorem lim_step {c : Cfg} {L : Lawful S true} {W : Finset Nat} {n : Nat} (hn : c.contentLength = some n)
    {s s' : Sys S} {a : Act} (hF : Full c L W s) (hact : s'.spc.active = true) (ht : Tr c s a s') :
    (vlim s' = vlim s) ∨ vlim s' = none ∨
      (s.spc.turns = true ∧ a = .src ∧ ∃ b, vlim s' = some b ∧ (b = n ∨ RSet.Mem s'.dl b)) := by
  cases ha : a.isRdr
  case true =>
    obtain ⟨f, -, -⟩ := rdr_frame L ha ht hF.src.inv hF.rdr.clean
    left; unfold vlim; rw [f.spc, f.tlim]
  have wf := hF.src.wf
  cases ht
  case seekRestart p n' a b heq hs hpf hcn hg =>
    obtain ⟨g1, g2, g3, g4, g5, g6⟩ := RSet.nextGap_some wf hg
    obtain rfl : n' = n := by rw [hcn] at hn; exact Option.some.inj hn
    exact .inr (.inr ⟨by simp [heq, SrcPc.turns], rfl, b, by simp [vlim], g6⟩)
  case seekAbort p n' a b heq hs hpf hcn hg =>
    obtain ⟨g1, g2, g3, g4, g5, g6⟩ := RSet.nextGap_some (RSet.wf_add wf _ _) hg
    obtain rfl : n' = n := by rw [hcn] at hn; exact Option.some.inj hn
    exact .inr (.inr ⟨by simp [heq, SrcPc.turns], rfl, b, by simp [vlim], g6⟩)
  case finGap n' a b heq hs hcn hg =>
    obtain ⟨g1, g2, g3, g4, g5, g6⟩ := RSet.nextGap_some wf hg
    obtain rfl : n' = n := by rw [hcn] at hn; exact Option.some.inj hn
    exact .inr (.inr ⟨by simp [heq, SrcPc.turns], rfl, b, by simp [vlim], g6⟩)
  case chunk m heq h1 h2 h3 hpf hr =>
    by_cases e : slice c.remote s.tpos m = [] <;> simp [vlim, heq, startPc, e]
  case chunkRem n r heq h1 h2 h3 hpf hr => rw [hF.src.rem] at hr; cases hr
  case eofRem r heq hpf hr => rw [hF.src.rem] at hr; cases hr
  case wChkMiss pos0 len todo bw heq hq =>
    obtain ⟨rfl, hbw⟩ : todo = [] ∧ bw ≠ 0 := by simpa [heq, SrcPc.fullOk] using hF.src.ok
    simp [vlim, heq, roundPc, hbw]
  case wNtf pos0 len todo bw heq =>
    obtain ⟨rfl, hbw⟩ : todo = [] ∧ bw ≠ 0 := by simpa [heq, SrcPc.fullOk] using hF.src.ok
    simp [vlim, heq, roundPc, hbw]
  case seekOk start stop pos st' heq hx => by_cases e : pos = start <;> simp [vlim, heq, e]
  all_goals first
    | (simp [Act.isRdr] at ha; done)
    | (simp [SrcPc.active, SrcPc.live] at hact; done)
    | (left; simp only [vlim, *]; done)
    | (right; left; simp only [vlim, *]; done)

theorem active_back {c : Cfg} {s s' : Sys S} {a : Act} (h : s'.spc.active = true) (ht : Tr c s a s') :
    s.spc.active = true := by
  cases ht
  all_goals first
    | (simp only [SrcPc.active, SrcPc.live, *]; done)
    | (simp [SrcPc.active, SrcPc.live] at h; done)
    | exact h

set_option maxHeartbeats 4000000 in
theorem pf_stays {c : Cfg} {L : Lawful S true} {W : Finset Nat} {s s' : Sys S} {a : Act} (hF : Full c L W s)
    (hpf : s'.pfDone = false) (ht : Tr c s a s') (hn : s.spc.turns = true → a ≠ .src) :
    s.pfDone = false ∧ s'.pfStart = s.pfStart ∧ ∀ q, RSet.Mem s.dl q → RSet.Mem s'.dl q := by
  have hmem : ∀ lo hi p, RSet.Mem (RSet.add s.dl lo hi) p ↔ RSet.Mem s.dl p ∨ (lo ≤ p ∧ p < hi) :=
    fun lo hi p => RSet.mem_add hF.src.wf lo hi p
  cases ht
  case wAdd pos0 len todo bw heq =>
    exact ⟨hpf, rfl, fun q h => (hmem _ _ q).mpr (.inl h)⟩
  all_goals first
    | (simp [SrcPc.turns, *] at hn; done)
    | exact ⟨hpf, rfl, fun _ h => h⟩
    | (simp at hpf; done)

set_option maxHeartbeats 4000000 in
theorem Aim.step {c : Cfg} {L : Lawful S true} {W : Finset Nat} {n : Nat} (hn : c.contentLength = some n)
    {s s' : Sys S} {a : Act} (hF : Full c L W s) (hN : Noted s) (hT : Track s) (h : Aim n s)
    (ht : Tr c s a s') : Aim n s' := by
  obtain ⟨h1, h2, h3⟩ := h
  refine ⟨?_, ?_, ?_⟩
  · intro hpf hact
    have hb := active_back hact ht
    by_cases htn : s.spc.turns = true ∧ a = .src
    · obtain ⟨k1, rfl⟩ := htn
      obtain ⟨-, -, i12, -⟩ := hF.src.bnd n hn
      cases ht
      case seekIgnore p heq hs =>
        intro q q1 q2
        exact h1 hpf hb q (by simpa only [wnext, heq] using q1) q2
      case seekRestart p n' a b heq hs hpf' hcn hg =>
        intro q q1 q2
        simp only [wnext] at q1 q2
        omega
      case seekRestartUnk p heq hs hpf' hcn => rw [hcn] at hn; cases hn
      case seekRestartNone p n' heq hs hpf' hcn hg =>
        intro q q1 q2
        have := i12 p heq
        obtain rfl : n' = n := by rw [hcn] at hn; exact Option.some.inj hn
        simp only [wnext] at q1 q2
        exact RSet.nextGap_none hg q (by omega) (by omega)
      case finGap n' a b heq hs hcn hg => rw [hT.fin heq] at hpf; cases hpf
      all_goals first
        | (simp at hpf; done)
        | (simp only [SrcPc.turns, *] at k1; cases k1; done)
        | (simp [SrcPc.active, SrcPc.live] at hact; done)
    · rcases wnext_step hF hact ht with e | e
      · exact absurd e htn
      obtain ⟨k1, k2, k3⟩ := pf_stays hF hpf ht (fun e1 e2 => htn ⟨e1, e2⟩)
      intro q q1 q2
      exact k3 q (h1 k1 hb q (by omega) (by omega))
  · intro hact b hb
    have hg := fun q => got_step hF hN hT h1 hact ht q
    rcases lim_step hn hF hact ht with e | e | ⟨-, -, b', e1, e2⟩
    · rw [e] at hb
      rcases h2 (active_back hact ht) b hb with h | h
      · exact .inl ((hg b).mpr (.inl h))
      · exact .inr h
    · rw [e] at hb; cases hb
    · rw [e1] at hb; cases hb
      rcases e2 with e2 | e2
      · exact .inr (by omega)
      · exact .inl (.inl e2)
  · intro hl b hb
    cases ha : a.isRdr
    case true =>
      obtain ⟨f, -, -⟩ := rdr_frame L ha ht hF.src.inv hF.rdr.clean
      rw [f.tpos, f.spc]
      exact h3 (by rw [← f.spc]; exact hl) b (by rw [← f.tlim]; exact hb)
    cases ht
    case chunk m heq k1 k2 k3 hpf hr => left; simp only at hb; rw [hb] at k2; simpa [leOpt] using k2
    case chunkPf m heq k1 k2 k3 hpf => left; simp only at hb; rw [hb] at k2; simpa [leOpt] using k2
    case chunkRem n r heq h1 h2 h3 hpf hr => rw [hF.src.rem] at hr; cases hr
    case eofRem r heq hpf hr => rw [hF.src.rem] at hr; cases hr
    case wChkMiss pos0 len todo bw heq hq =>
      obtain ⟨rfl, hbw⟩ : todo = [] ∧ bw ≠ 0 := by simpa [heq, SrcPc.fullOk] using hF.src.ok
      right; simp [roundPc, hbw, SrcPc.pend]
    case wNtf pos0 len todo bw heq =>
      obtain ⟨rfl, hbw⟩ : todo = [] ∧ bw ≠ 0 := by simpa [heq, SrcPc.fullOk] using hF.src.ok
      right; simp [roundPc, hbw, SrcPc.pend]
    all_goals first
      | (simp [Act.isRdr] at ha; done)
      | (simp [SrcPc.live] at hl; done)
      | (right; rfl)
      | (simp at hb; done)
      | (have h3 := h3 (by simp only [SrcPc.live, *]) b hb; simp only [SrcPc.pend, *] at h3 ⊢; grind)

/-- The task handles a seek. -/
def SrcPc.atSeek : SrcPc → Bool
  | .seekMsg _ => true
  | _ => false

/-- The step handles a seek. -/
def handles (s : Sys S) (a : Act) : Nat := if s.spc.atSeek = true ∧ a = .src then 1 else 0

set_option maxHeartbeats 4000000 in
theorem requests_step {c : Cfg} {s s' : Sys S} {a : Act} (ht : Tr c s a s') :
    rangeRequests s'.log ≤ rangeRequests s.log + handles s a ∨
      (s.spc = .fin ∧ a = .src ∧ rangeRequests s'.log = rangeRequests s.log + 1 ∧ c.supportsSeek = true ∧
        ∃ n a b, c.contentLength = some n ∧ RSet.nextGap s.dl 0 n = some (a, b) ∧
          s'.spc = .seeking a (some b) ∧ s'.dl = s.dl ∧ s'.pfDone = s.pfDone) := by
  cases ht
  case finGap n a b heq hs hcn hg =>
    exact .inr ⟨heq, rfl, by simp [rangeRequests, List.countP_cons, Ev.isSeekRange], hs, n, a, b, hcn, hg, rfl, rfl, rfl⟩
  all_goals first
    | (left; exact Nat.le_add_right _ _)
    | (left; simp [rangeRequests, List.countP_cons, Ev.isSeekRange, handles, SrcPc.atSeek, *]; done)

theorem openGaps_shift {n : Nat} {D : Nat → Prop} {w a : Nat} (ha : a < n) (h1 : ¬ D a)
    (h2 : a = 0 ∨ D (a - 1)) : openGaps n D a ≤ openGaps n D w := by
  have k1 := openGaps_fill (n := n) (D := D) (w := n) (a := a) (by omega) ha h1 h2
  have k2 := openGaps_move (n := n) (D := D) (w := w) (w' := n)
  omega

theorem to_fin {c : Cfg} {s s' : Sys S} {a : Act} (ht : Tr c s a s') (h : s'.spc = .fin) (hn : s.spc ≠ .fin) :
    s.spc = .sel ∧ a = .eof := by
  cases ht
  case eofPf heq _ => exact ⟨heq, rfl⟩
  case eof heq _ _ => exact ⟨heq, rfl⟩
  all_goals first
    | exact absurd h hn
    | (simp at h; done)
    | (exfalso; simp only [roundPc] at h; (repeat' split at h) <;> cases h)
    | (exfalso; simp only [startPc] at h; (repeat' split at h) <;> cases h)

theorem from_fin {c : Cfg} {s s' : Sys S} (ht : Tr c s .src s') (h : s.spc = .fin) (hact : s'.spc.active = true) :
    rangeRequests s'.log = rangeRequests s.log + 1 := by
  rcases requests_step ht with hr | ⟨-, -, hr, -⟩
  · exfalso
    have : ∀ p, s.spc = p → p ≠ .fin → False := fun p h1 h2 => h2 (by rw [← h1, h])
    cases ht
    case finGap => simp [rangeRequests, List.countP_cons, Ev.isSeekRange, handles, h, SrcPc.atSeek] at hr; omega
    all_goals first
      | (simp [SrcPc.active, SrcPc.live] at hact; done)
      | exact this _ ‹_› (by simp)
  · exact hr

set_option maxHeartbeats 4000000 in
theorem debt_step {c : Cfg} {L : Lawful S true} {W : Finset Nat} {n : Nat} (hn : c.contentLength = some n)
    {s s' : Sys S} {a : Act} (hF : Full c L W s) (hN : Noted s) (hT : Track s) (hA : Aim n s)
    (ht : Tr c s a s') :
    debt n s' + rangeRequests s'.log ≤
      debt n s + rangeRequests s.log + 2 * handles s a + (if breaksOff c s a = true then 1 else 0) := by
  have hreq := requests_step ht
  by_cases hact : s'.spc.active = true
  case neg =>
    have : debt n s' = 0 := by unfold debt; rw [if_neg hact]
    rcases hreq with h | ⟨-, -, -, -, _, _, _, -, -, h, -⟩
    · omega
    · exact absurd (by rw [h]; rfl) hact
  have hb := active_back hact ht
  have hg := got_step hF hN hT hA.pf hact ht
  have e' : debt n s' = openGaps n (got s') (wnext s') + flag (s'.spc = .fin ∧ hungry n s') + flag (stray n s') := by
    unfold debt; rw [if_pos hact]
  have e : debt n s = openGaps n (got s) (wnext s) + flag (s.spc = .fin ∧ hungry n s) + flag (stray n s) := by
    unfold debt; rw [if_pos hb]
  by_cases h1 : s.spc.atSeek = true ∧ a = .src
  · obtain ⟨k1, rfl⟩ := h1
    have hh : handles s .src = 1 := by simp [handles, k1]
    have hadv : adv s s' = 0 := by unfold adv; revert k1; cases s.spc <;> simp [SrcPc.atSeek]
    have hnf : s'.spc ≠ .fin := by
      intro e2
      revert k1
      cases ht <;> simp_all [SrcPc.atSeek]
    have hgot : got s' = got s := funext fun q => propext (by rw [hg q, hadv]; simp)
    have hm := openGaps_move (n := n) (D := got s) (w := wnext s) (w' := wnext s')
    have hr : rangeRequests s'.log ≤ rangeRequests s.log + 1 := by
      rcases hreq with h | ⟨h, -⟩
      · omega
      · rw [h] at k1; cases k1
    have hs : openGaps n (got s) (wnext s') + flag (stray n s') ≤ openGaps n (got s) (wnext s) + 1 := by
      by_cases hst : stray n s'
      · obtain ⟨-, ⟨x1, x2, x3⟩, -⟩ := hst
        rw [hgot] at x1 x3
        have x4 := openGaps_shift (w := wnext s) x2 x1 x3
        have x5 := flag_le (stray n s')
        omega
      · rw [flag_neg hst]; omega
    rw [e', e, hgot, hh, flag_neg (show ¬ (s'.spc = .fin ∧ hungry n s') from fun h => hnf h.1)]
    omega
  have hh : handles s a = 0 := by unfold handles; rw [if_neg h1]
  by_cases h2 : s.spc = .fin ∧ a = .src
  · obtain ⟨k1, rfl⟩ := h2
    have hadv : adv s s' = 0 := by unfold adv; rw [k1]
    have hgot : got s' = got s := funext fun q => propext (by rw [hg q, hadv]; simp)
    rcases hreq with hr | ⟨-, -, hr, -, n', a, b, hcn, hgap, hs', -, -⟩
    · have := from_fin ht k1 hact
      omega
    · obtain rfl : n' = n := by rw [hcn] at hn; exact Option.some.inj hn
      obtain ⟨g1, g2, g3, g4, g5, g6⟩ := RSet.nextGap_some hF.src.wf hgap
      have hga : ∀ q, got s q ↔ RSet.Mem s.dl q := by
        intro q
        simp [got, k1, hT.fin k1, SrcPc.base]
      have n1 : ¬ got s a := fun h => g5 a (Nat.le_refl _) g2 ((hga a).mp h)
      have n2 : a = 0 ∨ got s (a - 1) := by
        rcases Nat.eq_zero_or_pos a with e0 | e0
        · exact .inl e0
        · exact .inr ((hga _).mpr (g4 _ (by omega) (by omega)))
      have w' : wnext s' = a := by unfold wnext; rw [hs']
      have l' : vlim s' = some b := by unfold vlim; rw [hs']
      have f1 : ¬ (s'.spc = .fin ∧ hungry n' s') := by rw [hs']; simp
      have f2 : ¬ stray n' s' := by
        rintro ⟨-, -, b', e1, e2⟩
        rw [l'] at e1; cases e1
        omega
      rw [e', e, hgot, w', flag_neg f1, flag_neg f2, hh, hr]
      by_cases hu : hungry n' s
      · have := openGaps_shift (n := n') (D := got s) (w := wnext s) (by omega) n1 n2
        rw [flag_pos ⟨k1, hu⟩]
        omega
      · have := openGaps_fill (D := got s) (w := wnext s) hu (by omega) n1 n2
        omega
  · have hw : wnext s' = wnext s + adv s s' := by
      rcases wnext_step hF hact ht with ⟨h, h'⟩ | h
      · exfalso
        revert h
        cases hp : s.spc <;> simp [SrcPc.turns]
        · exact h1 ⟨by rw [hp]; rfl, h'⟩
        · exact h2 ⟨hp, h'⟩
      · exact h
    have hop : openGaps n (got s') (wnext s') ≤ openGaps n (got s) (wnext s) := by
      rw [hw]; exact openGaps_write hg
    have hr : rangeRequests s'.log ≤ rangeRequests s.log := by
      rcases hreq with h | ⟨h, h', -⟩
      · omega
      · exact absurd ⟨h, h'⟩ h2
    have hlim : vlim s' = vlim s ∨ vlim s' = none := by
      rcases lim_step hn hF hact ht with h | h | ⟨h, h', -⟩
      · exact .inl h
      · exact .inr h
      · exfalso
        revert h
        cases hp : s.spc <;> simp [SrcPc.turns]
        · exact h1 ⟨by rw [hp]; rfl, h'⟩
        · exact h2 ⟨hp, h'⟩
    have hadv := adv_pend hF ht
    have hu0 : adv s s' = 0 → (hungry n s' ↔ hungry n s) := by
      intro h0
      have hgot : got s' = got s := funext fun q => propext (by rw [hg q, h0]; simp)
      unfold hungry
      rw [hw, h0, Nat.add_zero, hgot]
    have hst : s.spc ≠ .fin → stray n s' → stray n s := by
      rintro hf ⟨-, k2, b, k3, k4⟩
      have k5 : vlim s = some b := by
        rcases hlim with h | h
        · rw [← h]; exact k3
        · rw [h] at k3; cases k3
      have h0 : adv s s' = 0 := by
        apply Nat.eq_zero_of_not_pos
        intro h0
        have hl : s.spc.live = true := by
          revert h0; unfold adv; cases s.spc <;> simp [SrcPc.live]
        have hv : vlim s = s.tlim := by
          unfold vlim; revert hl; cases s.spc <;> simp [SrcPc.live]
        have hwn : wnext s = S.wtell s.st := by
          unfold wnext; revert hl; cases s.spc <;> simp [SrcPc.live]
        have ht5 := hF.src.tpos hl
        rcases hA.inside hl b (by rw [← hv]; exact k5) with h | h
        · omega
        · rw [h] at hadv; simp at hadv; omega
      exact ⟨hf, (hu0 h0).mp k2, b, k5, by omega⟩
    by_cases hf : s.spc = .fin
    · have h0 : adv s s' = 0 := by unfold adv; rw [hf]
      have hf' : s'.spc = .fin := by
        cases ht <;> simp_all
      have := flag_mono (P := s'.spc = .fin ∧ hungry n s') (Q := s.spc = .fin ∧ hungry n s)
        (fun h => ⟨hf, (hu0 h0).mp h.2⟩)
      rw [e', e, hh, flag_neg (show ¬ stray n s' from fun h => h.1 hf')]
      omega
    have hst := flag_mono (hst hf)
    by_cases hf' : s'.spc = .fin
    · obtain ⟨hsel, rfl⟩ : s.spc = .sel ∧ a = .eof := to_fin ht hf' hf
      have h0 : adv s s' = 0 := by unfold adv; rw [hsel]
      rw [e', e, hh, flag_neg (show ¬ stray n s' from fun h => h.1 hf')]
      by_cases hu : hungry n s'
      · rw [flag_pos ⟨hf', hu⟩]
        have hus := (hu0 h0).mp hu
        by_cases hbr : breaksOff c s .eof = true
        · rw [if_pos hbr]; omega
        · have hwn : wnext s = s.tpos := by
            have := hF.src.tpos (by rw [hsel]; rfl)
            simpa [wnext, hsel, SrcPc.pend] using this.symm
          have hv : vlim s = s.tlim := by unfold vlim; rw [hsel]
          have : stray n s := by
            refine ⟨hf, hus, ?_⟩
            have h3 := hus.2.1
            cases htl : s.tlim with
            | none =>
              exfalso
              simp [breaksOff, hn, htl] at hbr
              omega
            | some b =>
              simp [breaksOff, hn, htl] at hbr
              have hbb := hbr (by omega)
              refine ⟨b, by rw [hv, htl], ?_⟩
              rcases hA.lim hb b (by rw [hv, htl]) with h4 | h4
              · have : b ≠ wnext s := fun e5 => hus.1 (e5 ▸ h4)
                omega
              · omega
          rw [flag_pos this, if_neg hbr]; omega
      · rw [flag_neg (fun h => hu h.2)]; omega
    · rw [e', e, hh, flag_neg (show ¬ (s'.spc = .fin ∧ hungry n s') from fun h => hf' h.1)]
      omega

/-- Seeks that the task has not handled. -/
def unhandled (s : Sys S) : Nat :=
  (if s.spc.atSeek = true then 1 else 0) + (if s.seekQ = none then 0 else 1) +
    match s.rpc with
    | .sDecide _ | .sSet _ | .sSend _ => 1
    | _ => 0

set_option maxHeartbeats 4000000 in
theorem unhandled_step {c : Cfg} {s s' : Sys S} {a : Act} (ht : Tr c s a s') :
    unhandled s' + handles s a ≤ unhandled s + if a.isSeek = true then 1 else 0 := by
  cases ht
  all_goals grind [unhandled, handles, SrcPc.atSeek, Act.isSeek, roundPc, startPc]

theorem Hist.reach {c : Cfg} {G : Sys S → Act → Prop} {s0 s : Sys S} {h : List (Sys S × Act)}
    (hh : Hist (step c) s0 h s) (hG : ∀ x ∈ h, G x.1 x.2) : Reach c G s0 s := by
  induction hh with
  | nil => exact .refl
  | cons _ hs ih => exact .step (ih fun x hx => hG x (List.mem_cons_of_mem _ hx)) (hG _ List.mem_cons_self) hs

/-- The bound, with what may still come. -/
theorem requests_known {P : Provider} {c : Cfg} {n : Nat} (hn : c.contentLength = some n)
    (LP : LawfulProvider P true c.contentLength) (PP : PositionalProvider P c.contentLength)
    (hb : c.batchSize ≠ 0) (hlen : c.LengthHonest) {s0 s : Sys P.S} (h0 : Starts P c s0)
    {h : List (Sys P.S × Act)} (hh : Hist (step c) s0 h s) (hon : ∀ x ∈ h, Honest x.1 x.2) :
    Aim n s ∧ rangeRequests s.log + debt n s + 2 * unhandled s ≤ 2 * seekCalls h + breakOffs c h := by
  induction hh with
  | nil =>
    obtain ⟨-, st, hc, rfl⟩ := h0
    obtain ⟨-, -, -, -, hw, -⟩ := LP.create_ok hc
    have hz : wnext (init c st) = 0 := hw
    have hno : ∀ q, ¬ got (init c st) q := by
      rintro q (h | ⟨-, -, h⟩ | ⟨p, h, -⟩)
      · simp [init, RSet.Mem] at h
      · omega
      · simp [init, SrcPc.base] at h
    refine ⟨⟨fun _ _ q _ h => by simp [init] at h, fun _ b h => by simp [init, vlim] at h,
      fun _ b h => by simp [init] at h⟩, ?_⟩
    have h1 : openGaps n (got (init c st)) (wnext (init c st)) = 0 := by
      have := gaps_none n
      refine Nat.le_zero.mp (Nat.le_trans (gaps_le (P := fun _ => True) (fun q _ h => ?_) n) (by omega))
      obtain ⟨⟨-, h2, h3⟩, -⟩ := h
      rcases h3 with h3 | h3
      · omega
      · exact hno _ h3
    have h2 : debt n (init c st) = 0 := by
      have f1 : ¬ ((init c st).spc = .fin ∧ hungry n (init c st)) := by simp [init]
      have f2 : ¬ stray n (init c st) := by
        rintro ⟨-, -, b, h, -⟩
        simp [init, vlim] at h
      unfold debt
      rw [h1, flag_neg f1, flag_neg f2]
      simp
    rw [h2]
    simp [init, rangeRequests, unhandled, SrcPc.atSeek]
  | @cons h s s' a hh hs ih =>
    have hon' : ∀ x ∈ h, Honest x.1 x.2 := fun x hx => hon x (List.mem_cons_of_mem _ hx)
    obtain ⟨i1, i2⟩ := ih hon'
    have hr := hh.reach (G := fun s a => Honest s a) hon'
    obtain ⟨W, hF, hN⟩ := finish_inv LP hb hlen (fun _ _ h => h) h0 hr
    have hT := (Track.reach PP h0 hr).2
    have ht := tr_of_step hs
    refine ⟨i1.step hn hF hN hT ht, ?_⟩
    have k1 := debt_step hn hF hN hT i1 ht
    have k2 := unhandled_step ht
    have e1 : seekCalls ((s, a) :: h) = seekCalls h + if a.isSeek = true then 1 else 0 := by
      simp [seekCalls, List.countP_cons]
    have e2 : breakOffs c ((s, a) :: h) = breakOffs c h + if breaksOff c s a = true then 1 else 0 := by
      simp [breakOffs, List.countP_cons]
    rw [e1, e2]
    omega

/-- Only seeks make requests when the length is not known. -/
theorem requests_unknown {c : Cfg} (hn : c.contentLength = none) {P : Provider} {s0 s : Sys P.S} (h0 : Starts P c s0)
    {h : List (Sys P.S × Act)} (hh : Hist (step c) s0 h s) :
    rangeRequests s.log + unhandled s ≤ seekCalls h := by
  induction hh with
  | nil =>
    obtain ⟨-, st, hc, rfl⟩ := h0
    simp [init, rangeRequests, unhandled, SrcPc.atSeek]
  | @cons h s s' a hh hs ih =>
    have ht := tr_of_step hs
    have k2 := unhandled_step ht
    have e1 : seekCalls ((s, a) :: h) = seekCalls h + if a.isSeek = true then 1 else 0 := by
      simp [seekCalls, List.countP_cons]
    rcases requests_step ht with hr | ⟨-, -, -, -, n', -, -, h', -⟩
    · omega
    · rw [hn] at h'; cases h'

/-- The transport has come to an end. -/
def Act.isEof : Act → Bool
  | .eof => true
  | _ => false

theorem leaves_fin {c : Cfg} {s s' : Sys S} (ht : Tr c s .src s') (h : s.spc = .fin) : s'.spc ≠ .fin := by
  have : ∀ p, s.spc = p → p ≠ .fin → False := fun p h1 h2 => h2 (by rw [← h1, h])
  cases ht
  all_goals first
    | (simp; done)
    | (exfalso; exact this _ ‹_› (by simp))

/-- Every request has a cause. -/
theorem requests_caused {c : Cfg} {P : Provider} {s0 s : Sys P.S} (h0 : Starts P c s0)
    {h : List (Sys P.S × Act)} (hh : Hist (step c) s0 h s) :
    rangeRequests s.log + unhandled s + flag (s.spc = .fin) ≤ seekCalls h + h.countP (fun x => x.2.isEof) := by
  induction hh with
  | nil =>
    obtain ⟨-, st, hc, rfl⟩ := h0
    rw [flag_neg (by simp [init])]
    simp [init, rangeRequests, unhandled, SrcPc.atSeek]
  | @cons h s s' a hh hs ih =>
    have ht := tr_of_step hs
    have k2 := unhandled_step ht
    have e1 : seekCalls ((s, a) :: h) = seekCalls h + if a.isSeek = true then 1 else 0 := by
      simp [seekCalls, List.countP_cons]
    have e2 : ((s, a) :: h).countP (fun x => x.2.isEof) =
        h.countP (fun x => x.2.isEof) + if a.isEof = true then 1 else 0 := by
      simp [List.countP_cons]
    rw [e1, e2]
    rcases requests_step ht with hr | ⟨hf, rfl, hr, -⟩
    · have : flag (s'.spc = .fin) ≤ flag (s.spc = .fin) + if a.isEof = true then 1 else 0 := by
        by_cases hf' : s'.spc = .fin
        · by_cases hf : s.spc = .fin
          · rw [flag_pos hf, flag_pos hf']; omega
          · obtain ⟨-, rfl⟩ := to_fin ht hf' hf
            have := flag_le (s'.spc = .fin)
            simp only [Act.isEof, if_true]; omega
        · rw [flag_neg hf']; omega
      omega
    · rw [flag_pos hf] at ih
      rw [flag_neg (leaves_fin ht hf)]
      omega

end SD
