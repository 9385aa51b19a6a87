import Verif.Proof.Sys.Full
import Verif.Proof.Sys.LiveTask

/-!
# The download ends: storages that keep everything

A chunk or an end of the transport makes a measure smaller, and nothing makes it bigger
once the consumer has stopped seeking.
-/

set_option linter.unusedSimpArgs false
set_option linter.unusedVariables false

namespace SD

variable {S : Storage}

/-- What `Source::write` has entered into the downloaded ranges. -/
def Noted (s : Sys S) : Prop :=
  ∀ p, s.spc.base = some p → s.spc.noted = true → ∀ q, p ≤ q → q < S.wtell s.st → RSet.Mem s.dl q

set_option maxHeartbeats 4000000 in
theorem Noted.step {c : Cfg} {L : Lawful S true} {W : Finset Nat} {s s' : Sys S} {a : Act}
    (hF : Full c L W s) (h : Noted s) (ht : Tr c s a s') : Noted s' := by
  have hm : ∀ lo hi p, RSet.Mem (RSet.add s.dl lo hi) p ↔ RSet.Mem s.dl p ∨ (lo ≤ p ∧ p < hi) :=
    fun lo hi p => RSet.mem_add hF.src.wf lo hi p
  cases ha : a.isRdr
  · unfold Noted at *
    cases ht
    all_goals first
      | (simp [Act.isRdr] at ha; done)
      | grind [SrcPc.base, SrcPc.noted, roundPc, startPc]
  · obtain ⟨f, -, -⟩ := rdr_frame L ha ht hF.src.inv hF.rdr.clean
    unfold Noted at *
    rw [f.spc, f.dl, f.wtell]
    exact h

/-- The positions that are downloaded, counting the chunk that is being written. -/
def held (s : Sys S) (q : Nat) : Prop :=
  RSet.Mem s.dl q ∨ ∃ p, s.spc.base = some p ∧ p ≤ q ∧ q < s.tpos

/-- Where the transport is, or is being moved to. -/
def vpos (s : Sys S) : Nat :=
  match s.spc with
  | .seeking p _ => p
  | _ => s.tpos

/-- The end of the range that the transport delivers, or is asked for. -/
def vlim (s : Sys S) : Option Nat :=
  match s.spc with
  | .seeking _ l => l
  | _ => s.tlim

/-- The next byte is missing, and the transport can deliver it. -/
def Useful (m : Nat) (s : Sys S) : Prop :=
  ¬ held s (vpos s) ∧ vpos s < m ∧ leOpt (vpos s + 1) (vlim s) = true

/-- Seeks and prefetches that are ahead. -/
def toCome (s : Sys S) : Nat :=
  ahead s +
    match s.rpc with
    | .sDecide _ | .sSet _ | .sSend _ => 5
    | _ => 0

/-- What is missing. -/
noncomputable def owed (m : Nat) (s : Sys S) : Nat :=
  if s.pfDone then gaps (held s) m else m - s.tpos

open Classical in
/-- How far the transport is from the next byte that is missing. -/
noncomputable def slack (m : Nat) (s : Sys S) : Nat :=
  if s.pfDone then
    if s.spc = .fin ∨ Useful m s then 0 else 1 + (m - vpos s)
  else 0

/-- The measure of `s'` is smaller. -/
def Down (m : Nat) (s' s : Sys S) : Prop :=
  toCome s' < toCome s ∨ (toCome s' = toCome s ∧ (owed m s' < owed m s ∨
    (owed m s' = owed m s ∧ slack m s' < slack m s)))

/-- The measure of `s'` is not bigger. -/
def DownEq (m : Nat) (s' s : Sys S) : Prop :=
  Down m s' s ∨ (toCome s' = toCome s ∧ owed m s' = owed m s ∧ slack m s' = slack m s)

theorem DownEq.refl (m : Nat) (s : Sys S) : DownEq m s s := Or.inr ⟨rfl, rfl, rfl⟩

theorem DownEq.trans {m : Nat} {s1 s2 s3 : Sys S} (h : DownEq m s1 s2) (h' : DownEq m s2 s3) :
    DownEq m s1 s3 := by
  unfold DownEq Down at *; omega

theorem Down.trans_eq {m : Nat} {s1 s2 s3 : Sys S} (h : Down m s1 s2) (h' : DownEq m s2 s3) :
    Down m s1 s3 := by
  unfold DownEq Down at *; omega

theorem down_wf (m : Nat) (r : Nat → Sys S) (i : Nat)
    (h : ∀ j, i ≤ j → ∃ k, j ≤ k ∧ Down m (r k) (r j)) : False := by
  have key : ∀ a b d j, i ≤ j → toCome (r j) = a → owed m (r j) = b → slack m (r j) = d → False := by
    intro a
    induction a using Nat.strongRecOn with
    | _ a iha =>
      intro b
      induction b using Nat.strongRecOn with
      | _ b ihb =>
        intro d
        induction d using Nat.strongRecOn with
        | _ d ihd =>
          intro j hj h1 h2 h3
          obtain ⟨k, hk, hl⟩ := h j hj
          rcases hl with hl | ⟨e1, hl | ⟨e2, hl⟩⟩
          · exact iha _ (by omega) _ _ k (by omega) rfl rfl rfl
          · exact ihb _ (by omega) _ k (by omega) (by omega) rfl rfl
          · exact ihd _ (by omega) k (by omega) (by omega) (by omega) rfl
  exact key _ _ _ i (Nat.le_refl _) rfl rfl rfl

theorem gaps_congr {P P' : Nat → Prop} (h : ∀ q, P q ↔ P' q) (n : Nat) : gaps P n = gaps P' n :=
  Nat.le_antisymm (gaps_le (fun q => (h q).mpr) n) (gaps_le (fun q => (h q).mp) n)

/-- A step that leaves the download where it is. -/
theorem downEq_of_frame {m : Nat} {s s' : Sys S} (h1 : toCome s' ≤ toCome s) (h2 : s'.pfDone = s.pfDone)
    (h3 : s.pfDone = false → s'.tpos = s.tpos)
    (h4 : s.pfDone = true → (∀ q, held s' q ↔ held s q) ∧ vpos s' = vpos s ∧ (s'.spc = .fin ↔ s.spc = .fin) ∧
      (leOpt (vpos s + 1) (vlim s) = true → leOpt (vpos s + 1) (vlim s') = true)) : DownEq m s' s := by
  have h5 : owed m s' = owed m s := by
    unfold owed
    rw [h2]
    cases hp : s.pfDone
    · simp [h3 hp]
    · simp [gaps_congr (h4 hp).1 m]
  have h6 : slack m s' ≤ slack m s := by
    unfold slack
    rw [h2]
    cases hp : s.pfDone
    · simp
    · obtain ⟨e1, e2, e3, e5⟩ := h4 hp
      simp only [if_true, e3]
      have hu : Useful m s → Useful m s' := by
        rintro ⟨u1, u2, u3⟩
        refine ⟨?_, by rw [e2]; exact u2, by rw [e2]; exact e5 u3⟩
        rw [e2, e1]; exact u1
      by_cases hus : s.spc = .fin ∨ Useful m s
      · rw [if_pos hus, if_pos (hus.imp e3.mpr hu)]
      · simp only [hus, if_false, e2]
        split <;> omega
  unfold DownEq Down; omega

theorem toCome_rdr {c : Cfg} {s s' : Sys S} {a : Act} (ha : a.isRdr = true) (hns : NoSeek s a)
    (ht : Tr c s a s') : toCome s' ≤ toCome s := by
  cases ht
  case sSend p heq hq =>
    simp [toCome, ahead, heq, hq]
    omega
  case seek f _ _ _ _ _ _ => exact absurd rfl (hns f)
  all_goals first
    | (simp [Act.isRdr] at ha; done)
    | (simp only [toCome, ahead, *]; omega)
    | (simp only [toCome, ahead, *]; exact Nat.le_refl _)

/-- The consumer leaves the download where it is. -/
theorem down_rdr {c : Cfg} {L : Lawful S true} {W : Finset Nat} {m : Nat} {s s' : Sys S} {a : Act}
    (hF : Full c L W s) (ha : a.isRdr = true) (hns : NoSeek s a) (ht : Tr c s a s') : DownEq m s' s := by
  obtain ⟨f, -, -⟩ := rdr_frame L ha ht hF.src.inv hF.rdr.clean
  refine downEq_of_frame (toCome_rdr ha hns ht) f.pfDone (fun _ => f.tpos) (fun _ => ?_)
  refine ⟨fun q => by unfold held; rw [f.dl, f.spc, f.tpos], by unfold vpos; rw [f.spc, f.tpos],
    by rw [f.spc], ?_⟩
  unfold vlim
  rw [f.spc, f.tlim]
  exact id

set_option maxHeartbeats 4000000 in
theorem down_step {c : Cfg} {L : Lawful S true} {W : Finset Nat} {m : Nat} (hfin : c.Finite m) {s s' : Sys S}
    {a : Act} (hF : Full c L W s) (hN : Noted s) (hT : Track s) (hon : Honest s a)
    (hns : NoSeek s a) (hng : s'.spc.gone ≠ true) (ht : Tr c s a s') :
    DownEq m s' s ∧ ((∃ n, 0 < n ∧ a = .chunk n) ∨ (a = .eof ∧ EndsWhereAsked c s .eof) → Down m s' s) := by
  obtain ⟨hm, hcl⟩ := hfin
  obtain ⟨i1, i2, i3, i4, i5, i6, i7, i8, i9, i10, i11, i12⟩ := hF.src
  obtain ⟨t1, t2, t3, t4, t5, t6, t7⟩ := hT
  have hmem : ∀ lo hi p, RSet.Mem (RSet.add s.dl lo hi) p ↔ RSet.Mem s.dl p ∨ (lo ≤ p ∧ p < hi) :=
    fun lo hi p => RSet.mem_add i2 lo hi p
  have quiet : ∀ {s' : Sys S}, (a ≠ .eof) → (∀ n, a ≠ .chunk n) → DownEq m s' s →
      DownEq m s' s ∧ ((∃ n, 0 < n ∧ a = .chunk n) ∨ (a = .eof ∧ EndsWhereAsked c s .eof) → Down m s' s) := by
    intro s' h1 h2 h3
    refine ⟨h3, ?_⟩
    rintro (⟨n, -, e⟩ | ⟨e, -⟩)
    · exact absurd e (h2 n)
    · exact absurd e h1
  have less : ∀ {s' : Sys S}, toCome s' < toCome s →
      DownEq m s' s ∧ ((∃ n, 0 < n ∧ a = .chunk n) ∨ (a = .eof ∧ EndsWhereAsked c s .eof) → Down m s' s) :=
    fun h => ⟨Or.inl (Or.inl h), fun _ => Or.inl h⟩
  cases ha : a.isRdr
  case true =>
    refine quiet ?_ ?_ (down_rdr hF ha hns ht)
    · rintro rfl; simp [Act.isRdr] at ha
    · rintro n rfl; simp [Act.isRdr] at ha
  cases ht
  case seekIgnore p heq _ => exact less (by simp [toCome, ahead, heq]; split <;> omega)
  case seekRestart p n a b heq _ _ _ _ => exact less (by simp [toCome, ahead, heq])
  case seekRestartNone p n heq _ _ _ _ => exact less (by simp [toCome, ahead, heq])
  case seekRestartUnk p heq _ _ _ => exact less (by simp [toCome, ahead, heq])
  case seekAbort p n a b heq _ _ _ _ => exact less (by simp [toCome, ahead, heq])
  case seekAbortNone p n heq _ _ _ _ => exact less (by simp [toCome, ahead, heq])
  case seekAbortUnk p heq _ _ _ => exact less (by simp [toCome, ahead, heq])
  case pfPostDone len heq _ =>
    have := t3 [] (by simp [heq, SrcPc.pfTodo])
    exact less (by simp [toCome, ahead, heq, this])
  case pfPostPart len todo heq _ =>
    have := t3 todo (by simp [heq, SrcPc.pfTodo])
    exact less (by simp [toCome, ahead, heq, this])
  case recvSeek p heq hq => exact less (by simp [toCome, ahead, heq, hq]; omega)
  case eofPf heq hq => exact less (by simp [toCome, ahead, heq, hq])
  case wWriteErr pos0 len todo bw k heq hx => exact absurd rfl hng
  case pfWriteErr len todo k heq hx => exact absurd rfl hng
  case seekOkErr start stop pos k heq hx => exact absurd rfl hng
  case seekFail start stop k heq => exact absurd rfl hng
  case seekOkPanic start stop pos heq hx => exact absurd rfl hng
  case pfWritePanic => exact absurd rfl hng
  case wWritePanic => exact absurd rfl hng
  case wRepPanic => exact absurd rfl hng
  case seeCancel => exact absurd rfl hng
  case chunkPf n heq h1 h2 h3 hpf =>
    have h4 : s.tpos + n ≤ m := by rw [hm] at h3; simpa [leOpt] using h3
    have key : ∀ s' : Sys S, toCome s' = toCome s → owed m s' = m - (s.tpos + n) → slack m s' = 0 →
        DownEq m s' s ∧ ((∃ k, 0 < k ∧ Act.chunk n = .chunk k) ∨ (Act.chunk n = .eof ∧ EndsWhereAsked c s .eof) → Down m s' s) := by
      intro s' k1 k2 k3
      have e1 : owed m s = m - s.tpos := by simp [owed, hpf]
      have e2 : slack m s = 0 := by simp [slack, hpf]
      refine ⟨by unfold DownEq Down; omega, ?_⟩
      rintro (⟨k, hk, e⟩ | ⟨e, -⟩)
      · cases e
        unfold Down; omega
      · cases e
    exact key _ (by simp [toCome, ahead, heq]) (by simp [owed, hpf]) (by simp [slack, hpf])
  case chunkRem n r heq _ _ _ _ hr => rw [i3] at hr; cases hr
  case eofRem r heq _ hr => rw [i3] at hr; cases hr
  case eof heq hpf hr =>
    have key : ∀ s' : Sys S, toCome s' = toCome s → owed m s' = owed m s → slack m s' = 0 →
        DownEq m s' s ∧ ((∃ k, 0 < k ∧ Act.eof = .chunk k) ∨ (Act.eof = .eof ∧ EndsWhereAsked c s .eof) → Down m s' s) := by
      intro s' k1 k2 k3
      refine ⟨by unfold DownEq Down; omega, ?_⟩
      rintro (⟨k, hk, e⟩ | ⟨-, hend⟩)
      · cases e
      have e1 : 1 ≤ slack m s := by
        unfold slack
        rw [if_pos hpf, if_neg ?_]
        · omega
        rintro (e | ⟨-, u2, u3⟩)
        · rw [heq] at e; cases e
        simp only [vpos, vlim, heq] at u2 u3
        rcases hend rfl with ⟨m', h1, h2⟩ | ⟨b, h1, h2⟩
        · rw [hm] at h1; cases h1; omega
        · rw [h1] at u3
          simp [leOpt] at u3; omega
      unfold Down; omega
    refine key _ (by simp [toCome, ahead, heq]) ?_ (by simp [slack, hpf])
    unfold owed
    rw [if_pos hpf, if_pos hpf]
    exact gaps_congr (fun q => by simp [held, heq, SrcPc.base]) m
  case chunk n heq h1 h2 h3 hpf hr =>
    have h4 : s.tpos + n ≤ m := by rw [hm] at h3; simpa [leOpt] using h3
    have htp : s.tpos = S.wtell s.st := by
      have := i5 (by rw [heq]; rfl)
      simpa [heq, SrcPc.pend] using this
    have key : ∀ s' : Sys S, s'.pfDone = true → s'.dl = s.dl → toCome s' = toCome s →
        s'.tpos = s.tpos + n → s'.tlim = s.tlim → s'.spc = startPc (S.wtell s.st) (slice c.remote s.tpos n) →
        DownEq m s' s ∧ ((∃ k, 0 < k ∧ Act.chunk n = .chunk k) ∨ (Act.chunk n = .eof ∧ EndsWhereAsked c s .eof) → Down m s' s) := by
      intro s' k1 k2 k3 k4 k5 k6
      by_cases hn : n = 0
      · subst hn
        have e : s'.spc = .wRep 0 := by rw [k6]; simp [startPc, slice]
        refine ⟨downEq_of_frame (by omega) (by rw [k1, hpf]) (fun _ => by simpa using k4) (fun _ => ?_), ?_⟩
        · refine ⟨fun q => by simp [held, heq, e, SrcPc.base, k2], by simp [vpos, heq, e, k4],
            by simp [heq, e], ?_⟩
          simp only [vpos, vlim, heq, e, k5]
          exact id
        · rintro (⟨k, hk, e⟩ | ⟨e, -⟩)
          · cases e; omega
          · cases e
      have hne : slice c.remote s.tpos n ≠ [] := by
        intro h
        have := congrArg List.length h
        simp [slice] at this
        omega
      have e : s'.spc = .wReq s.tpos (slice c.remote s.tpos n).length (slice c.remote s.tpos n) := by
        rw [k6, htp]; unfold startPc; rw [if_neg (by rw [← htp]; exact hne)]
      have hh : ∀ q, held s' q ↔ RSet.Mem s.dl q ∨ (s.tpos ≤ q ∧ q < s.tpos + n) := by
        intro q
        simp [held, e, SrcPc.base, k2, k4]
      have hh0 : ∀ q, held s q ↔ RSet.Mem s.dl q := by
        intro q
        simp [held, heq, SrcPc.base]
      have ho : owed m s = gaps (held s) m := by simp [owed, hpf]
      have ho' : owed m s' = gaps (held s') m := by simp [owed, k1]
      have hle : gaps (held s') m ≤ gaps (held s) m :=
        gaps_le (fun q h => (hh q).mpr (Or.inl ((hh0 q).mp h))) m
      have : Down m s' s := by
        by_cases hu : RSet.Mem s.dl s.tpos
        · have e1 : slack m s = 1 + (m - s.tpos) := by
            unfold slack
            rw [if_pos hpf, if_neg ?_]
            · simp [vpos, heq]
            rintro (e | ⟨u1, -⟩)
            · rw [heq] at e; cases e
            exact u1 ((hh0 _).mpr (by simpa [vpos, heq] using hu))
          have e2 : slack m s' ≤ 1 + (m - (s.tpos + n)) := by
            unfold slack
            rw [if_pos k1]
            split
            · omega
            · simp [vpos, e, k4]
          unfold Down; omega
        · have := gaps_lt (P := held s) (P' := held s') (fun q h => (hh q).mpr (Or.inl ((hh0 q).mp h)))
            (show s.tpos < m by omega) (fun h => hu ((hh0 _).mp h)) ((hh _).mpr (Or.inr ⟨Nat.le_refl _, by omega⟩))
          unfold Down; omega
      exact ⟨Or.inl this, fun _ => this⟩
    refine key _ hpf rfl ?_ rfl rfl rfl
    unfold startPc
    split <;> simp [toCome, ahead, heq]
  case finGap n a b heq hsk hcn hg =>
    obtain ⟨g1, g2, g3, g4, g5, g6⟩ := RSet.nextGap_some i2 hg
    have hpf := t2 heq
    have hnm := hcl n hcn
    refine quiet (by simp) (by simp) ?_
    have key : ∀ s' : Sys S, toCome s' = toCome s → owed m s' = owed m s → slack m s' = 0 → DownEq m s' s := by
      intro s' k1 k2 k3
      have : slack m s = 0 := by simp [slack, hpf, heq]
      unfold DownEq Down; omega
    refine key _ (by simp [toCome, ahead, heq, hpf]) ?_ ?_
    · unfold owed
      rw [if_pos hpf, if_pos hpf]
      exact gaps_congr (fun q => by simp [held, heq, SrcPc.base]) m
    · unfold slack
      rw [if_pos hpf, if_pos ?_]
      refine Or.inr ⟨?_, ?_, ?_⟩
      · simpa [held, vpos, SrcPc.base] using g5 a (Nat.le_refl _) g2
      · simp only [vpos]; omega
      · show decide (a + 1 ≤ b) = true
        simp; omega
  case seekOk start stop pos st' heq hx =>
    have e1 := hon.1 start stop pos heq rfl
    refine quiet (by simp) (by simp) ?_
    cases hpf : s.pfDone
    · exact Or.inl (Or.inl (by simp [toCome, ahead, heq, hpf]))
    · refine downEq_of_frame (by simp [toCome, ahead, heq, hpf]) (by simp [hpf]) (by simp [hpf]) (fun _ => ?_)
      refine ⟨fun q => by simp [held, heq, SrcPc.base], by simp [vpos, heq, e1], by simp [heq], ?_⟩
      simp only [vpos, vlim, heq, if_pos e1]
      exact id
  case reconnOk p pos heq =>
    have e1 := hon.2 p pos heq rfl
    have e2 := i11 p heq
    have htp : s.tpos = S.wtell s.st := by
      have := i5 (by rw [heq]; rfl)
      simpa [heq, SrcPc.pend] using this
    refine quiet (by simp) (by simp) ?_
    refine downEq_of_frame (by simp [toCome, ahead, heq]) rfl (fun _ => by simp; omega) (fun _ => ?_)
    refine ⟨fun q => by simp [held, heq, SrcPc.base], by simp [vpos, heq]; omega, by simp [heq], ?_⟩
    simp [vlim, leOpt]
  case wAdd pos0 len todo bw heq =>
    have hw : S.wtell s.st ≤ s.tpos := by
      have := i5 (by rw [heq]; rfl)
      omega
    refine quiet (by simp) (by simp) ?_
    refine downEq_of_frame (by simp [toCome, ahead, heq]) rfl (fun _ => rfl) (fun _ => ?_)
    refine ⟨fun q => ?_, by simp [vpos, heq], by simp [heq], by simp [vpos, vlim, heq]⟩
    simp only [held, hmem, heq, SrcPc.base]
    grind
  case wChkMiss pos0 len todo bw heq hq =>
    refine quiet (by simp) (by simp) ?_
    obtain ⟨rfl, hbw⟩ : todo = [] ∧ bw ≠ 0 := by simpa [heq, SrcPc.fullOk] using i10
    have hw : s.tpos = S.wtell s.st := by simpa [heq, SrcPc.pend] using i5 (by rw [heq]; rfl)
    have hn := hN pos0 (by simp [heq, SrcPc.base]) (by simp [heq, SrcPc.noted])
    simp only [roundPc, hbw, if_false, if_true]
    refine downEq_of_frame (by simp [toCome, ahead, heq]) rfl (fun _ => rfl) (fun _ => ?_)
    refine ⟨fun q => ?_, by simp [vpos, heq], by simp [heq], by simp [vpos, vlim, heq]⟩
    simp only [held, heq, SrcPc.base]
    grind
  case wNtf pos0 len todo bw heq =>
    refine quiet (by simp) (by simp) ?_
    obtain ⟨rfl, hbw⟩ : todo = [] ∧ bw ≠ 0 := by simpa [heq, SrcPc.fullOk] using i10
    have hw : s.tpos = S.wtell s.st := by simpa [heq, SrcPc.pend] using i5 (by rw [heq]; rfl)
    have hn := hN pos0 (by simp [heq, SrcPc.base]) (by simp [heq, SrcPc.noted])
    simp only [roundPc, hbw, if_false, if_true]
    refine downEq_of_frame (by simp [toCome, ahead, heq]) rfl (fun _ => rfl) (fun _ => ?_)
    refine ⟨fun q => ?_, by simp [vpos, heq], by simp [heq], by simp [vpos, vlim, heq]⟩
    simp only [held, heq, SrcPc.base]
    grind
  all_goals try (simp [Act.isRdr] at ha; done)
  all_goals clear hcl i1 i2 i4 i5 i6 i7 i8 i9 i11 i12 t1 t2 t3 t4 t5 t6 t7 hmem less hon hns hF hN
  case wWait pos0 len todo heq _ => simp [heq, SrcPc.fullOk] at i10
  case finDone => simp [SrcPc.gone] at hng
  case finSig => simp [SrcPc.gone] at hng
  case report => simp [SrcPc.gone] at hng
  case onFinErr => simp [SrcPc.gone] at hng
  case onFinOk => simp [SrcPc.gone] at hng
  case setFail => simp [SrcPc.gone] at hng
  case sigDone => simp [SrcPc.gone] at hng
  case tokCancel => simp [SrcPc.gone] at hng
  all_goals
    refine quiet (by simp) (by simp) ?_
    clear quiet
    refine downEq_of_frame ?_ rfl (fun _ => rfl) (fun _ => ?_)
    · simp only [toCome, ahead, *]; first | omega | exact Nat.le_refl _
    · refine ⟨fun q => ?_, ?_, ?_, ?_⟩ <;> simp [held, vpos, vlim, SrcPc.base, *]

/-! ### Infinite histories -/

section exec

variable {c : Cfg} {s0 : Sys S} {r : Nat → Sys S} {act : Nat → Option Act}

theorem gone_stays (he : Exec c s0 r act) {i j : Nat} (hij : i ≤ j) (h : (r i).spc.gone = true) :
    (r j).spc.gone = true := by
  have : ∀ d, (r (i + d)).spc.gone = true := by
    intro d
    induction d with
    | zero => exact h
    | succ d ih =>
      cases hact : act (i + d) with
      | none => rw [← Nat.add_assoc, he.pause _ hact]; exact ih
      | some a => exact gone_step (tr_of_step (he.next _ a hact)) ih
  have := this (j - i)
  rwa [Nat.add_sub_cancel' hij] at this

theorem gone_not_awaits {p : SrcPc} (h : p.gone = true) : p.awaits = false := by
  revert h; cases p <;> simp [SrcPc.gone, SrcPc.awaits]

/-- An order `D` that every delivery goes down, and nothing goes up: the task waits for the
source only finitely often. -/
theorem awaits_stops (he : Exec c s0 r act) (hp : Advancing c r act) {i0 : Nat} {D DE : Sys S → Sys S → Prop}
    (hrefl : ∀ s, DE s s) (htrans : ∀ {s1 s2 s3}, DE s1 s2 → DE s2 s3 → DE s1 s3)
    (hmix : ∀ {s1 s2 s3}, D s1 s2 → DE s2 s3 → D s1 s3)
    (hwf : (∀ j, i0 ≤ j → ∃ k, j ≤ k ∧ D (r k) (r j)) → False)
    (hstep : ∀ j a, i0 ≤ j → act j = some a → (r (j + 1)).spc.gone ≠ true →
      DE (r (j + 1)) (r j) ∧
        ((∃ n, 0 < n ∧ a = .chunk n) ∨ (a = .eof ∧ EndsWhereAsked c (r j) .eof) → D (r (j + 1)) (r j))) :
    ∃ i, ∀ j, i ≤ j → (r j).spc.awaits = false := by
  apply Classical.byContradiction
  intro hno
  have hinf : ∀ i, ∃ j, i ≤ j ∧ (r j).spc.awaits = true := by
    intro i
    apply Classical.byContradiction
    intro h
    refine hno ⟨i, fun j hj => ?_⟩
    cases hb : (r j).spc.awaits
    · rfl
    · exact absurd ⟨j, hj, hb⟩ h
  have hng : ∀ j, (r j).spc.gone ≠ true := by
    intro j hg
    obtain ⟨k, hk, ha⟩ := hinf j
    rw [gone_not_awaits (gone_stays he hk hg)] at ha
    cases ha
  have hone : ∀ j, i0 ≤ j → DE (r (j + 1)) (r j) := by
    intro j hj
    cases hact : act j with
    | none => rw [he.pause j hact]; exact hrefl _
    | some a => exact (hstep j a hj hact (hng _)).1
  have hmono : ∀ i d, i0 ≤ i → DE (r (i + d)) (r i) := by
    intro i d hi
    induction d with
    | zero => exact hrefl _
    | succ d ih => exact htrans (hone (i + d) (by omega)) ih
  refine hwf fun j hj => ?_
  obtain ⟨k, hk, hev⟩ := hp hinf j
  have h1 := hmono j (k - j) hj
  rw [Nat.add_sub_cancel' hk] at h1
  refine ⟨k + 1, by omega, hmix ?_ h1⟩
  rcases hev with ⟨n, hn, ha⟩ | ⟨ha, hx⟩
  · exact (hstep k _ (by omega) ha (hng _)).2 (Or.inl ⟨n, hn, rfl⟩)
  · exact (hstep k _ (by omega) ha (hng _)).2 (Or.inr ⟨rfl, hx⟩)

set_option maxHeartbeats 4000000 in
theorem src_rank_pc {Q : Positional S} {s s' : Sys S} (hok : Q.Ok s.st) (ht : Tr c s .src s')
    (hw : ∀ p l t, s.spc ≠ .wWait p l t) :
    s'.spc.awaits = true ∨ s'.spc.rank < s.spc.rank := by
  have hwr : ∀ t k st', S.write s.st (batch c t) = .ok (k, st') → k ≤ t.length := by
    intro t k st' h
    have := (Q.write hok h).2.1
    simp only [batch, List.length_take] at this
    omega
  have hd : ∀ (t : List Byte) k, (t.drop k).length = t.length - k := by simp
  cases ht
  all_goals grind [SrcPc.awaits, SrcPc.rank, roundPc, startPc]

/-- A task that does not wait for the source, and never for a read, ends. -/
theorem ends_of_busy {Q : Positional S} (he : Exec c s0 r act) (hf : Fair c r act .src)
    (hok : ∀ j, Q.Ok (r j).st) {i0 : Nat} (haw : ∀ j, i0 ≤ j → (r j).spc.awaits = false)
    (hw : ∀ j, i0 ≤ j → ∀ p l t, (r j).spc ≠ .wWait p l t) :
    ∃ j, i0 ≤ j ∧ ((r j).spc = .ended ∨ (r j).spc = .panicked) := by
  have key : ∀ n i, i0 ≤ i → (r i).spc.rank ≤ n →
      ∃ j, i0 ≤ j ∧ ((r j).spc = .ended ∨ (r j).spc = .panicked) := by
    intro n
    induction n using Nat.strongRecOn with
    | _ n ih =>
      intro i hi hn
      by_cases h1 : (r i).spc = .ended ∨ (r i).spc = .panicked
      · exact ⟨i, hi, h1⟩
      obtain ⟨j, hj, hsp, ha⟩ := hf.next (i := i) (Q := fun j => (r j).spc = (r i).spc) rfl
        (fun j hj hq ha => by
          cases hact : act j with
          | none => rw [he.pause j hact]; exact hq
          | some a =>
            exact (spc_frame (tr_of_step (he.next j a hact)) (haw j (by omega))
              (fun e => ha (by rw [hact, e]))).trans hq)
        (fun j hj hq => src_enabled (haw j (by omega)) (fun e => h1 (Or.inl (by rw [← hq, e])))
          (fun e => h1 (Or.inr (by rw [← hq, e]))) (fun p l t e => absurd e (hw j (by omega) p l t)))
      rcases src_rank_pc (hok j) (tr_of_step (he.next j _ ha)) (hw j (by omega)) with h | h
      · rw [haw (j + 1) (by omega)] at h; cases h
      · rw [hsp] at h
        exact ih _ (by omega) (j + 1) (by omega) (Nat.le_refl _)
  exact key _ i0 (Nat.le_refl _) (Nat.le_refl _)

end exec

/-- The invariants at every time of a history. -/
theorem finish_inv {P : Provider} {c : Cfg} (LP : LawfulProvider P true c.contentLength)
    (hb : c.batchSize ≠ 0) (hlen : c.LengthHonest) {G : Sys P.S → Act → Prop}
    (hG : ∀ s a, G s a → Honest s a) {s0 s : Sys P.S} (h0 : Starts P c s0) (h : Reach c G s0 s) :
    ∃ W, Full c LP.law W s ∧ Noted s := by
  refine Reach.inv (P := fun s => ∃ W, Full c LP.law W s ∧ Noted s) h ⟨∅, Full.init LP h0, ?_⟩ ?_
  · obtain ⟨-, st, hc, rfl⟩ := h0
    intro p hp
    simp [SD.init, SrcPc.base] at hp
  · rintro s s' a ⟨W, hW, hN⟩ hg ht
    obtain ⟨W', -, h'⟩ := hW.step hb hlen (hG _ _ hg) ht
    exact ⟨W', h', hN.step hW ht⟩

/-- The task waits for the source only finitely often. -/
theorem awaits_finally {P : Provider} {c : Cfg} {m : Nat} (hfin : c.Finite m)
    (LP : LawfulProvider P true c.contentLength) (PP : PositionalProvider P c.contentLength)
    (hb : c.batchSize ≠ 0) {s0 : Sys P.S} (h0 : Starts P c s0) {r : Nat → Sys P.S} {act : Nat → Option Act}
    (he : Exec c s0 r act) (hp : Advancing c r act) (hG : ∀ i a, act i = some a → Honest (r i) a)
    {i0 : Nat} (hns : ∀ j f, i0 ≤ j → act j ≠ some (.seek f)) :
    ∃ i, ∀ j, i ≤ j → (r j).spc.awaits = false := by
  have hreach : ∀ i, Reach c (fun s a => Honest s a) s0 (r i) := by
    intro i
    induction i with
    | zero => rw [he.start]; exact .refl
    | succ i ih =>
      cases ha : act i with
      | none => rw [he.pause i ha]; exact ih
      | some a => exact .step ih (hG i a ha) (he.next i a ha)
  have hlen : c.LengthHonest := fun n hn => ⟨m, hfin.1, by rw [hfin.2 n hn]⟩
  refine awaits_stops (i0 := i0) (D := Down m) (DE := DownEq m) he hp (DownEq.refl m) DownEq.trans Down.trans_eq (down_wf m r i0)
    fun j a hj ha hng => ?_
  obtain ⟨W, hF, hN⟩ := finish_inv LP hb hlen (fun _ _ h => h) h0 (hreach j)
  refine down_step hfin hF hN (Track.reach PP h0 (hreach j)).2 (hG j a ha) ?_ hng
    (tr_of_step (he.next j a ha))
  intro f e
  exact hns j f hj (by rw [ha, e])

end SD
