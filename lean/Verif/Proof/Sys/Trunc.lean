import Verif.Proof.Sys.Complete

/-!
# Nothing beyond the end of the resource is ever recorded
-/

set_option linter.unusedSimpArgs false
set_option linter.unusedVariables false

namespace SD

variable {S : Storage}

structure Trunc (M : Nat) (s : Sys S) : Prop where
  dl : ∀ q, RSet.Mem s.dl q → q < M
  pend : s.spc.live = true → s.spc.pend.length ≠ 0 → S.wtell s.st + s.spc.pend.length ≤ M
  pf : s.pfDone = false → s.spc.active = true → ∀ q, s.pfStart ≤ q → q < wnext s → q < M
  wst : ∀ p, s.spc.wpos = some p → ∀ q, p ≤ q → q < S.wtell s.st → q < M

theorem pend_round (p l : Nat) (t : List Byte) (bw : Nat) : (roundPc p l t bw).pend = t := by
  unfold roundPc
  split
  · rfl
  · split
    · simp_all [SrcPc.pend]
    · rfl

theorem wpos_round {p l : Nat} {t : List Byte} {bw q : Nat} (h : (roundPc p l t bw).wpos = some q) :
    q = p := by
  unfold roundPc at h
  split at h
  · simpa [SrcPc.wpos] using h.symm
  · split at h
    · simp [SrcPc.wpos] at h
    · simpa [SrcPc.wpos] using h.symm

theorem live_round (p l : Nat) (t : List Byte) (bw : Nat) : (roundPc p l t bw).live = true := by
  unfold roundPc
  split
  · rfl
  · split <;> rfl

set_option maxHeartbeats 8000000 in
theorem Trunc.step {c : Cfg} {L : Lawful S true} {W : Finset Nat} {s s' : Sys S} {a : Act}
    {M N : Nat} (hM : c.remoteLen = some M) (hN : c.contentLength = some N) (hg : Honest s a)
    (hF : Full c L W s) (h : Trunc M s) (ht : Tr c s a s') : Trunc M s' := by
  obtain ⟨h1, h2, h3, h4⟩ := h
  have hwf := hF.src.wf
  have htp := hF.src.tpos
  have hbn := (hF.src.bnd N hN).2.1
  have hrem := hF.src.rem
  obtain ⟨-, -, t3, -⟩ := L.tell_ok hF.src.inv
  have hm : ∀ lo hi q, RSet.Mem (RSet.add s.dl lo hi) q ↔ RSet.Mem s.dl q ∨ (lo ≤ q ∧ q < hi) :=
    fun lo hi q => RSet.mem_add hwf lo hi q
  have hgs : ∀ f n x y, RSet.nextGap s.dl f n = some (x, y) → ∀ q, f ≤ q → q < x → RSet.Mem s.dl q :=
    fun f n x y hh => (RSet.nextGap_some hwf hh).2.2.2.1
  have hgn : ∀ f n, RSet.nextGap s.dl f n = none → ∀ q, f ≤ q → q < n → RSet.Mem s.dl q :=
    fun f n hh => RSet.nextGap_none hh
  have hsl : ∀ p n, (slice c.remote p n).length = n := fun p n => by simp
  cases ha : a.isRdr
  · have f := src_frame L ha ht hF.src.inv (fun _ _ _ => Or.inl rfl)
    have hw : ∀ t k st', S.write s.st (batch c t) = .ok (k, st') →
        S.wtell st' = S.wtell s.st + k ∧ k ≤ t.length ∧ (k ≠ 0 → t.length ≠ 0) ∧
        (t.drop k).length = t.length - k := by
      intro t k st' h
      obtain ⟨w1, -, -, -, w2, -⟩ := L.write_ok hF.src.inv h
      have h2 : (batch c t).length ≤ t.length := by simp [batch]
      exact ⟨w2, by omega, by omega, by simp⟩
    have hws : ∀ p st', S.wseek s.st p = .ok st' → S.wtell st' = p := by
      intro p st' h
      exact (L.wseek_ok hF.src.inv (Or.inl rfl) h).2.2.2.1
    obtain ⟨g1, g2⟩ := hg
    have hle : ∀ x, leOpt x c.remoteLen = true → x ≤ M := by
      intro x hx; simpa [leOpt, hM] using hx
    have hip := hF.src.inPf
    have hwp : ∀ p, s.spc.wpos = some p → s.pfDone = true := fun p hp => (hF.src.wst p hp).1
    have hn : ∀ st, s.spc ≠ .seeking st none ∨ True := fun _ => Or.inr trivial
    have hwn : s.spc.live = true → wnext s = S.wtell s.st := wnext_of
    clear f hF hn
    cases ht
    case wChkMiss p l t bw heq hr =>
      simp only [heq, SrcPc.live, SrcPc.pend, SrcPc.wpos, forall_const] at h2 h4 hwp
      have hd : s.pfDone = true := hwp p rfl
      refine ⟨h1, fun _ => by simpa only [pend_round] using h2, by simp [hd], ?_⟩
      intro q hq
      obtain rfl := wpos_round hq
      exact h4 q rfl
    case wNtf p l t bw heq =>
      simp only [heq, SrcPc.live, SrcPc.pend, SrcPc.wpos, forall_const] at h2 h4 hwp
      have hd : s.pfDone = true := hwp p rfl
      refine ⟨h1, fun _ => by simpa only [pend_round] using h2, by simp [hd], ?_⟩
      intro q hq
      obtain rfl := wpos_round hq
      exact h4 q rfl
    case finGap n x y heq hss hn hgap =>
      refine ⟨h1, by simp [SrcPc.live], ?_, by simp [SrcPc.wpos]⟩
      intro _ _ q _ hq
      exact h1 q (hgs 0 n x y hgap q (by omega) hq)
    all_goals first | (simp [Act.isRdr] at ha; done) | skip
    all_goals constructor
    all_goals grind [SrcPc.live, SrcPc.active, SrcPc.pend, SrcPc.wpos, SrcPc.inPf, wnext, roundPc, startPc]
  · obtain ⟨f, hi, hc⟩ := rdr_frame L ha ht hF.src.inv hF.rdr.clean
    have hw : wnext s' = wnext s := by unfold wnext; rw [f.spc, f.wtell]
    constructor
    · rw [f.dl]; exact h1
    · rw [f.spc, f.wtell]; exact h2
    · rw [f.spc, f.pfDone, f.pfStart, hw]; exact h3
    · rw [f.spc, f.wtell]; exact h4

theorem Trunc.reach {c : Cfg} {P : Provider} (LP : LawfulProvider P true c.contentLength)
    (hb : c.batchSize ≠ 0) (hlen : c.LengthHonest) {M N : Nat} (hM : c.remoteLen = some M)
    (hN : c.contentLength = some N) {G : Sys P.S → Act → Prop} (hG : ∀ s a, G s a → Honest s a)
    {s0 s : Sys P.S} (h0 : Starts P c s0) (h : Reach c G s0 s) : Trunc M s := by
  induction h with
  | refl =>
    obtain ⟨-, st, hc, rfl⟩ := h0
    have h5 := (LP.create_ok hc).2.2.2.2.1
    constructor
    · intro q hq; simp [init, RSet.Mem] at hq
    · simp [init, SrcPc.pend]
    · intro _ _ q _ hq; simp [init, wnext, h5] at hq
    · simp [init, SrcPc.wpos]
  | @step s s' a hr hg hs ih =>
    obtain ⟨W, hF⟩ := Full.reach LP hb hlen hG h0 hr
    exact ih.step hM hN (hG _ _ hg) hF (tr_of_step hs)

end SD
