import Verif.Spec.Wait
import Verif.Proof.Sys.Pos
import Verif.Proof.Sys.Task

/-!
# After a cancellation request, only finitely many steps of the task remain
-/

set_option linter.unusedSimpArgs false
set_option linter.unusedVariables false

namespace SD

variable {S : Storage}

/-- A bound on the steps that remain. -/
def SrcPc.left : SrcPc → Nat
  | .ended | .panicked => 0
  | .tokCancel => 1
  | .sigDone => 2
  | .setFail => 3
  | .onFin _ _ => 4
  | .report => 5
  | .finSig => 6
  | .sel => 7
  | .wRep _ | .seeking _ _ | .reconn _ | .pfPost _ _ => 8
  | .pfWrite _ t => 9 + t.length
  | .seekMsg _ | .fin => 10
  | .wWait _ _ t => 20 * t.length + 21
  | .wNtf _ _ t bw => 20 * t.length + (if bw = 0 then 22 else 28)
  | .wClr _ _ t bw => 20 * t.length + (if bw = 0 then 23 else 29)
  | .wChk _ _ t bw => 20 * t.length + (if bw = 0 then 24 else 30)
  | .wAdd _ _ t bw => 20 * t.length + (if bw = 0 then 25 else 31)
  | .wWrite _ _ t bw => 20 * t.length + (if bw = 0 then 26 else 32)
  | .wReq _ _ t => 20 * t.length + 27

def leftOf (s : Sys S) : Nat := s.spc.left + if s.permit then 10 else 0

theorem dropped_step {c : Cfg} {s s' : Sys S} {a : Act} (hd : s.rpc = .dropped) (ht : Tr c s a s') :
    s'.rpc = .dropped ∧ (s.cancelled = true → s'.cancelled = true) := by
  cases ht <;> simp_all

theorem left_round {p l : Nat} {t : List Byte} {bw : Nat} :
    (roundPc p l t bw).left < 20 * t.length + (if bw = 0 then 22 else 28) := by
  unfold roundPc
  split
  · simp [SrcPc.left]
  · split
    · simp [SrcPc.left]
    · simp [SrcPc.left]

set_option maxHeartbeats 2000000 in
theorem left_step {Q : Positional S} {c : Cfg} {s s' : Sys S} {a : Act} (hok : Q.Ok s.st)
    (hd : s.rpc = .dropped) (hg : Prompt s a) (ht : Tr c s a s') :
    leftOf s' + (if a = .cancel then 0 else 1) ≤ leftOf s := by
  have hw : ∀ t k st', S.write s.st (batch c t) = .ok (k, st') → k ≠ 0 →
      (t.drop k).length < t.length := by
    intro t k st' h hk
    have h1 := (Q.write hok h).2.1
    have h2 : (batch c t).length ≤ t.length := by simp [batch]
    simp only [List.length_drop]
    omega
  unfold leftOf Prompt at *
  cases ht
  case wChkMiss p l t bw h1 h2 =>
    have := left_round (p := p) (l := l) (t := t) (bw := bw)
    rw [h1]
    dsimp only
    generalize (roundPc p l t bw).left = x at this ⊢
    simp only [SrcPc.left, reduceCtorEq, if_false]
    by_cases hbw : bw = 0
    · simp only [hbw, if_true] at this ⊢; omega
    · simp only [hbw, if_false] at this ⊢; omega
  case wNtf p l t bw h1 =>
    have := left_round (p := p) (l := l) (t := t) (bw := bw)
    rw [h1]
    dsimp only
    generalize (roundPc p l t bw).left = x at this ⊢
    simp only [SrcPc.left, reduceCtorEq, if_false]
    by_cases hbw : bw = 0
    · simp only [hbw, if_true] at this ⊢; omega
    · simp only [hbw, if_false] at this ⊢; omega
  all_goals grind [SrcPc.left]

theorem can_go {Q : Positional S} {c : Cfg} {s : Sys S} (hc : s.cancelled = true) :
    s.spc = .ended ∨ s.spc = .panicked ∨ AwaitsSource s ∨ Paused c s ∨ TaskCanGo c s := by
  have hsrc : ∀ s', step c s .src = some s' → TaskCanGo c s := fun s' h => ⟨.src, s', .inl rfl, h⟩
  cases h : step c s .src with
  | some s' => exact .inr (.inr (.inr (.inr (hsrc s' h))))
  | none =>
    cases hp : s.spc
    case sel =>
      refine .inr (.inr (.inr (.inr ⟨.seeCancel, ?_⟩)))
      refine ⟨{ s with spc := .onFin (some .interrupted) .cancelled }, .inr rfl, ?_⟩
      simp [step, hp, hc]
    case ended => exact .inl rfl
    case panicked => exact .inr (.inl rfl)
    case seeking a b => exact .inr (.inr (.inl (.inl ⟨a, b, hp⟩)))
    case reconn a => exact .inr (.inr (.inl (.inr ⟨a, hp⟩)))
    case wWait a b t => exact .inr (.inr (.inr (.inl ⟨⟨a, b, t, hp⟩, h⟩)))
    all_goals
      exfalso
      simp only [step, srcStep, hp] at h
      repeat' split at h
      all_goals simp at h

theorem within_left {c : Cfg} {P : Provider} (PP : PositionalProvider P c.contentLength)
    {G : Sys P.S → Act → Prop} {s0 s s' : Sys P.S} (h0 : Starts P c s0) (h : Reach c G s0 s)
    (hd : s.rpc = .dropped) (hc : s.cancelled = true) {n : Nat} (hw : Within c Prompt s n s') :
    n + leftOf s' ≤ leftOf s ∧ s'.rpc = .dropped ∧ s'.cancelled = true ∧ Reach c Any s0 s' ∧
      ∀ G' : Sys P.S → Act → Prop, (∀ s a, G s a → G' s a) →
        (∀ s a, s.spc = .sel → a = .seeCancel ∨ a = .cancel → G' s a) →
        (∀ s a, s.spc ≠ .sel → a ≠ .chunk 0 → G' s a) → Reach c G' s0 s' := by
  induction hw with
  | refl => exact ⟨by omega, hd, hc, h.mono (fun _ _ _ => trivial), fun G' h1 _ _ => h.mono h1⟩
  | @step n s1 s2 a hr hg hs ih =>
    obtain ⟨i1, i2, i3, i4, i5⟩ := ih
    have ht := tr_of_step hs
    obtain ⟨j1, j2⟩ := dropped_step i2 ht
    have := left_step (PosInv.reach PP h0 i4).ok i2 hg ht
    refine ⟨?_, j1, j2 i3, i4.step trivial hs, ?_⟩
    · split at this <;> simp_all <;> omega
    · intro G' h1 h2 h3
      refine (i5 G' h1 h2 h3).step ?_ hs
      by_cases hsel : s1.spc = .sel
      · exact h2 _ _ hsel (hg hsel)
      · refine h3 _ _ hsel ?_
        rintro rfl
        cases ht <;> contradiction

/-- Dropping requests a cancellation if this is configured. -/
theorem dropped_cancelled {c : Cfg} (hcd : c.cancelOnDrop = true) {G : Sys S → Act → Prop} {st : S.σ}
    {s : Sys S} (h : Reach c G (init c st) s) : s.rpc = .dropped → s.cancelled = true := by
  refine Reach.inv (P := fun s : Sys S => s.rpc = .dropped → s.cancelled = true) h (by simp [init]) ?_
  intro s s' a h1 _ ht
  cases ht <;> simp_all

end SD
