import Verif.Spec.Cancel
import Verif.Proof.Sys.Finish
import Verif.Proof.Sys.Ending

/-!
# After a cancellation the task does not wait for the source for ever
-/

set_option linter.unusedVariables false

namespace SD

variable {S : Storage} {c : Cfg} {s0 : Sys S} {r : Nat → Sys S} {act : Nat → Option Act}

theorem cancelled_stays (he : Exec c s0 r act) {i j : Nat} (hij : i ≤ j) (h : (r i).cancelled = true) :
    (r j).cancelled = true := by
  induction hij with
  | refl => exact h
  | @step j hij ih =>
    cases hact : act j with
    | none => rw [he.pause _ hact]; exact ih
    | some a =>
      have ht := tr_of_step (he.next _ a hact)
      generalize r (j + 1) = s' at ht
      cases ht <;> simp_all

/-- A wait for the source ends with the next round of the loop, or with the download. -/
theorem leaves_ask {s s' : Sys S} {a : Act} (ht : Tr c s a s') (h : s.spc.asksRange = true)
    (h' : s'.spc.asksRange = false) : s'.spc = .sel ∨ s'.spc.gone = true := by
  cases ht <;> simp_all [SrcPc.asksRange, SrcPc.gone]

theorem leaves_reconn {s s' : Sys S} {a : Act} {p : Nat} (ht : Tr c s a s') (h : s.spc = .reconn p) :
    s'.spc = .sel ∨ s'.spc = .reconn p := by
  cases ht <;> simp_all

theorem changes {P : Nat → Prop} {i j : Nat} (hij : i ≤ j) (hi : P i) (hj : ¬ P j) :
    ∃ k, i ≤ k ∧ P k ∧ ¬ P (k + 1) := by
  induction hij with
  | refl => exact absurd hi hj
  | @step j hij ih =>
    by_cases h : P j
    · exact ⟨j, hij, h, hj⟩
    · exact ih h

/-- After a cancellation the task waits for the source only finitely often. -/
theorem awaits_cancelled (he : Exec c s0 r act) (ht : Fair c r act .reconnTimeout)
    (hp : StronglyFair (step c) r act .seeCancel) (ha : AnswersSeeks r) {i : Nat} (hc : (r i).cancelled = true) :
    ∃ k, i ≤ k ∧ ∀ j, k ≤ j → (r j).spc.awaits = false := by
  apply Classical.byContradiction
  intro hno
  have hinf : ∀ k, ∃ j, k ≤ j ∧ (r j).spc.awaits = true := by
    intro k
    apply Classical.byContradiction
    intro h
    refine hno ⟨max i k, by omega, fun j hj => ?_⟩
    apply Bool.eq_false_iff.mpr
    intro h'
    exact h ⟨j, by omega, h'⟩
  have hng : ∀ j, ¬ (r j).spc.gone = true := by
    intro j hj
    obtain ⟨k, hk, h⟩ := hinf j
    rw [gone_not_awaits (gone_stays he hk hj)] at h
    cases h
  have hsel : ∀ k, ∃ j, k ≤ j ∧ (r j).spc = .sel := by
    intro k
    obtain ⟨j, hj, h⟩ := hinf k
    cases hs : (r j).spc <;> rw [hs] at h <;> try (simp [SrcPc.awaits] at h; done)
    case sel => exact ⟨j, hj, hs⟩
    case seeking a b =>
      have hask : (r j).spc.asksRange = true := by rw [hs]; rfl
      obtain ⟨m, hm, h1⟩ := ha j hask
      obtain ⟨l, hl, h2, h3⟩ := changes (P := fun l => (r l).spc.asksRange = true) hm hask (by simp [h1])
      refine ⟨l + 1, by omega, ?_⟩
      cases hact : act l with
      | none => rw [he.pause _ hact] at h3; exact absurd h2 h3
      | some a =>
        rcases leaves_ask (tr_of_step (he.next l a hact)) h2 (by simpa using h3) with h | h
        · exact h
        · exact absurd h (hng _)
    case reconn p =>
      by_cases hl : ∃ l, j ≤ l ∧ ¬ (r l).spc = .reconn p
      · obtain ⟨m, hm, h1⟩ := hl
        obtain ⟨l, hl, h2, h3⟩ := changes (P := fun l => (r l).spc = .reconn p) hm hs h1
        refine ⟨l + 1, by omega, ?_⟩
        cases hact : act l with
        | none => rw [he.pause _ hact] at h3; exact absurd h2 h3
        | some a =>
          rcases leaves_reconn (tr_of_step (he.next l a hact)) h2 with h | h
          · exact h
          · exact absurd h h3
      · have hl : ∀ l, j ≤ l → (r l).spc = .reconn p := fun l h1 =>
          Classical.byContradiction fun h2 => hl ⟨l, h1, h2⟩
        obtain ⟨l, h1, h2⟩ := ht j (fun l h1 => by simp [step, hl l h1])
        have h3 := he.next l _ h2
        simp only [step, hl l h1, Option.some.injEq] at h3
        have := hl (l + 1) (by omega)
        rw [← h3] at this
        cases this
  obtain ⟨j, hj, h⟩ := hp (fun k => by
    obtain ⟨j, hj, h⟩ := hsel (max i k)
    refine ⟨j, by omega, ?_⟩
    simp [step, h, cancelled_stays he (i := i) (j := j) (by omega) hc]) 0
  refine hng (j + 1) ?_
  have ht := tr_of_step (he.next j _ h)
  generalize r (j + 1) = s' at ht
  cases ht
  rfl

/-- After a cancellation the task ends, unless it waits for room again and again. -/
theorem cancel_ends {Q : Positional S} (he : Exec c s0 r act) (hf : Fair c r act .src)
    (ht : Fair c r act .reconnTimeout) (hp : StronglyFair (step c) r act .seeCancel) (ha : AnswersSeeks r)
    (hok : ∀ j, Q.Ok (r j).st) {i : Nat} (hc : (r i).cancelled = true) :
    (∃ j, i ≤ j ∧ ((r j).spc = .ended ∨ (r j).spc = .panicked)) ∨
      ∀ k, ∃ j, k ≤ j ∧ (r j).spc.needsRoom = true := by
  by_cases hw : ∃ k, ∀ j, k ≤ j → (r j).spc.needsRoom = false
  · left
    obtain ⟨k, hk⟩ := hw
    obtain ⟨l, hl, h1⟩ := awaits_cancelled he ht hp ha hc
    obtain ⟨j, hj, h⟩ := ends_of_busy he hf hok (i0 := max k l) (fun j hj => h1 j (by omega))
      (fun j hj p q t e => by
        have := hk j (by omega)
        rw [e] at this
        cases this)
    exact ⟨j, by omega, h⟩
  · right
    intro k
    apply Classical.byContradiction
    intro h
    refine hw ⟨k, fun j hj => Bool.eq_false_iff.mpr fun h' => h ⟨j, hj, h'⟩⟩

theorem ended_done {P : Provider} {G : Sys P.S → Act → Prop} {s0 s : Sys P.S} (h0 : Starts P c s0) (h : Reach c G s0 s)
    (hs : s.spc = .ended) : s.done = true := by
  obtain ⟨-, st, -, rfl⟩ := h0
  have h1 : EndLog c s := Reach.inv (P := EndLog c) h (EndLog.init c st) (fun _ _ _ h _ ht => EndLog.step h ht)
  obtain ⟨r, o, -, -, -, -, -, h2⟩ := h1.isOver (by rw [hs]; rfl)
  exact h2 (Or.inr hs)

end SD
