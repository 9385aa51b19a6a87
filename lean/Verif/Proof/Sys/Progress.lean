import Verif.Proof.Sys.Finish

/-!
# A consumer that reads to the end gets there
-/

set_option linter.unusedSimpArgs false
set_option linter.unusedVariables false

namespace SD

variable {S : Storage}

theorem delivered_le (es l : List Ev) : (delivered l).length ≤ (delivered (es ++ l)).length := by
  induction es with
  | nil => exact Nat.le_refl _
  | cons e es ih =>
    refine Nat.le_trans ih ?_
    rw [List.cons_append]
    cases e
    case readRet pos len fast res => cases res <;> simp [delivered]
    all_goals exact Nat.le_refl _

theorem log_exec {c : Cfg} {s0 : Sys S} {r : Nat → Sys S} {act : Nat → Option Act} (he : Exec c s0 r act)
    {i j : Nat} (hij : i ≤ j) : ∃ es, (r j).log = es ++ (r i).log := by
  have : ∀ d, ∃ es, (r (i + d)).log = es ++ (r i).log := by
    intro d
    induction d with
    | zero => exact ⟨[], rfl⟩
    | succ d ih =>
      obtain ⟨es, hes⟩ := ih
      cases hact : act (i + d) with
      | none => exact ⟨es, by rw [← Nat.add_assoc, he.pause _ hact]; exact hes⟩
      | some a =>
        rcases log_step (tr_of_step (he.next _ a hact)) with h' | ⟨e, h'⟩
        · exact ⟨es, by rw [← Nat.add_assoc, h', hes]⟩
        · exact ⟨e :: es, by rw [← Nat.add_assoc, h', hes]; rfl⟩
  have := this (j - i)
  rwa [Nat.add_sub_cancel' hij] at this

/-- The events after which a consumer stops reading include failed reads and reads that return
nothing. -/
structure Stops (last : Ev → Bool) : Prop where
  nothing : ∀ pos len fast, 0 < len → last (.readRet pos len fast (.ok [])) = true
  failed : ∀ pos len fast k, last (.readRet pos len fast (.err k)) = true
  timeout : ∀ n k, last (.readErr n k) = true

theorem last_stops : Stops Ev.last := ⟨fun _ _ _ h => by simpa [Ev.last] using h, fun _ _ _ _ => rfl, fun _ _ => rfl⟩

theorem dry_stops : Stops Ev.dry := ⟨fun _ _ _ h => by simpa [Ev.dry] using h, fun _ _ _ _ => rfl, fun _ _ => rfl⟩

/-- One step of a read with a buffer of `n` bytes: it goes on, or it returns something, or it is
the last one. -/
theorem read_goes_on {last : Ev → Bool} (hS : Stops last) {c : Cfg} {s s' : Sys S} {a : Act} {n : Nat}
    (hn : 0 < n) (hb : s.rpc.buf = some n) (ht : Tr c s a s') :
    s'.rpc.buf = some n ∨ (∃ e ∈ s'.log, last e = true) ∨ s'.rpc = .panicked ∨
      (delivered s.log).length + 1 ≤ (delivered s'.log).length := by
  cases ht
  case rRead m fast bs st' heq hr =>
    rw [heq] at hb
    simp only [RdrPc.buf, Option.some.injEq] at hb
    subst hb
    by_cases hlt : bs = []
    · subst hlt
      exact Or.inr (Or.inl ⟨_, List.mem_cons_self, hS.nothing _ _ _ hn⟩)
    · refine Or.inr (Or.inr (Or.inr ?_))
      have := List.length_pos_iff.mpr hlt
      simp only [delivered, List.length_append]
      omega
  case rReadErr => exact Or.inr (Or.inl ⟨_, List.mem_cons_self, hS.failed _ _ _ _⟩)
  case rCheckFail => exact Or.inr (Or.inl ⟨_, List.mem_cons_self, hS.timeout _ _⟩)
  all_goals first
    | exact Or.inl hb
    | exact Or.inr (Or.inr (Or.inl rfl))
    | (left; simp_all [RdrPc.buf]; done)
    | (exfalso; simp_all [RdrPc.buf]; done)

theorem reads_progress_of {last : Ev → Bool} (hS : Stops last) {c : Cfg} {s0 : Sys S} {r : Nat → Sys S} {act : Nat → Option Act}
    (he : Exec c s0 r act) (h0 : s0.rpc = .idle) {m : Nat}
    (hread : ∀ i, (r i).rpc = .idle → (∀ e ∈ (r i).log, last e = false) →
      ∃ j n, i ≤ j ∧ 0 < n ∧ act j = some (.read n))
    (hle : ∀ i, (delivered (r i).log).length ≤ m)
    (hret : ∀ i, (r i).rpc.inReadCall = true → ∃ j, i ≤ j ∧ ((r j).rpc = .idle ∨ (r j).rpc = .panicked)) :
    ∃ i, (r i).rpc = .panicked ∨ ∃ e ∈ (r i).log, last e = true := by
  apply Classical.byContradiction
  intro hno
  have hnp : ∀ i, (r i).rpc ≠ .panicked := fun i h => hno ⟨i, Or.inl h⟩
  have hnl : ∀ i, ¬ ∃ e ∈ (r i).log, last e = true := fun i h => hno ⟨i, Or.inr h⟩
  have hmono : ∀ {i j}, i ≤ j → (delivered (r i).log).length ≤ (delivered (r j).log).length := by
    intro i j hij
    obtain ⟨es, h⟩ := log_exec he hij
    rw [h]; exact delivered_le _ _
  have key : ∀ k, ∃ i, (r i).rpc = .idle ∧ k ≤ (delivered (r i).log).length := by
    intro k
    induction k with
    | zero => exact ⟨0, by rw [he.start]; exact h0, Nat.zero_le _⟩
    | succ k ih =>
      obtain ⟨i, h1, h2⟩ := ih
      obtain ⟨j, n, hij, hn, ha⟩ := hread i h1 (fun e hm => by
        cases hl : last e
        · rfl
        · exact absurd ⟨e, hm, hl⟩ (hnl i))
      have hj1 : (r (j + 1)).rpc.buf = some n := by
        have ht := tr_of_step (he.next j _ ha)
        have hnl' := hnl (j + 1)
        have hnp' := hnp (j + 1)
        generalize hs' : r (j + 1) = s' at ht hnl' hnp' ⊢
        cases ht
        all_goals first
          | rfl
          | (exact absurd ⟨_, List.mem_cons_self, hS.timeout _ _⟩ hnl')
      have inv : ∀ d, (r (j + 1 + d)).rpc.buf = some n ∨ k + 1 ≤ (delivered (r (j + 1 + d)).log).length := by
        intro d
        induction d with
        | zero => exact Or.inl hj1
        | succ d ih =>
          cases hact : act (j + 1 + d) with
          | none => rw [← Nat.add_assoc, he.pause _ hact]; exact ih
          | some a =>
            rcases ih with ih | ih
            · rcases read_goes_on hS hn ih (tr_of_step (he.next _ a hact)) with h | h | h | h
              · exact Or.inl h
              · exact absurd h (hnl _)
              · exact absurd h (hnp _)
              · right
                have : (delivered (r i).log).length ≤ (delivered (r (j + 1 + d)).log).length := hmono (by omega)
                rw [← Nat.add_assoc]
                omega
            · exact Or.inr (Nat.le_trans ih (hmono (by omega)))
      obtain ⟨t, ht, h3⟩ := hret (j + 1) (by
        revert hj1; cases (r (j + 1)).rpc <;> simp [RdrPc.buf, RdrPc.inReadCall])
      have h4 : (r t).rpc = .idle := h3.resolve_right (hnp t)
      refine ⟨t, h4, ?_⟩
      have := inv (t - (j + 1))
      rw [Nat.add_sub_cancel' ht, h4] at this
      rcases this with h | h
      · cases h
      · exact h
  obtain ⟨i, -, h⟩ := key (m + 1)
  have := hle i
  omega

theorem reads_progress {c : Cfg} {s0 : Sys S} {r : Nat → Sys S} {act : Nat → Option Act}
    (he : Exec c s0 r act) (h0 : s0.rpc = .idle) (hread : ReadsToEnd r act) {m : Nat}
    (hle : ∀ i, (delivered (r i).log).length ≤ m)
    (hret : ∀ i, (r i).rpc.inReadCall = true → ∃ j, i ≤ j ∧ ((r j).rpc = .idle ∨ (r j).rpc = .panicked)) :
    ∃ i, (r i).rpc = .panicked ∨ ∃ e ∈ (r i).log, e.last = true :=
  reads_progress_of last_stops he h0 hread hle hret

end SD
