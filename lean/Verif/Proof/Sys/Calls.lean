import Verif.Proof.Sys.Pos
import Verif.Proof.Sys.End

/-! # What a call of the consumer returns -/

set_option linter.unusedSimpArgs false
set_option linter.unusedVariables false

namespace SD

variable {S : Storage}

theorem toI64_mod (n : Nat) : toI64 n % (two64 : Int) = (n : Int) % (two64 : Int) := by
  unfold toI64 two63 two64
  split <;> omega

theorem toI64_small {n : Nat} (h : n < two63) : toI64 n = n := by
  unfold toI64 two63 two64 at *
  split <;> omega

theorem toU64_toI64 {base : Nat} {d t : Int} (ht : (base : Int) + d = t) (h0 : 0 ≤ t)
    (h1 : t < (two64 : Int)) : (toU64 (toI64 base + d) : Int) = t := by
  have h := toI64_mod base
  unfold toU64
  have e : (toI64 base + d) % (two64 : Int) = t := by
    rw [Int.add_emod, h, ← Int.add_emod, ht]
    exact Int.emod_eq_of_lt h0 h1
  rw [e]
  omega

/-- The target the code computes is the exact one if that is representable. -/
theorem absolute_exact {c : Cfg} {pos p : Nat} {f : SeekFrom} {t : Int}
    (ht : c.exactTarget pos f = some t) (h0 : 0 ≤ t) (h1 : t < (two64 : Int))
    (h : c.absolute pos f = .ok p) : (p : Int) = t := by
  cases f with
  | start q => simp [Cfg.exactTarget, Cfg.absolute] at ht h; omega
  | current d =>
    simp only [Cfg.exactTarget, Option.some.injEq] at ht
    simp only [Cfg.absolute, addCast] at h
    split at h
    · simp at h
    · simp only [Res.ok.injEq] at h
      rw [← h]; exact toU64_toI64 ht h0 h1
  | fromEnd d =>
    simp only [Cfg.exactTarget] at ht
    simp only [Cfg.absolute] at h
    cases hc : c.contentLength with
    | none => rw [hc] at ht; simp at ht
    | some n =>
      rw [hc] at ht h
      simp at ht
      dsimp only at h
      unfold addCast at h
      split at h
      · simp at h
      · simp only [Res.ok.injEq] at h
        rw [← h]; exact toU64_toI64 ht h0 h1

/-- The target is computed without overflow if everything fits into `i64`. -/
theorem absolute_total {c : Cfg} {pos : Nat} {f : SeekFrom} {t : Int}
    (ht : c.exactTarget pos f = some t) (h0 : 0 ≤ t) (h1 : t < (two63 : Int))
    (hpos : pos < two63) (hlen : ∀ n, c.contentLength = some n → n < two63) :
    c.absolute pos f = .ok t.toNat := by
  have hw : (two63 : Int) < two64 := by unfold two63 two64; omega
  have key : ∀ (base : Nat) (d : Int), base < two63 → (base : Int) + d = t →
      addCast c.checks base d = .ok t.toNat := by
    intro base d hb hd
    unfold addCast
    rw [toI64_small hb]
    rw [if_neg (by simp; omega)]
    rw [hd]
    unfold toU64
    rw [Int.emod_eq_of_lt h0 (by omega)]
  cases f with
  | start q =>
    simp only [Cfg.exactTarget, Option.some.injEq] at ht
    subst ht
    rfl
  | current d =>
    simp only [Cfg.exactTarget, Option.some.injEq] at ht
    exact key pos d hpos ht
  | fromEnd d =>
    unfold Cfg.exactTarget at ht
    unfold Cfg.absolute
    cases hc : c.contentLength with
    | none => rw [hc] at ht; simp at ht
    | some n =>
      rw [hc] at ht
      simp at ht
      exact key n d (hlen n hc) ht

/-- A seek call that is under way since the log was `base`. -/
def SeekRunning (base : List Ev) (t : Nat) (s : Sys S) : Prop :=
  ∃ mid, s.log = mid ++ base ∧ (∀ e ∈ mid, e.isReturn = false) ∧
    (s.rpc.target = some t ∨ s.rpc = .panicked)

/-- The first return event after `base` is an error or the result of a seek to `t`. -/
def SeekReturned (base : List Ev) (t : Nat) (s : Sys S) : Prop :=
  ∃ later e mid, s.log = later ++ e :: (mid ++ base) ∧ e.isReturn = true ∧
    (∀ e ∈ mid, e.isReturn = false) ∧
    ((∃ k, e = .seekErr k) ∨ ∃ res, e = .seekRet t res ∧ ∀ p, res = .ok p → p = t)

theorem SeekReturned.step {c : Cfg} {s s' : Sys S} {a : Act} {base : List Ev} {t : Nat}
    (h : SeekReturned base t s) (ht : Tr c s a s') : SeekReturned base t s' := by
  obtain ⟨later, e, mid, h1, h2, h3, h4⟩ := h
  rcases log_step ht with hl | ⟨e', hl⟩
  · exact ⟨later, e, mid, by rw [hl, h1], h2, h3, h4⟩
  · exact ⟨e' :: later, e, mid, by rw [hl, h1]; rfl, h2, h3, h4⟩

theorem SeekRunning.cons {s s' : Sys S} {base : List Ev} {t : Nat} {e : Ev}
    (h : SeekRunning base t s) (hl : s'.log = e :: s.log) (he : e.isReturn = false)
    (hr : s.rpc.target = some t → s'.rpc.target = some t ∨ s'.rpc = .panicked)
    (hp : s.rpc = .panicked → s'.rpc = .panicked) : SeekRunning base t s' := by
  obtain ⟨mid, h1, h2, h3⟩ := h
  refine ⟨e :: mid, by rw [hl, h1]; rfl, ?_, ?_⟩
  · intro e' he'
    rcases List.mem_cons.mp he' with rfl | he'
    · exact he
    · exact h2 _ he'
  · rcases h3 with h3 | h3
    · exact hr h3
    · exact Or.inr (hp h3)

theorem SeekRunning.same {s s' : Sys S} {base : List Ev} {t : Nat}
    (h : SeekRunning base t s) (hl : s'.log = s.log)
    (hr : s.rpc.target = some t → s'.rpc.target = some t ∨ s'.rpc = .panicked)
    (hp : s.rpc = .panicked → s'.rpc = .panicked) : SeekRunning base t s' := by
  obtain ⟨mid, h1, h2, h3⟩ := h
  refine ⟨mid, by rw [hl, h1], h2, ?_⟩
  rcases h3 with h3 | h3
  · exact hr h3
  · exact Or.inr (hp h3)

theorem SeekRunning.ret {s s' : Sys S} {base : List Ev} {t : Nat} {e : Ev}
    (h : SeekRunning base t s) (hl : s'.log = e :: s.log) (he : e.isReturn = true)
    (hr : (∃ k, e = .seekErr k) ∨ ∃ res, e = .seekRet t res ∧ ∀ p, res = .ok p → p = t) :
    SeekReturned base t s' := by
  obtain ⟨mid, h1, h2, h3⟩ := h
  exact ⟨[], e, mid, by rw [hl, h1]; rfl, he, h2, hr⟩

theorem seek_call_step {c : Cfg} {s s' : Sys S} {a : Act} {base : List Ev} {t : Nat}
    (h : SeekRunning base t s ∨ SeekReturned base t s) (ht : Tr c s a s') :
    SeekRunning base t s' ∨ SeekReturned base t s' := by
  rcases h with h | h
  swap
  · exact Or.inr (h.step ht)
  have htg : s.rpc.target = some t ∨ s.rpc = .panicked := by
    obtain ⟨mid, h1, h2, h3⟩ := h; exact h3
  cases ht
  case sSeek p st' heq hr =>
    rw [heq] at htg; simp [RdrPc.target] at htg; subst htg
    exact Or.inr (h.ret rfl rfl (Or.inr ⟨_, rfl, by simp⟩))
  case sSeekErr p k heq hr =>
    rw [heq] at htg; simp [RdrPc.target] at htg; subst htg
    exact Or.inr (h.ret rfl rfl (Or.inr ⟨_, rfl, by simp⟩))
  case sSeekPanic p heq hr =>
    rw [heq] at htg; simp [RdrPc.target] at htg; subst htg
    exact Or.inr (h.ret rfl rfl (Or.inr ⟨_, rfl, by simp⟩))
  case sCheckFail p heq hr =>
    exact Or.inr (h.ret rfl rfl (Or.inl ⟨_, rfl⟩))
  all_goals first
    | exact Or.inl (h.same rfl (fun h => Or.inl h) (fun h => h))
    | exact Or.inl (h.cons rfl rfl (fun h => Or.inl h) (fun h => h))
    | (refine Or.inl (h.same rfl ?_ ?_) <;> (simp_all [RdrPc.target]))
    | (refine Or.inl (h.cons rfl rfl ?_ ?_) <;> (simp_all [RdrPc.target]))
    | (exfalso; simp_all [RdrPc.target])

/-- The first call to return after a seek to `t` was issued returns an error or is the
result of that seek. -/
theorem seek_call {c : Cfg} {G : Sys S → Act → Prop} {s s1 s' : Sys S} {f : SeekFrom} {t : Int}
    (hf : step c s (.seek f) = some s1) (ht : c.exactTarget (S.tell s.st).1 f = some t)
    (h0 : 0 ≤ t) (h1 : t < (two64 : Int)) (h : Reach c G s1 s') :
    SeekRunning s.log (c.normalize t.toNat) s' ∨ SeekReturned s.log (c.normalize t.toNat) s' := by
  refine Reach.inv h ?_ (fun _ _ _ h _ ht => seek_call_step h ht)
  have htr := tr_of_step hf
  cases htr
  case seekFailed => exact Or.inr ⟨[], _, [], rfl, rfl, by simp, Or.inl ⟨_, rfl⟩⟩
  case seekErr => exact Or.inr ⟨[], _, [], rfl, rfl, by simp, Or.inl ⟨_, rfl⟩⟩
  case seekExcess => exact Or.inr ⟨[], _, [], rfl, rfl, by simp, Or.inl ⟨_, rfl⟩⟩
  case seekPanic => exact Or.inl ⟨[], rfl, by simp, Or.inr rfl⟩
  case seek =>
    have := absolute_exact ht h0 h1 (by assumption)
    refine Or.inl ⟨[], rfl, by simp, Or.inl ?_⟩
    simp only [RdrPc.target, Option.some.injEq]
    congr 1
    omega

/-- Where the first element with a property stands in a list is unique. -/
theorem split_unique {α : Type} {p : α → Bool} :
    ∀ {m1 m2 base l1 l2 : List α} {e1 e2 : α},
      l1 ++ e1 :: (m1 ++ base) = l2 ++ e2 :: (m2 ++ base) →
      (∀ e ∈ m1, p e = false) → (∀ e ∈ m2, p e = false) → p e1 = true → p e2 = true →
      m1 = m2 ∧ e1 = e2 ∧ l1 = l2 := by
  intro m1 m2 base l1 l2 e1 e2 h h1 h2 hp1 hp2
  have h' : (l1 ++ e1 :: m1) ++ base = (l2 ++ e2 :: m2) ++ base := by simpa using h
  replace h' := List.append_cancel_right h'
  clear h
  induction l1 generalizing l2 with
  | nil =>
    cases l2 with
    | nil => simp at h'; exact ⟨h'.2, h'.1, rfl⟩
    | cons x l2 =>
      simp at h'
      obtain ⟨rfl, h'⟩ := h'
      have := h1 e2 (by rw [h']; simp)
      rw [this] at hp2; simp at hp2
  | cons x l1 ih =>
    cases l2 with
    | nil =>
      simp at h'
      obtain ⟨rfl, h'⟩ := h'
      have := h2 e1 (by rw [← h']; simp)
      rw [this] at hp1; simp at hp1
    | cons y l2 =>
      simp at h'
      obtain ⟨rfl, h'⟩ := h'
      obtain ⟨a, b, rfl⟩ := ih h'
      exact ⟨a, b, rfl⟩

end SD
