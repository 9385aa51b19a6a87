import Verif.Proof.Tso
import Verif.Proof.Sys.Wake

/-! # Back-pressure on hardware that delays stores -/

set_option linter.unusedVariables false

namespace SD

variable {S : Storage} {b : Bool}

/-- What a step of the consumer or the task does to memory, if a store is delayed. -/
theorem tstep_sys {c : Cfg} {t t' : TSys S} {o : TAct} (h : tstep c t o = some t') :
    (∃ a, o = .act a ∧ step c t.sys a = some t'.sys) ∨
    (o = .act .rdr ∧ ∃ n r, t.sys.rpc = .rSet n r ∧ t'.sys = { t.sys with rpc := .rLoad n r }) ∨
    (o = .act .rdr ∧ ∃ p, t.sys.rpc = .sSet p ∧ t'.sys = { t.sys with rpc := .sSend p }) ∨
    (o = .drain ∧ ∃ r, t'.sys = { t.sys with req := storeReq r, log := .request r :: t.sys.log }) := by
  cases o with
  | drain =>
    simp only [tstep] at h
    split at h
    · cases h; exact .inr (.inr (.inr ⟨rfl, _, rfl⟩))
    · cases h
  | act a =>
    by_cases ha : a = .rdr
    · subst ha
      simp only [tstep] at h
      split at h
      · next e => cases h; exact .inr (.inl ⟨rfl, _, _, e, rfl⟩)
      · next e => cases h; exact .inr (.inr (.inl ⟨rfl, _, e, rfl⟩))
      · split at h
        · next e => cases h; exact .inl ⟨_, rfl, e⟩
        · cases h
      · split at h
        · split at h
          · next e => cases h; exact .inl ⟨_, rfl, e⟩
          · cases h
        · cases h
    · cases a <;> first | exact absurd rfl ha | skip
      all_goals
        simp only [tstep] at h
        split at h
        · next e => cases h; exact .inl ⟨_, rfl, e⟩
        · cases h

/-- Invariants that do not depend on the requested position and the log. -/
theorem TReach.inv {c : Cfg} {G : Sys S → Act → Prop} {t0 t : TSys S} {J : Sys S → Prop} (h : TReach c G t0 t)
    (h0 : J t0.sys) (hstep : ∀ s s' a, J s → G s a → Tr c s a s' → J s')
    (hset : ∀ s n r, J s → s.rpc = .rSet n r → J { s with rpc := .rLoad n r })
    (hseek : ∀ s p, J s → s.rpc = .sSet p → J { s with rpc := .sSend p })
    (hreq : ∀ s req log, J s → J { s with req := req, log := log }) : J t.sys := by
  induction h with
  | refl => exact h0
  | act _ hg hs ih =>
    rcases tstep_sys hs with ⟨a, e, h⟩ | ⟨-, n, r, e, h⟩ | ⟨-, p, e, h⟩ | ⟨e, -⟩
    · cases e; exact hstep _ _ _ ih hg (tr_of_step h)
    · rw [h]; exact hset _ _ _ ih e
    · rw [h]; exact hseek _ _ ih e
    · cases e
  | drain _ hs ih =>
    rcases tstep_sys hs with ⟨a, e, h⟩ | ⟨e, -⟩ | ⟨e, -⟩ | ⟨-, r, h⟩
    · cases e
    · cases e
    · cases e
    · rw [h]; exact hreq _ _ _ ih

theorem tasked_reach {c : Cfg} {G : Sys S → Act → Prop} {st : S.σ} {t : TSys S}
    (h : TReach c G { sys := init c st, buf := none } t) :
    t.sys.spc.inRound = true → t.sys.writeReq = true ∨ t.sys.permit = true ∨ t.sys.rpc = .rWake :=
  h.inv (J := fun s => s.spc.inRound = true → s.writeReq = true ∨ s.permit = true ∨ s.rpc = .rWake)
    (by simp [init, SrcPc.inRound]) (fun s s' a h1 _ ht => Asked.step h1 ht) (by grind) (by grind) (fun s q l h => h)

theorem Todo.step {c : Cfg} {s s' : Sys S} {a : Act} (h : ∀ t, s.spc.zeroTodo = some t → t ≠ [])
    (ht : Tr c s a s') : ∀ t, s'.spc.zeroTodo = some t → t ≠ [] := by
  cases ht
  all_goals grind [SrcPc.zeroTodo, roundPc, startPc]

theorem tfull_reach {c : Cfg} (hb : c.batchSize ≠ 0) {P : Provider} (RP : RingProvider P c.contentLength b)
    {s0 : Sys P.S} (h0 : Starts P c s0) {t : TSys P.S} (h : TReach c NoSeek { sys := s0, buf := none } t) :
    RP.ring.Ok t.sys.st ∧ FullPause RP.ring t.sys := by
  have : (RP.ring.Ok t.sys.st ∧
      (t.sys.spc.inRound = true → t.sys.writeReq = true ∨ t.sys.permit = true ∨ t.sys.rpc = .rWake) ∧
      ∀ x, t.sys.spc.zeroTodo = some x → x ≠ []) ∧ FullPause RP.ring t.sys ∧ t.sys.rpc.inSeek = false := by
    refine h.inv (J := fun s => (RP.ring.Ok s.st ∧
      (s.spc.inRound = true → s.writeReq = true ∨ s.permit = true ∨ s.rpc = .rWake) ∧
      ∀ x, s.spc.zeroTodo = some x → x ≠ []) ∧ FullPause RP.ring s ∧ s.rpc.inSeek = false) ?_ ?_ ?_ ?_ ?_
    · have hW := (Wake.reach hb RP h0 (G := NoSeek) .refl).2
      refine ⟨⟨(ring_reach RP h0 (G := NoSeek) .refl).1, hW.asked, hW.todo⟩, ?_⟩
      obtain ⟨-, st, hc, rfl⟩ := h0
      simp [FullPause, SD.init, SrcPc.zero, RdrPc.inSeek]
    · rintro s s' a ⟨⟨h1, h2, h2'⟩, h3, h4⟩ hg ht
      exact ⟨⟨(ring_step h1 ht).1, Asked.step h2 ht, Todo.step h2' ht⟩, h3.step hb h1 h2 h2' hg h4 ht⟩
    · rintro s n r ⟨⟨h1, h2, h2'⟩, h3, h4⟩ e
      refine ⟨⟨h1, fun hr => ?_, h2'⟩, fun hz => ?_, rfl⟩
      · have := h2 hr; grind
      · have := h3 hz; grind
    · rintro s p ⟨-, -, h4⟩ e
      rw [e] at h4; cases h4
    · rintro s req log h
      exact h
  exact ⟨this.1.1, this.2.1⟩

end SD
