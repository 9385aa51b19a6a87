import Verif.Proof.Weak
import Verif.Proof.TsoWake

/-! # Back-pressure with weakly ordered memory -/

set_option linter.unusedVariables false

namespace SD

variable {S : Storage} {b : Bool}

theorem wasked_reach {c : Cfg} {G : Sys S → Act → Prop} {st : S.σ} {t : WSys S}
    (h : WReach c G (WSys.of (init c st)) t) :
    t.sys.spc.inRound = true → t.sys.writeReq = true ∨ t.sys.permit = true ∨ t.sys.rpc = .rWake :=
  h.inv (J := fun s => s.spc.inRound = true → s.writeReq = true ∨ s.permit = true ∨ s.rpc = .rWake)
    (by simp [init, SrcPc.inRound]) (fun s s' a h1 _ ht => Asked.step h1 ht) (by grind) (by grind) (fun s q l h => h)

theorem wfull_reach {c : Cfg} (hb : c.batchSize ≠ 0) {P : Provider} (RP : RingProvider P c.contentLength b)
    {s0 : Sys P.S} (h0 : Starts P c s0) {t : WSys P.S} (h : WReach c NoSeek (WSys.of s0) t) :
    RP.ring.Ok t.sys.st ∧ FullPause RP.ring t.sys := by
  have : (RP.ring.Ok t.sys.st ∧
      (t.sys.spc.inRound = true → t.sys.writeReq = true ∨ t.sys.permit = true ∨ t.sys.rpc = .rWake) ∧
      ∀ x, t.sys.spc.zeroTodo = some x → x ≠ []) ∧ FullPause RP.ring t.sys ∧ t.sys.rpc.inSeek = false := by
    refine h.inv (J := fun s => (RP.ring.Ok s.st ∧
      (s.spc.inRound = true → s.writeReq = true ∨ s.permit = true ∨ s.rpc = .rWake) ∧
      ∀ x, s.spc.zeroTodo = some x → x ≠ []) ∧ FullPause RP.ring s ∧ s.rpc.inSeek = false) ?_ ?_ ?_ ?_ ?_
    · have hW := (Wake.reach hb RP h0 (G := NoSeek) .refl).2
      refine ⟨⟨(ring_reach RP h0 (G := NoSeek) .refl).1, hW.asked, hW.todo⟩, ?_⟩
      obtain ⟨-, st, hc, rfl⟩ := h0
      simp [FullPause, SD.init, SrcPc.zero, RdrPc.inSeek]
    · rintro s s' a ⟨⟨h1, h2, h2'⟩, h3, h4⟩ hg ht
      exact ⟨⟨(ring_step h1 ht).1, Asked.step h2 ht, Todo.step h2' ht⟩, h3.step hb h1 h2 h2' hg h4 ht⟩
    · rintro s n r ⟨⟨h1, h2, h2'⟩, h3, h4⟩ e
      refine ⟨⟨h1, fun hr => ?_, h2'⟩, fun hz => ?_, rfl⟩
      · have := h2 hr; grind
      · have := h3 hz; grind
    · rintro s p ⟨-, -, h4⟩ e
      rw [e] at h4; cases h4
    · rintro s req log h
      exact h
  exact ⟨this.1.1, this.2.1⟩

end SD
