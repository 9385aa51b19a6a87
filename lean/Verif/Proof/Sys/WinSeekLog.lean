import Verif.Proof.Sys.WinSeekLen

/-!
# What reads return on windowed storage when the consumer seeks forward
-/

set_option linter.unusedSimpArgs false
set_option linter.unusedVariables false

namespace SD

/-- Unknown length: the window holds bytes of the resource as long as the consumer can read. -/
theorem winseek_unknown_log {P : Provider} {c : Cfg} (hcl : c.contentLength = none)
    (C : RingCells P.S)
    (hC : ∀ s, P.create c.contentLength = .ok s → C.ring.Ok s ∧ C.ring.rp s = 0 ∧ P.S.wtell s = 0)
    {G : Sys P.S → Act → Prop} (hG : ∀ s a, G s a → FwdWin c s a)
    {s0 s : Sys P.S} (h0 : Starts P c s0) (h : Reach c G s0 s) :
    (WinFlow c C.ring s ∧ (noMore s ∨ (Held c C s ∧ AskedHere C s))) ∧ Always (exactRule c) s.log := by
  refine Reach.inv (P := fun s => (WinFlow c C.ring s ∧ (noMore s ∨ (Held c C s ∧ AskedHere C s))) ∧
    Always (exactRule c) s.log) h ?_ ?_
  · obtain ⟨-, st, hst, rfl⟩ := h0
    obtain ⟨h1, h2, h3⟩ := hC st hst
    refine ⟨⟨WinFlow.init h1 h3, Or.inr ⟨?_, ?_⟩⟩, trivial⟩
    · intro q _ hq; simp [SD.init, h3] at hq
    · intro p hp; simp [SD.init] at hp
  · rintro s s' a ⟨⟨hf, hv⟩, hl⟩ hg ht
    refine ⟨⟨hf.step (hG _ _ hg) ht, ?_⟩, always_step ht hl ?_⟩
    · rcases hv with hn | ⟨hv, hk⟩
      · exact Or.inl (hn.step ht)
      · rcases hv.step (hG _ _ hg) hf hk.seekHere ht with hn | hv'
        · exact Or.inl hn
        · rcases hk.step hcl hf ht with hn | hk'
          · exact Or.inl hn
          · exact Or.inr ⟨hv', hk'⟩
    · intro e he
      unfold exactRule
      split
      · exact Held.read hf (hv.imp id And.left) ht he
      · trivial

/-- Known length: the same as long as transports end where they should. -/
theorem winseek_known_log {P : Provider} {c : Cfg} {N : Nat} (hcl : c.contentLength = some N)
    (C : RingCells P.S)
    (hC : ∀ s, P.create c.contentLength = .ok s → C.ring.Ok s ∧ C.ring.rp s = 0 ∧ P.S.wtell s = 0)
    {G : Sys P.S → Act → Prop} (hG : ∀ s a, G s a → FwdWin c s a ∧ EndsInPlace c s a)
    {s0 s : Sys P.S} (h0 : Starts P c s0) (h : Reach c G s0 s) :
    (WinFlow c C.ring s ∧ (noMore s ∨ (Held c C s ∧ ∃ g, Ahead N C g s ∨ Filled N C g s))) ∧
    Always (exactRule c) s.log := by
  refine Reach.inv (P := fun s => (WinFlow c C.ring s ∧
    (noMore s ∨ (Held c C s ∧ ∃ g, Ahead N C g s ∨ Filled N C g s))) ∧
    Always (exactRule c) s.log) h ?_ ?_
  · obtain ⟨-, st, hst, rfl⟩ := h0
    obtain ⟨h1, h2, h3⟩ := hC st hst
    refine ⟨⟨WinFlow.init h1 h3, Or.inr ⟨?_, 0, Or.inl ?_⟩⟩, trivial⟩
    · intro q _ hq; simp [SD.init, h3] at hq
    · constructor <;> simp [SD.init, RdrPc.target, h3, RSet.WF, RSet.Mem]
  · rintro s s' a ⟨⟨hf, hv⟩, hl⟩ hg ht
    obtain ⟨hg, hE⟩ := hG _ _ hg
    refine ⟨⟨hf.step hg ht, ?_⟩, always_step ht hl ?_⟩
    · rcases hv with hn | ⟨hv, g, hk⟩
      · exact Or.inl (hn.step ht)
      · have hs : SeekHere C s := by
          rcases hk with hk | hk
          · exact hk.seekHere
          · exact hk.seekHere
        rcases hv.step hg hf hs ht with hn | hv'
        · exact Or.inl hn
        · rcases hk with hk | hk
          · rcases hk.step hcl hE hf ht with hn | ⟨g', hk'⟩ | hk'
            · exact Or.inl hn
            · exact Or.inr ⟨hv', g', Or.inl hk'⟩
            · exact Or.inr ⟨hv', g, Or.inr hk'⟩
          · rcases hk.step hcl hf ht with hn | hk'
            · exact Or.inl hn
            · exact Or.inr ⟨hv', g, Or.inr hk'⟩
    · intro e he
      unfold exactRule
      split
      · exact Held.read hf (hv.imp id And.left) ht he
      · trivial

end SD
