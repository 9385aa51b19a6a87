import Verif.Proof.Sys.Pos
import Verif.Proof.Sys.WinReads

/-!
# Without seeks the reader is never ahead of the writer
-/

set_option linter.unusedSimpArgs false
set_option linter.unusedVariables false

namespace SD

variable {S : Storage}

structure Behind (L : Lawful S false) (s : Sys S) : Prop where
  cell : ∀ q, L.cell s.st q ≠ none → q < S.wtell s.st
  rpos : L.rpos s.st ≤ S.wtell s.st

theorem Behind.step {c : Cfg} {L : Lawful S false} {W : Finset Nat} {s s' : Sys S} {a : Act}
    (hw : Win c L W s) (hns : s.rpc.target = none) (h : Behind L s) (ht : Tr c s a s') : Behind L s' := by
  obtain ⟨h1, h2⟩ := h
  obtain ⟨t1, t2, t3, t4, t5, t6⟩ := L.tell_ok hw.inv
  have wr : ∀ {bs k st'}, S.write s.st bs = .ok (k, st') →
      (∀ q, L.cell st' q ≠ none → q < S.wtell st') ∧ L.rpos st' ≤ S.wtell st' := by
    intro bs k st' hx
    obtain ⟨-, -, -, w4, w5, -, w7⟩ := L.write_ok hw.inv hx
    refine ⟨fun q hq => ?_, by omega⟩
    rcases w7 q hq with h | h
    · have := h1 q h; omega
    · omega
  cases ht
  case pfWriteMore hx _ => exact ⟨(wr hx).1, (wr hx).2⟩
  case pfWriteEnd hx => exact ⟨(wr hx).1, (wr hx).2⟩
  case wWriteMore hx _ => exact ⟨(wr hx).1, (wr hx).2⟩
  case wWriteEnd hx => exact ⟨(wr hx).1, (wr hx).2⟩
  case seekOk start stp pos st' heq hx =>
    obtain ⟨e1, -⟩ := hw.seq.seekAt start stp heq
    obtain ⟨-, -, w3, w4, w5⟩ := L.wseek_ok hw.inv (Or.inr e1) hx
    refine ⟨fun q hq => ?_, ?_⟩
    · rw [w5] at hq
      have := h1 q hq
      simp only; omega
    · simp only; omega
  case rRead n fast bs st' heq hr =>
    have hcl := hw.clean (by simp [heq, RdrPc.inRead])
    obtain ⟨-, r2, -, -, r5, r6, r7⟩ := L.read_ok hw.inv (L.clean_fresh hw.inv hcl) hr
    refine ⟨fun q hq => ?_, ?_⟩
    · rw [r7] at hq
      have := h1 q hq
      simp only; omega
    · simp only [r5, r6]
      by_cases hb : bs = []
      · simpa [hb] using h2
      · have hp : 0 < bs.length := List.length_pos_iff.mpr hb
        have := h1 (L.rpos s.st + (bs.length - 1)) (by
          rw [r2 _ (by omega), List.getElem?_eq_getElem (by omega)]; simp)
        omega
  case sSeek p st' heq hr => rw [heq] at hns; simp [RdrPc.target] at hns
  all_goals first
    | exact ⟨h1, h2⟩
    | (refine ⟨fun q hq => ?_, ?_⟩
       · simp only [t6] at hq
         have := h1 q hq
         simp only; omega
       · simp only; omega)

theorem Behind.reach {c : Cfg} {P : Provider} (LP : LawfulProvider P false c.contentLength)
    {G : Sys P.S → Act → Prop} (hG : ∀ s a, G s a → SeqG c s a ∧ NoSeek s a) {s0 s : Sys P.S}
    (h0 : Starts P c s0) (h : Reach c G s0 s) : Behind LP.law s := by
  have key : (∃ W, Win c LP.law W s) ∧ s.rpc.target = none ∧ Behind LP.law s := by
    refine Reach.inv (P := fun s : Sys P.S => (∃ W, Win c LP.law W s) ∧ s.rpc.target = none ∧ Behind LP.law s)
      h ⟨⟨∅, Win.init LP h0⟩, ?_, ?_⟩ ?_
    · obtain ⟨-, st, -, rfl⟩ := h0; rfl
    · obtain ⟨-, st, hc, rfl⟩ := h0
      obtain ⟨h1, h2, h3, h4, h5, h6⟩ := LP.create_ok hc
      refine ⟨fun q hq => ?_, ?_⟩
      · have := (h6 q hq).1
        simp at this
      · simp only [SD.init]; omega
    · rintro s s' a ⟨⟨W, hW⟩, ht0, hB⟩ hg ht
      refine ⟨?_, ?_, hB.step hW ht0 ht⟩
      · cases ha : a.isRdr
        · exact hW.src (hG _ _ hg).1 ha ht
        · exact ⟨W, hW.rdr (hG _ _ hg).1 ha ht⟩
      · have hns := (hG _ _ hg).2
        unfold NoSeek at hns
        clear hB hW
        cases ht <;> simp_all [RdrPc.target]
  exact key.2.2

end SD
