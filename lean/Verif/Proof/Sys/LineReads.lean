import Verif.Proof.Sys.Line
import Verif.Proof.Sys.ReadLog

/-! # Short reads, for any transport -/

namespace SD

variable {S : Storage}

theorem Line.contig {e : Prop} {c : Cfg} {full : Bool} {L : Lawful S full} {W : Finset Nat} {s : Sys S}
    (h : Line e c L W s) : Contig c L W s :=
  ⟨h.seq, h.inv, h.clean, h.wW⟩

/-- A read returned fewer bytes than it was asked for only at the declared length, after the transport had ended, or
because the storage cut it (`K`). -/
def shortLineRule (K : Nat → Nat → Prop) (c : Cfg) : Ev → List Ev → Prop
  | .readRet pos len _ (.ok bs), l => bs.length < len →
    (∃ N, c.contentLength = some N ∧ N ≤ pos + bs.length) ∨ Ev.eof ∈ l ∨ K len bs.length
  | _, _ => True

theorem line_short_log {P : Provider} {c : Cfg} {full : Bool} (LP : LawfulProvider P full c.contentLength)
    (hk : c.KeepsErrors) {G : Sys P.S → Act → Prop}
    (hG : ∀ s a, G s a → (c.supportsSeek = true → NoSeek s a) ∧ Forward c s a)
    {s0 s : Sys P.S} (h0 : Starts P c s0) (h : Reach c G s0 s) :
    Always (shortLineRule LP.law.Cut c) s.log := by
  generalize he : (full = true → ∀ st, P.create c.contentLength = .ok st → ∀ q, LP.law.cell st q = none) = e
  have hi : Line e c LP.law ∅ s0 := by rw [← he]; exact Line.init LP h0
  have : ((∃ W, Line e c LP.law W s) ∧ WinRdr c LP.law s ∧ Tok s ∧ EndInv s) ∧
      Always (shortLineRule LP.law.Cut c) s.log := by
    refine Reach.inv (P := fun s => ((∃ W, Line e c LP.law W s) ∧ WinRdr c LP.law s ∧ Tok s ∧ EndInv s) ∧
      Always (shortLineRule LP.law.Cut c) s.log) h ⟨⟨⟨∅, hi⟩, WinRdr.init LP h0, ?_, ?_⟩, ?_⟩ ?_
    · obtain ⟨-, st, -, rfl⟩ := h0; exact Tok.init c st
    · obtain ⟨-, st, -, rfl⟩ := h0; exact EndInv.init c st
    · obtain ⟨-, st, -, rfl⟩ := h0; trivial
    · rintro s s' a ⟨⟨⟨W, hW⟩, hR, hT, hE⟩, hl⟩ hg ht
      refine ⟨⟨hW.step (hG _ _ hg).1 ht, hR.step hW.contig hT hE (hG _ _ hg).2 ht, hT.step ht, hE.step hk ht⟩,
        always_step ht hl ?_⟩
      intro e he
      unfold shortLineRule
      split
      · exact fun hlt => hR.short hW.contig ht he hlt
      · trivial
  exact this.2

end SD
