import Verif.Proof.Sys.Complete
import Verif.Proof.Sys.ReadLog

/-!
# Short reads of seekable sources with a known length
-/

set_option linter.unusedSimpArgs false
set_option linter.unusedVariables false

namespace SD

variable {S : Storage}

/-- A read that had to wait finds everything it wants. -/
def Sure (c : Cfg) (L : Lawful S true) (N : Nat) (W : Finset Nat) (s : Sys S) : Prop :=
  ∀ n, s.rpc = .rRead n false → RSet.Covers s.dl 0 N ∨
    ∀ q, L.rpos s.st ≤ q → q < c.normalize (L.rpos s.st + n) → GoodAt c L W s.st q

/-- A short read ends at the end of the resource, except those that `K` describes. -/
def endRule (K : Nat → Nat → Prop) (N : Nat) (e : Ev) (_ : List Ev) : Prop :=
  match e with
  | .readRet pos len _ (.ok bs) => bs.length < len → N ≤ pos + bs.length ∨ K len bs.length
  | _ => True

theorem dl_mono {c : Cfg} {s s' : Sys S} {a : Act} (hwf : RSet.WF s.dl) (ht : Tr c s a s') {q : Nat}
    (h : RSet.Mem s.dl q) : RSet.Mem s'.dl q := by
  have hm : ∀ lo hi, RSet.Mem (RSet.add s.dl lo hi) q := fun lo hi =>
    (RSet.mem_add hwf lo hi q).mpr (Or.inl h)
  cases ht <;> first
    | exact h
    | exact hm _ _

theorem Sure.step {E : Prop} {c : Cfg} {L : Lawful S true} {W : Finset Nat} {s s' : Sys S} {a : Act}
    {N : Nat} (hnone : c.contentLength = none → E)
    (hb : c.batchSize ≠ 0) (hlen : c.LengthHonest) (hk : c.KeepsErrors)
    (hTot : ∀ p, c.supportsSeek = true → s.rpc = .sSeek p → ∃ x, S.rseek s.st p = .ok x)
    (hcov : s.done = true → s.failed = false → RSet.Covers s.dl 0 N)
    (hG : FwdG E c s a) (h : FwdAll E c L W s) (hs : Sure c L N W s) (ht : Tr c s a s') :
    ∃ W', FwdAll E c L W' s' ∧ Sure c L N W' s' := by
  have hT' := h.tok.step ht
  have hE' := h.ends.step hk ht
  have hdl : RSet.Covers s.dl 0 N → RSet.Covers s'.dl 0 N :=
    fun hc q h1 h2 => dl_mono h.full.src.wf ht (hc q h1 h2)
  cases ha : a.isRdr
  · obtain ⟨W', e, hF'⟩ := h.full.step hb hlen hG.1 ht
    refine ⟨W', ⟨hF', h.fwd.src hnone hk hG.2.1 h.full h.ends h.tok ha ht e hF', hT', hE'⟩, ?_⟩
    have f := src_frame L ha ht h.full.src.inv (fun _ _ _ => Or.inl rfl)
    intro n hr
    rw [f.rpc] at hr
    rw [f.rpos]
    rcases hs n hr with h1 | h1
    · exact Or.inl (hdl h1)
    · exact Or.inr (fun q h2 h3 => e.good q (h1 q h2 h3))
  · obtain ⟨f, hi, hc⟩ := rdr_frame L ha ht h.full.src.inv h.full.rdr.clean
    refine ⟨W, ⟨⟨h.full.src.of_frame f hi, FullRdr.step h.full.src h.full.rdr ha ht⟩,
      h.fwd.rdr hTot hG.2.2 h.full h.ends h.tok ha ht, hT', hE'⟩, ?_⟩
    have hg : ∀ q, GoodAt c L W s'.st q ↔ GoodAt c L W s.st q := by
      intro q; unfold GoodAt; rw [f.cell q]
    intro n hr
    simp only [hg]
    cases ht
    case rCheckOk n' r heq hnf =>
      simp only [RdrPc.rRead.injEq] at hr
      have hn := h.fwd.norm n' r (by simp [heq, RdrPc.readReq])
      rcases h.fwd.ready n' r heq with hd | hgd
      · exact Or.inl (hcov hd hnf)
      · exact Or.inr (fun q h1 h2 => hgd q h1 (by rw [hn, hr.1]; exact h2))
    all_goals first
      | (simp [Act.isRdr] at ha; done)
      | (simp at hr; done)
      | (exact hs n hr)
      | (simp_all; done)

theorem sure_log {P : Provider} {c : Cfg} (LP : LawfulProvider P true c.contentLength)
    {G : Sys P.S → Act → Prop} (hTot : SeekWorks c LP.law G)
    (hb : c.batchSize ≠ 0) (hlen : c.LengthHonest) (hk : c.KeepsErrors)
    {N : Nat} (hss : c.supportsSeek = true) (hN : c.contentLength = some N)
    (hG : ∀ s a, G s a → FwdG (StartsEmpty LP) c s a)
    {s0 s : Sys P.S} (h0 : Starts P c s0) (h : Reach c G s0 s) :
    (∃ W, FwdAll (StartsEmpty LP) c LP.law W s ∧ Sure c LP.law N W s) ∧ Always (endRule LP.law.Cut N) s.log := by
  induction h with
  | refl =>
    refine ⟨⟨∅, FwdAll.init LP h0, ?_⟩, ?_⟩
    · obtain ⟨-, st, -, rfl⟩ := h0; intro n hn; simp [init] at hn
    · obtain ⟨-, st, -, rfl⟩ := h0; trivial
  | @step s s' a hr hg hs ih =>
    obtain ⟨⟨W, hW, hS⟩, hl⟩ := ih
    have ht := tr_of_step hs
    have hcov : s.done = true → s.failed = false → RSet.Covers s.dl 0 N := by
      obtain ⟨-, st, -, rfl⟩ := h0
      exact fun hd hf => covered_of_done hk hr hd hf hss hN
    refine ⟨hS.step (startsEmpty_none LP) hb hlen hk (fun p => hTot _ _ _ p hg hW.full.src.inv) hcov (hG _ _ hg) hW ht, ?_⟩
    refine always_step ht hl (fun e he => ?_)
    unfold endRule
    split
    · next pos len fast bs =>
      intro hlt
      obtain ⟨-, h2, h3, h4, -⟩ := tr_readRet ht he
      obtain ⟨t1, -⟩ := LP.law.tell_ok hW.full.src.inv
      have hcl := hW.full.rdr.clean (by simp [h2, RdrPc.inRead])
      have hfin : bs.length = c.normalize (pos + len) - pos → N ≤ pos + bs.length := by
        intro hlen; simp only [Cfg.normalize, hN] at hlen; omega
      cases fast with
      | true =>
        exact (hW.full.fast_read ht he).2.imp hfin id
      | false =>
        rw [t1] at h3; subst h3
        have hg : ∀ q, LP.law.rpos s.st ≤ q → q < c.normalize (LP.law.rpos s.st + len) →
            GoodAt c LP.law W s.st q := by
          rcases hS len h2 with h6 | h6
          · intro q h7 h8
            refine hW.full.src.good q (h6 q (by omega) ?_)
            simp only [Cfg.normalize, hN] at h8; omega
          · exact h6
        exact (read_exact_len hW.full.src.inv hcl h4 (full_bnd hW.full) hg).imp hfin id
    · trivial

end SD
