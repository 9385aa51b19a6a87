import Verif.Proof.Sys.Reads

/-!
# Storages that keep a window: downloads without seeks of the transport

If the consumer does not seek, or the source cannot seek, the download is
contiguous.  The invariant `Seq` records that; `Win` adds what a windowed storage
holds.
-/

set_option linter.unusedSimpArgs false
set_option linter.unusedVariables false

namespace SD

variable {S : Storage}

/-- Where `Source::write` started, if what it wrote is not recorded yet. -/
def SrcPc.wopen : SrcPc → Option Nat
  | .wReq p _ _ | .wWrite p _ _ _ | .wAdd p _ _ _ => some p
  | _ => none

/-- Bytes received and not written yet. -/
def inFlight (s : Sys S) : List Byte := s.spc.pend ++ s.rem.getD []

/-- The download is contiguous from 0. -/
structure Seq (c : Cfg) (s : Sys S) : Prop where
  wf : RSet.WF s.dl
  noSeek : c.supportsSeek = true → s.seekQ = none ∧ (∀ p, s.spc ≠ .seekMsg p) ∧ s.rpc.target = none
  dlub : ∀ q, RSet.Mem s.dl q → q < S.wtell s.st
  cov : s.pfDone = true → s.spc.active = true → ∀ q, q < S.wtell s.st →
    RSet.Mem s.dl q ∨ ∃ p, s.spc.wopen = some p ∧ p ≤ q
  pfz : s.pfDone = false → s.pfStart = 0
  wle : ∀ p, s.spc.wpos = some p → p ≤ S.wtell s.st ∧ s.pfDone = true ∧ s.rem = none
  inPf : s.spc.inPf = true → s.pfDone = false
  remPf : s.pfDone = false → s.rem = none
  fin : s.spc = .fin → s.pfDone = true ∧ s.rem = none
  seekAt : ∀ a b, s.spc = .seeking a b → a = S.wtell s.st ∧ s.rem = none ∧ s.pfDone = true
  recon : ∀ p, s.spc = .reconn p → p = S.wtell s.st

/-- The guard under which a download is contiguous. -/
def SeqG (c : Cfg) (s : Sys S) (a : Act) : Prop :=
  Honest s a ∧ CleanReconnect s a ∧ (c.supportsSeek = true → NoSeek s a)

theorem startPc_wopen (w : Nat) (bs : List Byte) (p : Nat) (h : (startPc w bs).wopen = some p) : p = w := by
  revert h; unfold startPc; split <;> simp [SrcPc.wopen]; intro h; exact h.symm

theorem startPc_wpos (w : Nat) (bs : List Byte) (p : Nat) (h : (startPc w bs).wpos = some p) : p = w := by
  revert h; unfold startPc; split <;> simp [SrcPc.wpos]; intro h; exact h.symm

/-- The gap that is found after a contiguous download starts at the writer. -/
theorem Seq.gap {c : Cfg} {s : Sys S} (h : Seq c s) (hf : s.spc = .fin) {n a b : Nat}
    (hg : RSet.nextGap s.dl 0 n = some (a, b)) : a = S.wtell s.st := by
  obtain ⟨g1, g2, g3, g4, g5, g6⟩ := RSet.nextGap_some h.wf hg
  have h1 : a ≤ S.wtell s.st := by
    by_contra hlt
    have := h.dlub (S.wtell s.st) (g4 _ (by omega) (by omega))
    omega
  by_contra hne
  have := h.cov (h.fin hf).1 (by simp [hf, SrcPc.active, SrcPc.live]) a (by omega)
  rcases this with hm | ⟨p, hp, -⟩
  · exact g5 a (by omega) g2 hm
  · simp [hf, SrcPc.wopen] at hp

set_option maxHeartbeats 2000000 in
theorem Seq.step {full : Bool} {c : Cfg} {L : Lawful S full} {W : Finset Nat} {s s' : Sys S} {a : Act}
    (hG : c.supportsSeek = true → NoSeek s a) (h : Seq c s) (hinv : L.Inv s.st W)
    (hc : CleanInv L s) (ht : Tr c s a s') : Seq c s' := by
  have hgap := fun hf n a b hg => h.gap (n := n) (a := a) (b := b) hf hg
  have hadd := RSet.mem_add h.wf
  have hwfa := RSet.wf_add h.wf
  obtain ⟨t1, t2, t3, t4, t5, t6⟩ := L.tell_ok hinv
  have hw := fun bs k st' hw => (L.write_ok (bs := bs) (k := k) (s' := st') hinv hw).2.2.2.2.1
  have hws : ∀ st', S.wseek s.st (S.wtell s.st) = .ok st' → S.wtell st' = S.wtell s.st :=
    fun st' hw => (L.wseek_ok hinv (Or.inr rfl) hw).2.2.2.1
  have hrs := fun p st' hr => (L.rseek_ok (p := p) (s' := st') hinv hr).2.2.2.1
  have hrd : ∀ n b bs st', s.rpc = .rRead n b → S.read s.st n = .ok (bs, st') →
      S.wtell st' = S.wtell s.st := by
    intro n b bs st' h1 h2
    exact (L.read_ok hinv (L.clean_fresh hinv (hc (by simp [h1, RdrPc.inRead]))) h2).2.2.2.2.2.1
  obtain ⟨h1, h2, h3, h4, h5, h6, h7, h8, h9, h10, h11⟩ := h
  unfold NoSeek at hG
  cases ht
  all_goals constructor
  all_goals grind [SrcPc.wopen, SrcPc.wpos, SrcPc.inPf, SrcPc.active, SrcPc.live, RdrPc.target, roundPc,
    startPc, shouldSeek]

end SD
