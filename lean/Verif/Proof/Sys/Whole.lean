import Verif.Proof.Sys.ReadLog

/-!
# A download of known length that has ended is complete

For histories without a way back: when the task has ended without an error, every byte up to
the declared length is stored, so a read is only short at the end.
-/

set_option linter.unusedSimpArgs false
set_option linter.unusedVariables false

namespace SD

variable {S : Storage}

structure Whole (c : Cfg) (L : Lawful S true) (N : Nat) (W : Finset Nat) (s : Sys S) : Prop where
  finw : s.spc = .fin → c.supportsSeek = false → N ≤ S.wtell s.st
  all : finished s → ∀ q, q < N → GoodAt c L W s.st q
  rd : ∀ n, s.rpc = .rRead n false → ∀ q, L.rpos s.st ≤ q → q < c.normalize (L.rpos s.st + n) →
    GoodAt c L W s.st q

/-- The histories. -/
def WholeG (c : Cfg) (s : Sys S) (a : Act) : Prop :=
  Honest s a ∧ Delivers c s a ∧ (c.supportsSeek = true → Connected c s a)

theorem Whole.src {E : Prop} {c : Cfg} {L : Lawful S true} {N : Nat} {W W' : Finset Nat} {s s' : Sys S} {a : Act}
    (hN : c.contentLength = some N) (hk : c.KeepsErrors) (hdel : Delivers c s a)
    (h : Whole c L N W s) (hA : FwdAll E c L W s) (ha : a.isRdr = false)
    (ht : Tr c s a s') (hW : SrcEff c L W s W' s') : Whole c L N W' s' := by
  have f := src_frame L ha ht hA.full.src.inv (fun _ _ _ => Or.inl rfl)
  constructor
  · intro hfin hss
    have hd := fun e => hdel e hss N hN
    cases ht
    case eofPf heq hpf =>
      have := hd rfl
      have t := hA.full.src.tpos (by simp [heq, SrcPc.live])
      simp only [heq, SrcPc.pend, List.length_nil] at t
      simp only; omega
    case eof heq hpf hrem =>
      have := hd rfl
      have t := hA.full.src.tpos (by simp [heq, SrcPc.live])
      simp only [heq, SrcPc.pend, List.length_nil] at t
      simp only; omega
    all_goals first
      | (simp [Act.isRdr] at ha; done)
      | (simp at hfin; done)
      | (simp [*] at hfin; done)
      | exact h.finw hfin hss
      | (simp only [roundPc] at hfin; split at hfin <;> [simp at hfin; (split at hfin <;> simp at hfin)]; done)
      | (simp only [startPc] at hfin; split at hfin <;> simp at hfin)
  · intro hf q hq
    rcases finished_src hA.ends hk ha ht hf with hd | ⟨e1, e2, e3, e4⟩
    · exact hW.good q (h.all hd q hq)
    · cases hss : c.supportsSeek
      · have := h.finw e1 hss
        exact hW.good q (hA.fwd.J (by simp [e1, SrcPc.active, SrcPc.live]) q (by simp [lb, hss])
          (by simp only [wnext, e1]; omega))
      · have hcov := RSet.nextGap_none (e4 hss N hN)
        exact hW.good q (hA.full.src.good q (hcov q (by omega) hq))
  · intro n hr q h1 h2
    rw [f.rpc] at hr
    rw [f.rpos] at h1 h2
    exact hW.good q (h.rd n hr q h1 h2)

theorem Whole.rdr {E : Prop} {c : Cfg} {L : Lawful S true} {N : Nat} {W : Finset Nat} {s s' : Sys S} {a : Act}
    (hN : c.contentLength = some N) (h : Whole c L N W s) (hA : FwdAll E c L W s) (ha : a.isRdr = true)
    (ht : Tr c s a s') : Whole c L N W s' := by
  obtain ⟨f, hi, hc⟩ := rdr_frame L ha ht hA.full.src.inv hA.full.rdr.clean
  have hg : ∀ q, GoodAt c L W s'.st q ↔ GoodAt c L W s.st q := by
    intro q; unfold GoodAt; rw [f.cell q]
  have hfin : finished s' ↔ finished s := by unfold finished; rw [f.spc, f.failed, f.done]
  constructor
  · rw [f.spc, f.wtell]; exact h.finw
  · intro hf q hq
    rw [hg]; exact h.all (hfin.mp hf) q hq
  · have hsl := h.rd
    simp only [hg]
    cases ht
    case rCheckOk n r heq hnf =>
      intro n' hn' q h1 h2
      simp only [RdrPc.rRead.injEq] at hn'
      have hr := hA.fwd.norm n r (by simp [heq, RdrPc.readReq])
      rcases hA.fwd.ready n r heq with hd | hgd
      · refine h.all (Or.inr ⟨hnf, Or.inr hd⟩) q ?_
        unfold Cfg.normalize at h2
        rw [hN] at h2
        simp only at h2
        omega
      · exact hgd q h1 (by rw [hr, hn'.1]; exact h2)
    all_goals first
      | (simp [Act.isRdr] at ha; done)
      | (simp; done)
      | exact hsl
      | (simp [*]; done)

/-- Short reads are at the end, except those that `K` describes. -/
def shortRule (K : Nat → Nat → Prop) (N : Nat) (e : Ev) (_ : List Ev) : Prop :=
  match e with
  | .readRet pos len _ (.ok bs) => bs.length < len → N ≤ pos + bs.length ∨ K len bs.length
  | _ => True

theorem Whole.short {E : Prop} {c : Cfg} {L : Lawful S true} {N : Nat} {W : Finset Nat} {s s' : Sys S}
    {a : Act} (hN : c.contentLength = some N) (h : Whole c L N W s) (hA : FwdAll E c L W s)
    (ht : Tr c s a s') {e : Ev} (he : s'.log = e :: s.log) : shortRule L.Cut N e s.log := by
  unfold shortRule
  split
  · next pos len fast bs =>
    intro hlt
    obtain ⟨-, h2, h3, h4, -⟩ := tr_readRet ht he
    obtain ⟨t1, -⟩ := L.tell_ok hA.full.src.inv
    have hlen : bs.length = c.normalize (pos + len) - pos ∨ L.Cut len bs.length := by
      cases fast with
      | true => exact (hA.full.fast_read ht he).2
      | false =>
        have hcl := hA.full.rdr.clean (by simp [h2, RdrPc.inRead])
        rw [t1] at h3; subst h3
        exact read_exact_len hA.full.src.inv hcl h4 (full_bnd hA.full) (h.rd len h2)
    refine hlen.imp (fun hlen => ?_) id
    unfold Cfg.normalize at hlen
    rw [hN] at hlen
    simp only at hlen
    omega
  · trivial

theorem whole_log {P : Provider} {c : Cfg} (LP : LawfulProvider P true c.contentLength)
    {G : Sys P.S → Act → Prop} (hTot : SeekWorks c LP.law G)
    (hb : c.batchSize ≠ 0) (hlen : c.LengthHonest) (hk : c.KeepsErrors) {N : Nat}
    (hN : c.contentLength = some N) (hG : ∀ s a, G s a → WholeG c s a)
    {s0 s : Sys P.S} (h0 : Starts P c s0) (h : Reach c G s0 s) :
    (∃ W, FwdAll (StartsEmpty LP) c LP.law W s ∧ Whole c LP.law N W s) ∧
      Always (shortRule LP.law.Cut N) s.log := by
  refine Reach.inv (P := fun s => (∃ W, FwdAll (StartsEmpty LP) c LP.law W s ∧ Whole c LP.law N W s) ∧
    Always (shortRule LP.law.Cut N) s.log) h ⟨⟨∅, FwdAll.init LP h0, ?_⟩, ?_⟩ ?_
  · obtain ⟨-, st, -, rfl⟩ := h0
    constructor <;> simp [init, finished, SrcPc.normal]
  · obtain ⟨-, st, -, rfl⟩ := h0; trivial
  · rintro s s' a ⟨⟨W, hA, hW⟩, hl⟩ hg ht
    have hg' := hG _ _ hg
    refine ⟨?_, always_step ht hl (fun e he => hW.short hN hA ht he)⟩
    have hT' := hA.tok.step ht
    have hE' := hA.ends.step hk ht
    cases ha : a.isRdr
    · obtain ⟨W', e, hF'⟩ := hA.full.step hb hlen hg'.1 ht
      exact ⟨W', ⟨hF', hA.fwd.src (startsEmpty_none LP) hk (fun _ => hg'.2.1) hA.full hA.ends hA.tok ha ht e hF', hT', hE'⟩,
        hW.src hN hk hg'.2.1 hA ha ht e⟩
    · obtain ⟨f, hi, hc⟩ := rdr_frame LP.law ha ht hA.full.src.inv hA.full.rdr.clean
      exact ⟨W, ⟨⟨hA.full.src.of_frame f hi, FullRdr.step hA.full.src hA.full.rdr ha ht⟩,
        hA.fwd.rdr (fun p => hTot _ _ _ p hg hA.full.src.inv) hg'.2.2 hA.full hA.ends hA.tok ha ht, hT', hE'⟩, hW.rdr hN hA ha ht⟩

/-! ### Windowed storage -/

structure WinWhole (c : Cfg) (L : Lawful S false) (N : Nat) (s : Sys S) : Prop where
  finw : s.spc = .fin → c.supportsSeek = false → N ≤ S.wtell s.st
  all : finished s → N ≤ S.wtell s.st
  rd : ∀ n b, s.rpc = .rRead n b → c.normalize (L.rpos s.st + n) ≤ S.wtell s.st

theorem WinWhole.step {c : Cfg} {L : Lawful S false} {N : Nat} {W : Finset Nat} {s s' : Sys S} {a : Act}
    (hN : c.contentLength = some N) (hk : c.KeepsErrors) (hdel : Delivers c s a)
    (h : WinWhole c L N s) (hw : Win c L W s) (hR : WinRdr c L s) (hR' : WinRdr c L s') (he : EndInv s)
    (ht : Tr c s a s') : WinWhole c L N s' := by
  have hmono := wtell_mono hw.contig ht
  constructor
  · intro hfin hss
    have hd := fun e => hdel e hss N hN
    have t := hw.flow
    unfold inFlight at t
    have hpf := hw.seq.remPf
    cases ht
    case eofPf heq hpf' =>
      have := hd rfl
      have t := (t (by simp [heq, SrcPc.live])).2
      simp only [heq, SrcPc.pend, hpf hpf', Option.getD_none, List.append_nil, List.length_nil] at t
      simp only; omega
    case eof heq hpf' hrem =>
      have := hd rfl
      have t := (t (by simp [heq, SrcPc.live])).2
      simp only [heq, SrcPc.pend, hrem, Option.getD_none, List.append_nil, List.length_nil] at t
      simp only; omega
    all_goals first
      | (simp at hfin; done)
      | (simp [*] at hfin; done)
      | exact Nat.le_trans (h.finw hfin hss) hmono
      | (simp only [roundPc] at hfin; split at hfin <;> [simp at hfin; (split at hfin <;> simp at hfin)]; done)
      | (simp only [startPc] at hfin; split at hfin <;> simp at hfin)
  · intro hf
    cases ha : a.isRdr
    · rcases finished_src he hk ha ht hf with hd | ⟨e1, e2, e3, e4⟩
      · exact Nat.le_trans (h.all hd) hmono
      · refine Nat.le_trans ?_ hmono
        cases hss : c.supportsSeek
        · exact h.finw e1 hss
        · have hcov := RSet.nextGap_none (e4 hss N hN)
          by_cases h0 : N = 0
          · omega
          · have := hw.seq.dlub (N - 1) (hcov (N - 1) (by omega) (by omega))
            omega
    · obtain ⟨f, hi, hc⟩ := rdr_frame L ha ht hw.inv hw.clean
      have hfin : finished s' ↔ finished s := by unfold finished; rw [f.spc, f.failed, f.done]
      exact Nat.le_trans (h.all (hfin.mp hf)) hmono
  · intro n b hr
    cases ha : a.isRdr
    · have f := src_frame L ha ht hw.inv (fun a b hs => Or.inr (hw.seq.seekAt a b hs).1)
      rw [f.rpc] at hr
      rw [f.rpos]
      exact Nat.le_trans (h.rd n b hr) hmono
    · obtain ⟨t1, t2, t3, t4, t5, t6⟩ := L.tell_ok hw.inv
      have hlen := hR'.len n b hr
      rcases hlen with ⟨rfl, -⟩ | hle
      swap
      · exact hle
      cases ht
      case rCheckOk n' r heq hnf =>
        simp only [RdrPc.rRead.injEq, and_true] at hr
        subst hr
        have hr := hR.norm n' r (by simp [heq, RdrPc.readReq])
        rcases hR.ready n' r heq with hd | hle
        · have h1 := h.all (Or.inr ⟨hnf, Or.inr hd⟩)
          simp only [Cfg.normalize, hN]
          omega
        · simp only; omega
      all_goals first
        | (simp [Act.isRdr] at ha; done)
        | exact h.rd n _ hr
        | (simp at hr; done)
        | (simp [*] at hr; done)

theorem WinWhole.short {c : Cfg} {L : Lawful S false} {N : Nat} {W : Finset Nat} {s s' : Sys S}
    {a : Act} (hN : c.contentLength = some N) (h : WinWhole c L N s) (hw : Win c L W s) (hR : WinRdr c L s)
    (ht : Tr c s a s') {e : Ev} (he : s'.log = e :: s.log) : shortRule (fun _ _ => False) N e s.log := by
  unfold shortRule
  split
  · next pos len fast bs =>
    intro hlt
    obtain ⟨-, h2, h3, h4, -⟩ := tr_readRet ht he
    obtain ⟨t1, -⟩ := L.tell_ok hw.inv
    rw [t1] at h3; subst h3
    have hcl := hw.clean (by simp [h2, RdrPc.inRead])
    have hle := h.rd len fast h2
    have hle2 := normalize_le_self c (L.rpos s.st + len)
    have := (L.read_len (m := c.normalize (L.rpos s.st + len) - L.rpos s.st) hw.inv hR.exact hcl h4
      (by omega) (fun i hi => hw.wW _ (by omega))).resolve_right
      (fun hc => Bool.noConfusion (L.cut_full hc))
    left
    unfold Cfg.normalize at this
    rw [hN] at this
    simp only at this
    omega
  · trivial

theorem win_whole_log {P : Provider} {c : Cfg} (LP : LawfulProvider P false c.contentLength)
    (hk : c.KeepsErrors) {N : Nat} (hN : c.contentLength = some N) {G : Sys P.S → Act → Prop}
    (hG : ∀ s a, G s a → SeqG c s a ∧ Forward c s a ∧ Delivers c s a)
    {s0 s : Sys P.S} (h0 : Starts P c s0) (h : Reach c G s0 s) :
    ((∃ W, Win c LP.law W s) ∧ WinRdr c LP.law s ∧ Tok s ∧ EndInv s ∧ WinWhole c LP.law N s) ∧
      Always (shortRule (fun _ _ => False) N) s.log := by
  refine Reach.inv (P := fun s => ((∃ W, Win c LP.law W s) ∧ WinRdr c LP.law s ∧ Tok s ∧ EndInv s ∧
    WinWhole c LP.law N s) ∧ Always (shortRule (fun _ _ => False) N) s.log) h
    ⟨⟨⟨∅, Win.init LP h0⟩, WinRdr.init LP h0, ?_, ?_, ?_⟩, ?_⟩ ?_
  · obtain ⟨-, st, -, rfl⟩ := h0; exact Tok.init c st
  · obtain ⟨-, st, -, rfl⟩ := h0; exact EndInv.init c st
  · obtain ⟨-, st, -, rfl⟩ := h0
    constructor <;> simp [init, finished, SrcPc.normal]
  · obtain ⟨-, st, -, rfl⟩ := h0; trivial
  · rintro s s' a ⟨⟨⟨W, hW⟩, hR, hT, hE, hA⟩, hl⟩ hg ht
    have hR' := hR.step hW.contig hT hE (hG _ _ hg).2.1 ht
    refine ⟨⟨?_, hR', hT.step ht, hE.step hk ht, hA.step hN hk (hG _ _ hg).2.2 hW hR hR' hE ht⟩,
      always_step ht hl (fun e he => hA.short hN hW hR ht he)⟩
    cases ha : a.isRdr
    · exact hW.src (hG _ _ hg).1 ha ht
    · exact ⟨W, hW.rdr (hG _ _ hg).1 ha ht⟩

end SD
