import Verif.Spec.Ends
import Verif.Proof.Sys.Whole

/-!
# A download of unknown length that has ended is complete

If the transport ends only at the end of the resource.
-/

set_option linter.unusedSimpArgs false
set_option linter.unusedVariables false

namespace SD

variable {S : Storage}

/-- The histories. -/
def EndG (c : Cfg) (s : Sys S) (a : Act) : Prop :=
  Honest s a ∧ EndsAtEnd c s a ∧ (c.supportsSeek = true → Connected c s a)

structure UWhole (c : Cfg) (L : Lawful S true) (N : Nat) (W : Finset Nat) (s : Sys S) : Prop where
  finw : s.spc = .fin → N ≤ S.wtell s.st
  all : s.failed = false → finished s → ∀ q, lb c L s ≤ q → q < N → GoodAt c L W s.st q
  rd : ∀ n, s.rpc = .rRead n false → ∀ q, L.rpos s.st ≤ q → q < L.rpos s.st + n → q < N →
    GoodAt c L W s.st q

theorem normalize_unknown {c : Cfg} (h : c.contentLength = none) (p : Nat) : c.normalize p = p := by
  simp [Cfg.normalize, h]

theorem UWhole.src {E : Prop} {c : Cfg} {L : Lawful S true} {N : Nat} {W W' : Finset Nat} {s s' : Sys S} {a : Act}
    (hN : c.remoteLen = some N) (hk : c.KeepsErrors) (hend : EndsAtEnd c s a)
    (h : UWhole c L N W s) (hA : FwdAll E c L W s) (ha : a.isRdr = false)
    (ht : Tr c s a s') (hW : SrcEff c L W s W' s') : UWhole c L N W' s' := by
  have f := src_frame L ha ht hA.full.src.inv (fun _ _ _ => Or.inl rfl)
  have hlb : lb c L s' = lb c L s := by unfold lb; rw [f.rpc, f.rpos]
  constructor
  · intro hfin
    have hd := fun e => hend e N hN
    cases ht
    case eofPf heq hpf =>
      have := hd rfl
      have t := hA.full.src.tpos (by simp [heq, SrcPc.live])
      simp only [heq, SrcPc.pend, List.length_nil] at t
      simp only; omega
    case eof heq hpf hrem =>
      have := hd rfl
      have t := hA.full.src.tpos (by simp [heq, SrcPc.live])
      simp only [heq, SrcPc.pend, List.length_nil] at t
      simp only; omega
    all_goals first
      | (simp [Act.isRdr] at ha; done)
      | (simp at hfin; done)
      | (simp [*] at hfin; done)
      | exact h.finw hfin
      | (simp only [roundPc] at hfin; split at hfin <;> [simp at hfin; (split at hfin <;> simp at hfin)]; done)
      | (simp only [startPc] at hfin; split at hfin <;> simp at hfin)
  · intro hnf hf q h1 h2
    rw [hlb] at h1
    rcases finished_src hA.ends hk ha ht hf with hd | ⟨e1, e2, e3, e4⟩
    · refine hW.good q (h.all ?_ hd q h1 h2)
      cases hfl : s.failed
      · rfl
      · exfalso
        clear hd hf h1 h2 hlb f hW h hA
        cases ht <;> simp_all
    · have := h.finw e1
      exact hW.good q (hA.fwd.J (by simp [e1, SrcPc.active, SrcPc.live]) q h1
        (by simp only [wnext, e1]; omega))
  · intro n hr q h1 h2 h3
    rw [f.rpc] at hr
    rw [f.rpos] at h1 h2
    exact hW.good q (h.rd n hr q h1 h2 h3)

theorem UWhole.rdr {E : Prop} {c : Cfg} {L : Lawful S true} {N : Nat} {W : Finset Nat} {s s' : Sys S} {a : Act}
    (hcl : c.contentLength = none) (hTot : ∀ p, c.supportsSeek = true → s.rpc = .sSeek p → ∃ x, S.rseek s.st p = .ok x) (hfw : c.supportsSeek = true → Connected c s a)
    (h : UWhole c L N W s) (hA : FwdAll E c L W s)
    (ha : a.isRdr = true) (ht : Tr c s a s') : UWhole c L N W s' := by
  obtain ⟨f, hi, hc⟩ := rdr_frame L ha ht hA.full.src.inv hA.full.rdr.clean
  have hg : ∀ q, GoodAt c L W s'.st q ↔ GoodAt c L W s.st q := by
    intro q; unfold GoodAt; rw [f.cell q]
  have hfin : finished s' ↔ finished s := by unfold finished; rw [f.spc, f.failed, f.done]
  constructor
  · rw [f.spc, f.wtell]; exact h.finw
  · intro hnf hf q h1 h2
    rw [f.failed] at hnf
    rw [hg]
    rcases lb_known hTot hfw hA.fwd hA.full hnf ha ht q h1 with h1 | h1
    · exact h.all hnf (hfin.mp hf) q h1 h2
    · exact h1
  · have hsl := h.rd
    simp only [hg]
    cases ht
    case rCheckOk n r heq hnf =>
      intro n' hn' q h1 h2 h3
      simp only [RdrPc.rRead.injEq] at hn'
      have hr := hA.fwd.norm n r (by simp [heq, RdrPc.readReq])
      rw [normalize_unknown hcl] at hr
      rcases hA.fwd.ready n r heq with hd | hgd
      · have hl := lb_target_none (c := c) (L := L) (s := s) (by simp [heq, RdrPc.target])
        exact h.all hnf (Or.inr ⟨hnf, Or.inr hd⟩) q (by simp only at h1; omega) h3
      · exact hgd q h1 (by rw [hr, hn'.1]; exact h2)
    all_goals first
      | (simp [Act.isRdr] at ha; done)
      | (simp; done)
      | exact hsl
      | (simp [*]; done)

theorem UWhole.short {E : Prop} {c : Cfg} {L : Lawful S true} {N : Nat} {W : Finset Nat} {s s' : Sys S}
    {a : Act} (hcl : c.contentLength = none) (h : UWhole c L N W s) (hA : FwdAll E c L W s)
    (ht : Tr c s a s') {e : Ev} (he : s'.log = e :: s.log) : shortRule L.Cut N e s.log := by
  unfold shortRule
  split
  · next pos len fast bs =>
    intro hlt
    obtain ⟨-, h2, h3, h4, -⟩ := tr_readRet ht he
    obtain ⟨t1, -⟩ := L.tell_ok hA.full.src.inv
    cases fast with
    | true =>
      refine (hA.full.fast_read ht he).2.imp (fun this => ?_) id
      rw [normalize_unknown hcl] at this
      omega
    | false =>
      have hcln := hA.full.rdr.clean (by simp [h2, RdrPc.inRead])
      rw [t1] at h3; subst h3
      have hg := h.rd len h2
      refine (L.read_len (m := min len (N - L.rpos s.st)) hA.full.src.inv (L.exact_full rfl s.st) hcln h4
        (by omega) (fun i hi => (hg (L.rpos s.st + i) (by omega) (by omega) (by omega)).1)).imp
        (fun _ => ?_) id
      omega
  · trivial

theorem uwhole_log {P : Provider} {c : Cfg} (LP : LawfulProvider P true c.contentLength)
    {G : Sys P.S → Act → Prop} (hTot : SeekWorks c LP.law G)
    (hb : c.batchSize ≠ 0) (hk : c.KeepsErrors) {N : Nat}
    (hcl : c.contentLength = none) (hN : c.remoteLen = some N)
    (hG : ∀ s a, G s a → EndG c s a)
    {s0 s : Sys P.S} (h0 : Starts P c s0) (h : Reach c G s0 s) :
    (∃ W, FwdAll (StartsEmpty LP) c LP.law W s ∧ UWhole c LP.law N W s) ∧
      Always (shortRule LP.law.Cut N) s.log := by
  have hlen : c.LengthHonest := fun n hn => by rw [hcl] at hn; simp at hn
  refine Reach.inv (P := fun s => (∃ W, FwdAll (StartsEmpty LP) c LP.law W s ∧ UWhole c LP.law N W s) ∧
    Always (shortRule LP.law.Cut N) s.log) h ⟨⟨∅, FwdAll.init LP h0, ?_⟩, ?_⟩ ?_
  · obtain ⟨-, st, -, rfl⟩ := h0
    constructor <;> simp [init, finished, SrcPc.normal]
  · obtain ⟨-, st, -, rfl⟩ := h0; trivial
  · rintro s s' a ⟨⟨W, hA, hW⟩, hl⟩ hg ht
    have hg' := hG _ _ hg
    refine ⟨?_, always_step ht hl (fun e he => hW.short hcl hA ht he)⟩
    have hT' := hA.tok.step ht
    have hE' := hA.ends.step hk ht
    have hsk := fun p => hTot s W a p hg hA.full.src.inv
    have hdel : Delivers c s a := fun _ _ n hn => by rw [hcl] at hn; simp at hn
    cases ha : a.isRdr
    · obtain ⟨W', e, hF'⟩ := hA.full.step hb hlen hg'.1 ht
      exact ⟨W', ⟨hF', hA.fwd.src (startsEmpty_none LP) hk (fun _ => hdel) hA.full hA.ends hA.tok ha ht e hF', hT', hE'⟩,
        hW.src hN hk hg'.2.1 hA ha ht e⟩
    · obtain ⟨f, hi, hc⟩ := rdr_frame LP.law ha ht hA.full.src.inv hA.full.rdr.clean
      exact ⟨W, ⟨⟨hA.full.src.of_frame f hi, FullRdr.step hA.full.src hA.full.rdr ha ht⟩,
        hA.fwd.rdr hsk hg'.2.2 hA.full hA.ends hA.tok ha ht, hT', hE'⟩, hW.rdr hcl hsk hg'.2.2 hA ha ht⟩

/-! ### Windowed storage -/

structure WinUWhole (c : Cfg) (L : Lawful S false) (N : Nat) (s : Sys S) : Prop where
  finw : s.spc = .fin → N ≤ S.wtell s.st
  all : finished s → N ≤ S.wtell s.st
  rd : ∀ n b, s.rpc = .rRead n b → min (L.rpos s.st + n) N ≤ S.wtell s.st

theorem WinUWhole.step {c : Cfg} {L : Lawful S false} {N : Nat} {W : Finset Nat} {s s' : Sys S} {a : Act}
    (hcl : c.contentLength = none) (hN : c.remoteLen = some N) (hk : c.KeepsErrors) (hend : EndsAtEnd c s a)
    (h : WinUWhole c L N s) (hw : Win c L W s) (hR : WinRdr c L s) (hR' : WinRdr c L s') (he : EndInv s)
    (ht : Tr c s a s') : WinUWhole c L N s' := by
  have hmono := wtell_mono hw.contig ht
  constructor
  · intro hfin
    have hd := fun e => hend e N hN
    have t := hw.flow
    unfold inFlight at t
    have hpf := hw.seq.remPf
    cases ht
    case eofPf heq hpf' =>
      have := hd rfl
      have t := (t (by simp [heq, SrcPc.live])).2
      simp only [heq, SrcPc.pend, hpf hpf', Option.getD_none, List.append_nil, List.length_nil] at t
      simp only; omega
    case eof heq hpf' hrem =>
      have := hd rfl
      have t := (t (by simp [heq, SrcPc.live])).2
      simp only [heq, SrcPc.pend, hrem, Option.getD_none, List.append_nil, List.length_nil] at t
      simp only; omega
    all_goals first
      | (simp at hfin; done)
      | (simp [*] at hfin; done)
      | exact Nat.le_trans (h.finw hfin) hmono
      | (simp only [roundPc] at hfin; split at hfin <;> [simp at hfin; (split at hfin <;> simp at hfin)]; done)
      | (simp only [startPc] at hfin; split at hfin <;> simp at hfin)
  · intro hf
    cases ha : a.isRdr
    · rcases finished_src he hk ha ht hf with hd | ⟨e1, e2, e3, e4⟩
      · exact Nat.le_trans (h.all hd) hmono
      · exact Nat.le_trans (h.finw e1) hmono
    · obtain ⟨f, hi, hc⟩ := rdr_frame L ha ht hw.inv hw.clean
      have hfin : finished s' ↔ finished s := by unfold finished; rw [f.spc, f.failed, f.done]
      exact Nat.le_trans (h.all (hfin.mp hf)) hmono
  · intro n b hr
    cases ha : a.isRdr
    · have f := src_frame L ha ht hw.inv (fun a b hs => Or.inr (hw.seq.seekAt a b hs).1)
      rw [f.rpc] at hr
      rw [f.rpos]
      exact Nat.le_trans (h.rd n b hr) hmono
    · obtain ⟨t1, t2, t3, t4, t5, t6⟩ := L.tell_ok hw.inv
      have hlen := hR'.len n b hr
      rw [normalize_unknown hcl] at hlen
      rcases hlen with ⟨rfl, -⟩ | hle
      swap
      · omega
      cases ht
      case rCheckOk n' r heq hnf =>
        simp only [RdrPc.rRead.injEq, and_true] at hr
        subst hr
        have hr := hR.norm n' r (by simp [heq, RdrPc.readReq])
        rw [normalize_unknown hcl] at hr
        rcases hR.ready n' r heq with hd | hle
        · have h1 := h.all (Or.inr ⟨hnf, Or.inr hd⟩)
          simp only
          omega
        · simp only; omega
      all_goals first
        | (simp [Act.isRdr] at ha; done)
        | exact h.rd n _ hr
        | (simp at hr; done)
        | (simp [*] at hr; done)

theorem WinUWhole.short {c : Cfg} {L : Lawful S false} {N : Nat} {W : Finset Nat} {s s' : Sys S}
    {a : Act} (h : WinUWhole c L N s) (hw : Win c L W s) (hR : WinRdr c L s)
    (ht : Tr c s a s') {e : Ev} (he : s'.log = e :: s.log) : shortRule (fun _ _ => False) N e s.log := by
  unfold shortRule
  split
  · next pos len fast bs =>
    intro hlt
    obtain ⟨-, h2, h3, h4, -⟩ := tr_readRet ht he
    obtain ⟨t1, -⟩ := L.tell_ok hw.inv
    rw [t1] at h3; subst h3
    have hcl := hw.clean (by simp [h2, RdrPc.inRead])
    have hle := h.rd len fast h2
    have := (L.read_len (m := min len (N - L.rpos s.st)) hw.inv hR.exact hcl h4
      (by omega) (fun i hi => hw.wW _ (by omega))).resolve_right
      (fun hc => Bool.noConfusion (L.cut_full hc))
    left
    omega
  · trivial

theorem win_uwhole_log {P : Provider} {c : Cfg} (LP : LawfulProvider P false c.contentLength)
    (hk : c.KeepsErrors) {N : Nat} (hcl : c.contentLength = none) (hN : c.remoteLen = some N)
    {G : Sys P.S → Act → Prop}
    (hG : ∀ s a, G s a → SeqG c s a ∧ Forward c s a ∧ EndsAtEnd c s a)
    {s0 s : Sys P.S} (h0 : Starts P c s0) (h : Reach c G s0 s) :
    ((∃ W, Win c LP.law W s) ∧ WinRdr c LP.law s ∧ Tok s ∧ EndInv s ∧ WinUWhole c LP.law N s) ∧
      Always (shortRule (fun _ _ => False) N) s.log := by
  refine Reach.inv (P := fun s => ((∃ W, Win c LP.law W s) ∧ WinRdr c LP.law s ∧ Tok s ∧ EndInv s ∧
    WinUWhole c LP.law N s) ∧ Always (shortRule (fun _ _ => False) N) s.log) h
    ⟨⟨⟨∅, Win.init LP h0⟩, WinRdr.init LP h0, ?_, ?_, ?_⟩, ?_⟩ ?_
  · obtain ⟨-, st, -, rfl⟩ := h0; exact Tok.init c st
  · obtain ⟨-, st, -, rfl⟩ := h0; exact EndInv.init c st
  · obtain ⟨-, st, -, rfl⟩ := h0
    constructor <;> simp [init, finished, SrcPc.normal]
  · obtain ⟨-, st, -, rfl⟩ := h0; trivial
  · rintro s s' a ⟨⟨⟨W, hW⟩, hR, hT, hE, hA⟩, hl⟩ hg ht
    have hR' := hR.step hW.contig hT hE (hG _ _ hg).2.1 ht
    refine ⟨⟨?_, hR', hT.step ht, hE.step hk ht, hA.step hcl hN hk (hG _ _ hg).2.2 hW hR hR' hE ht⟩,
      always_step ht hl (fun e he => hA.short hW hR ht he)⟩
    cases ha : a.isRdr
    · exact hW.src (hG _ _ hg).1 ha ht
    · exact ⟨W, hW.rdr (hG _ _ hg).1 ha ht⟩

end SD
