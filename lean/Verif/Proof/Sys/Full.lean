import Verif.Proof.Sys.Frame

/-!
# Storages that keep everything: what is recorded as downloaded is stored correctly

The invariant `Full` holds for every history in which the transport resumes where
it was asked to.
-/

set_option linter.unusedSimpArgs false
set_option linter.unusedVariables false
set_option linter.unnecessarySimpa false

namespace SD

variable {S : Storage}

/-- Bytes of the current chunk that are not written yet. -/
def SrcPc.pend : SrcPc → List Byte
  | .pfWrite _ t | .pfPost _ t | .wReq _ _ t | .wWrite _ _ t _ | .wAdd _ _ t _ | .wChk _ _ t _
  | .wClr _ _ t _ | .wNtf _ _ t _ | .wWait _ _ t => t
  | _ => []

/-- The task still uses the transport at its current position. -/
def SrcPc.live : SrcPc → Bool
  | .sel | .seekMsg _ | .reconn _ | .pfWrite _ _ | .pfPost _ _ | .wReq _ _ _ | .wWrite _ _ _ _
  | .wAdd _ _ _ _ | .wChk _ _ _ _ | .wClr _ _ _ _ | .wNtf _ _ _ _ | .wWait _ _ _ | .wRep _
  | .fin => true
  | _ => false

/-- The task is downloading. -/
def SrcPc.active : SrcPc → Bool
  | .seeking _ _ => true
  | p => p.live

/-- Where `Source::write` started. -/
def SrcPc.wpos : SrcPc → Option Nat
  | .wReq p _ _ | .wWrite p _ _ _ | .wAdd p _ _ _ | .wChk p _ _ _ | .wClr p _ _ _ | .wNtf p _ _ _
  | .wWait p _ _ => some p
  | _ => none

/-- In the prefetch write. -/
def SrcPc.inPf : SrcPc → Bool
  | .pfWrite _ _ | .pfPost _ _ => true
  | _ => false

/-- The position where the next byte is written. -/
def wnext (s : Sys S) : Nat :=
  match s.spc with
  | .seeking start _ => start
  | _ => S.wtell s.st

/-- The program counter is consistent with a storage that accepts every write. -/
def SrcPc.fullOk : SrcPc → Prop
  | .pfPost _ t => t = []
  | .wReq _ _ t => t ≠ []
  | .wWrite _ _ t bw => bw = 0 → t ≠ []
  | .wAdd _ _ t bw | .wChk _ _ t bw | .wClr _ _ t bw | .wNtf _ _ t bw => t = [] ∧ bw ≠ 0
  | .wWait _ _ _ => False
  | _ => True

/-- Position `q` has been written, and the storage holds the byte of the resource. -/
def GoodAt (c : Cfg) (L : Lawful S true) (W : Finset Nat) (st : S.σ) (q : Nat) : Prop :=
  q ∈ W ∧ L.cell st q = some (c.remote q)

/-- What holds of the download task and the storage. -/
structure FullSrc (c : Cfg) (L : Lawful S true) (W : Finset Nat) (s : Sys S) : Prop where
  inv : L.Inv s.st W
  wf : RSet.WF s.dl
  rem : s.rem = none
  good : ∀ q, RSet.Mem s.dl q → GoodAt c L W s.st q
  tpos : s.spc.live = true → s.tpos = S.wtell s.st + s.spc.pend.length
  pend : s.spc.live = true → IsSlice c.remote (S.wtell s.st) s.spc.pend
  pf : s.pfDone = false → s.spc.active = true →
    ∀ q, s.pfStart ≤ q → q < wnext s → GoodAt c L W s.st q
  wst : ∀ p, s.spc.wpos = some p → s.pfDone = true ∧
    ∀ q, p ≤ q → q < S.wtell s.st → GoodAt c L W s.st q
  inPf : s.spc.inPf = true → s.pfDone = false
  ok : s.spc.fullOk
  recon : ∀ p, s.spc = .reconn p → p = S.wtell s.st
  bnd : ∀ N, c.contentLength = some N → (s.spc.live = true → s.tpos ≤ N) ∧
    (s.spc.active = true → wnext s ≤ N) ∧ (∀ p, s.spc = .seekMsg p → p ≤ N) ∧
    (∀ q, L.cell s.st q ≠ none → q < N)

/-- What holds of the consumer. -/
structure FullRdr (c : Cfg) (L : Lawful S true) (s : Sys S) : Prop where
  clean : CleanInv L s
  seekQ : ∀ N p, c.contentLength = some N → s.seekQ = some p → p ≤ N
  target : ∀ N p, c.contentLength = some N → s.rpc.target = some p → p ≤ N
  fast : ∀ n, s.rpc = .rRead n true → RSet.Mem s.dl (L.rpos s.st) ∧
    ∀ q, L.rpos s.st ≤ q → q < c.normalize (L.rpos s.st + n) → RSet.Mem s.dl q

structure Full (c : Cfg) (L : Lawful S true) (W : Finset Nat) (s : Sys S) : Prop where
  src : FullSrc c L W s
  rdr : FullRdr c L s

theorem FullSrc.of_frame {c : Cfg} {L : Lawful S true} {W : Finset Nat} {s s' : Sys S}
    (h : FullSrc c L W s) (f : RdrFrame L s s') (hi : L.Inv s'.st W) : FullSrc c L W s' := by
  have hw : wnext s' = wnext s := by unfold wnext; rw [f.spc, f.wtell]
  have hg : ∀ q, GoodAt c L W s'.st q ↔ GoodAt c L W s.st q := by
    intro q; unfold GoodAt; rw [f.cell q]
  constructor
  · exact hi
  · rw [f.dl]; exact h.wf
  · rw [f.rem]; exact h.rem
  · intro q; rw [f.dl, hg]; exact h.good q
  · rw [f.spc, f.tpos, f.wtell]; exact h.tpos
  · rw [f.spc, f.wtell]; exact h.pend
  · rw [f.spc, f.pfDone, f.pfStart, hw]; simpa only [hg] using h.pf
  · rw [f.spc, f.wtell, f.pfDone]; simpa only [hg] using h.wst
  · rw [f.spc, f.pfDone]; exact h.inPf
  · rw [f.spc]; exact h.ok
  · rw [f.spc, f.wtell]; exact h.recon
  · rw [f.spc, f.tpos, hw]; simpa only [f.cell] using h.bnd

theorem normalize_le {c : Cfg} {p N : Nat} (h : c.contentLength = some N) : c.normalize p ≤ N := by
  simp [Cfg.normalize, h]

theorem normalize_le_self (c : Cfg) (p : Nat) : c.normalize p ≤ p := by
  unfold Cfg.normalize; split <;> omega

theorem FullRdr.step {c : Cfg} {L : Lawful S true} {W : Finset Nat} {s s' : Sys S} {a : Act}
    (hs : FullSrc c L W s) (h : FullRdr c L s) (ha : a.isRdr = true) (ht : Tr c s a s') :
    FullRdr c L s' := by
  obtain ⟨f, hi, hc⟩ := rdr_frame L ha ht hs.inv h.clean
  obtain ⟨t1, t2, t3, t4, t5, t6⟩ := L.tell_ok hs.inv
  have hq := h.seekQ
  have htg := h.target
  refine ⟨hc, ?_, ?_, ?_⟩
  · cases ht
    case sSend p heq hn =>
      intro N p' hN hp
      simp only [Option.some.injEq] at hp
      subst hp
      exact htg N p hN (by simp [heq, RdrPc.target])
    all_goals first
      | (simp [Act.isRdr] at ha; done)
      | exact hq
  · cases ht
    case seek f p _ _ _ _ _ =>
      intro N p' hN hp
      simp only [RdrPc.target, Option.some.injEq] at hp
      subst hp
      exact normalize_le hN
    all_goals first
      | (simp [Act.isRdr] at ha; done)
      | exact htg
      | (intro N p' hN hp; exact htg N p' hN (by simpa [*, RdrPc.target] using hp))
  · cases ht
    case rDecideFast n a b heq hov hg hle =>
      intro n' hn
      simp only [RdrPc.rRead.injEq] at hn
      obtain ⟨rfl, -⟩ := hn
      have := RSet.get_some_mem hg
      simp only [t4]
      rw [← t1]
      exact ⟨RSet.get_some_covers hg _ (by omega) (by omega),
        fun q h1 h2 => RSet.get_some_covers hg q (by omega) (by omega)⟩
    all_goals first
      | (simp [Act.isRdr] at ha; done)
      | exact h.fast
      | (intro n' hn; simp [*] at hn; done)

theorem wseek_good {c : Cfg} {L : Lawful S true} {W : Finset Nat} {st st' : S.σ} {p q : Nat}
    (hi : L.Inv st W) (h : S.wseek st p = .ok st') (hg : GoodAt c L W st q) : GoodAt c L W st' q := by
  obtain ⟨_, _, _, _, h5⟩ := L.wseek_ok hi (Or.inl rfl) h
  exact ⟨hg.1, by rw [h5]; exact hg.2⟩

theorem write_good_old {c : Cfg} {L : Lawful S true} {W : Finset Nat} {st st' : S.σ}
    {bs : List Byte} {k q : Nat} (hi : L.Inv st W) (hb : IsSlice c.remote (S.wtell st) bs)
    (h : S.write st bs = .ok (k, st')) (hg : GoodAt c L W st q) :
    GoodAt c L (W ∪ Finset.Ico (S.wtell st) (S.wtell st + k)) st' q := by
  obtain ⟨h1, h2, h3, h4, h5, h6, h7⟩ := L.write_ok hi h
  obtain ⟨h8, h9⟩ := L.write_full rfl hi h
  refine ⟨Finset.mem_union_left _ hg.1, ?_⟩
  by_cases hq : q < S.wtell st ∨ S.wtell st + k ≤ q
  · exact h9 q _ hq hg.2
  · have := h6 (q - S.wtell st) (by omega)
    rw [hb.getElem? (by omega)] at this
    rwa [show S.wtell st + (q - S.wtell st) = q by omega] at this

theorem write_good_new {c : Cfg} {L : Lawful S true} {W : Finset Nat} {st st' : S.σ}
    {bs : List Byte} {k q : Nat} (hi : L.Inv st W) (hb : IsSlice c.remote (S.wtell st) bs)
    (h : S.write st bs = .ok (k, st')) (h1 : S.wtell st ≤ q) (h2 : q < S.wtell st + k) :
    GoodAt c L (W ∪ Finset.Ico (S.wtell st) (S.wtell st + k)) st' q := by
  obtain ⟨g1, g2, g3, g4, g5, h6, h7⟩ := L.write_ok hi h
  refine ⟨Finset.mem_union_right _ (by simp; omega), ?_⟩
  have := h6 (q - S.wtell st) (by omega)
  rw [hb.getElem? (by omega)] at this
  rwa [show S.wtell st + (q - S.wtell st) = q by omega] at this

theorem batch_slice {c : Cfg} {p : Nat} {todo : List Byte} (h : IsSlice c.remote p todo) :
    IsSlice c.remote p (batch c todo) := h.take _

theorem batch_length (c : Cfg) (todo : List Byte) :
    (batch c todo).length = min c.batchSize todo.length := by
  simp [batch]

/-- What a write step of the task does to the storage. -/
theorem write_step {c : Cfg} {L : Lawful S true} {W : Finset Nat} {s : Sys S} {st' : S.σ}
    {todo : List Byte} {k : Nat} (h : FullSrc c L W s) (hl : s.spc.live = true)
    (hp : s.spc.pend = todo) (hw : S.write s.st (batch c todo) = .ok (k, st')) :
    (k ≤ min c.batchSize todo.length ∧ (0 < min c.batchSize todo.length → 0 < k)) ∧
    L.Inv st' (W ∪ Finset.Ico (S.wtell s.st) (S.wtell s.st + k)) ∧
    S.wtell st' = S.wtell s.st + k ∧ L.rpos st' = L.rpos s.st ∧
    (L.Clean s.st → L.Clean st') ∧
    (∀ q, GoodAt c L W s.st q → GoodAt c L (W ∪ Finset.Ico (S.wtell s.st) (S.wtell s.st + k)) st' q) ∧
    (∀ q, S.wtell s.st ≤ q → q < S.wtell s.st + k →
      GoodAt c L (W ∪ Finset.Ico (S.wtell s.st) (S.wtell s.st + k)) st' q) ∧
    (∀ q, L.cell st' q ≠ none → L.cell s.st q ≠ none ∨ q < S.wtell s.st + k) ∧
    s.tpos = S.wtell st' + (todo.drop k).length ∧
    IsSlice c.remote (S.wtell st') (todo.drop k) := by
  have hsl := h.pend hl
  rw [hp] at hsl
  have hb := batch_slice (c := c) hsl
  obtain ⟨h1, h2, h3, h4, h5, h6, h7⟩ := L.write_ok h.inv hw
  obtain ⟨h8, h9⟩ := L.write_full rfl h.inv hw
  rw [← List.length_pos_iff, batch_length] at h8
  rw [batch_length] at h1
  have ht := h.tpos hl
  rw [hp] at ht
  refine ⟨⟨h1, h8⟩, h2, h5, h4, h3, fun q hg => write_good_old h.inv hb hw hg,
    fun q a b => write_good_new h.inv hb hw a b, h7, ?_, ?_⟩
  · rw [h5, ht, List.length_drop]; omega
  · rw [h5]; exact hsl.drop k


/-- The task leaves the download loop. -/
theorem FullSrc.stop {c : Cfg} {L : Lawful S true} {W : Finset Nat} {s s' : Sys S}
    (h : FullSrc c L W s) (e1 : s'.st = s.st) (e2 : s'.dl = s.dl) (e3 : s'.rem = s.rem)
    (h1 : s'.spc.active = false) : FullSrc c L W s' := by
  have hl : s'.spc.live = false := by
    revert h1; cases s'.spc <;> simp [SrcPc.active, SrcPc.live]
  constructor
  · rw [e1]; exact h.inv
  · rw [e2]; exact h.wf
  · rw [e3]; exact h.rem
  · rw [e1, e2]; exact h.good
  · simp [hl]
  · simp [hl]
  · simp [h1]
  · intro p hp; revert hp h1; cases s'.spc <;> simp [SrcPc.active, SrcPc.live, SrcPc.wpos]
  · intro hp; revert hp h1; cases s'.spc <;> simp [SrcPc.active, SrcPc.live, SrcPc.inPf]
  · revert h1; cases s'.spc <;> simp [SrcPc.active, SrcPc.live, SrcPc.fullOk]
  · intro p hp; rw [hp] at h1; simp [SrcPc.active, SrcPc.live] at h1
  · intro N hN
    refine ⟨by simp [hl], by simp [h1], ?_, by rw [e1]; exact (h.bnd N hN).2.2.2⟩
    intro p hp; rw [hp] at h1; simp [SrcPc.active, SrcPc.live] at h1

/-- The task moves on without touching anything but its program counter. -/
theorem FullSrc.move {c : Cfg} {L : Lawful S true} {W : Finset Nat} {s s' : Sys S}
    (h : FullSrc c L W s) (e1 : s'.st = s.st) (e2 : s'.dl = s.dl) (e3 : s'.rem = s.rem)
    (e4 : s'.pfDone = s.pfDone) (e5 : s'.pfStart = s.pfStart) (e6 : s'.tpos = s.tpos)
    (hl : s.spc.live = true) (hl' : s'.spc.live = true) (hp : s'.spc.pend = s.spc.pend)
    (hw : s'.spc.wpos = none ∨ s'.spc.wpos = s.spc.wpos)
    (hpf : s'.spc.inPf = true → s.spc.inPf = true) (hok : s'.spc.fullOk)
    (hrec : ∀ p, s'.spc = .reconn p → p = S.wtell s.st)
    (hm : ∀ N p, c.contentLength = some N → s'.spc = .seekMsg p → p ≤ N) : FullSrc c L W s' := by
  have hn : wnext s = S.wtell s.st := by
    revert hl; unfold wnext; cases s.spc <;> simp [SrcPc.live]
  have hn' : wnext s' = S.wtell s.st := by
    rw [← e1]; revert hl'; unfold wnext; cases s'.spc <;> simp [SrcPc.live]
  have ha : s.spc.active = true := by
    revert hl; cases s.spc <;> simp [SrcPc.live, SrcPc.active]
  constructor
  · rw [e1]; exact h.inv
  · rw [e2]; exact h.wf
  · rw [e3]; exact h.rem
  · rw [e1, e2]; exact h.good
  · intro _; rw [e6, e1, hp]; exact h.tpos hl
  · intro _; rw [e1, hp]; exact h.pend hl
  · intro h1 _; rw [e5, hn', e1, ← hn]; rw [e4] at h1; exact h.pf h1 ha
  · intro p h1
    rw [e4, e1]
    rcases hw with hw | hw
    · rw [hw] at h1; simp at h1
    · rw [hw] at h1; exact h.wst p h1
  · intro h1; rw [e4]; exact h.inPf (hpf h1)
  · exact hok
  · rw [e1]; exact hrec
  · intro N hN
    obtain ⟨b1, b2, b3, b4⟩ := h.bnd N hN
    refine ⟨fun _ => by rw [e6]; exact b1 hl, fun _ => by rw [hn', ← hn]; exact b2 ha, fun p hp => hm N p hN hp, ?_⟩
    rw [e1]; exact b4

theorem good_add {c : Cfg} {L : Lawful S true} {W : Finset Nat} {s : Sys S} {lo hi : Nat}
    (h : FullSrc c L W s) (hg : ∀ q, lo ≤ q → q < hi → GoodAt c L W s.st q) :
    RSet.WF (RSet.add s.dl lo hi) ∧ ∀ q, RSet.Mem (RSet.add s.dl lo hi) q → GoodAt c L W s.st q := by
  refine ⟨RSet.wf_add h.wf _ _, ?_⟩
  intro q hq
  rw [RSet.mem_add h.wf] at hq
  rcases hq with hq | hq
  · exact h.good q hq
  · exact hg q hq.1 hq.2

theorem live_active {p : SrcPc} (h : p.live = true) : p.active = true := by
  revert h; cases p <;> simp [SrcPc.live, SrcPc.active]

theorem wnext_of {s : Sys S} (h : s.spc.live = true) : wnext s = S.wtell s.st := by
  revert h; unfold wnext; cases s.spc <;> simp [SrcPc.live]

/-- What a step of the task does to the stored bytes. -/
structure SrcEff (c : Cfg) (L : Lawful S true) (W : Finset Nat) (s : Sys S) (W' : Finset Nat)
    (s' : Sys S) : Prop where
  sub : W ⊆ W'
  good : ∀ q, GoodAt c L W s.st q → GoodAt c L W' s'.st q
  new : s.spc.live = true → ∀ q, S.wtell s.st ≤ q → q < S.wtell s'.st → GoodAt c L W' s'.st q
  cells : ∀ q, L.cell s'.st q ≠ none → L.cell s.st q ≠ none ∨
    (s.spc.live = true ∧ s'.spc.live = true ∧ q < S.wtell s'.st)

theorem SrcEff.same {c : Cfg} {L : Lawful S true} {W : Finset Nat} {s s' : Sys S}
    (h : s'.st = s.st) : SrcEff c L W s W s' := by
  refine ⟨Finset.Subset.refl _, ?_, ?_, ?_⟩
  · rw [h]; exact fun _ h => h
  · rw [h]; intro _ q h1 h2; omega
  · rw [h]; exact fun _ h => Or.inl h

theorem FullSrc.step {c : Cfg} {L : Lawful S true} {W : Finset Nat} {s s' : Sys S} {a : Act}
    (hb : c.batchSize ≠ 0) (hlen : c.LengthHonest) (hon : Honest s a)
    (h : FullSrc c L W s) (hr : FullRdr c L s) (ha : a.isRdr = false) (ht : Tr c s a s') :
    ∃ W', SrcEff c L W s W' s' ∧ FullSrc c L W' s' := by
  cases ht
  case seekIgnore p heq hn =>
    exact ⟨W, SrcEff.same rfl, h.move rfl rfl rfl rfl rfl rfl (by simp [heq, SrcPc.live]) rfl
      (by simp [heq, SrcPc.pend]) (Or.inl rfl) (by simp [SrcPc.inPf]) trivial (by simp) (by simp)⟩
  case seekRestart p n x y heq hsh hpf hN hg =>
    have hl : s.spc.live = true := by simp [heq, SrcPc.live]
    obtain ⟨b1, b2, b3, b4⟩ := h.bnd n hN
    have hp := b3 p heq
    obtain ⟨g1, g2, g3, g4, g5, g6⟩ := RSet.nextGap_some h.wf hg
    refine ⟨W, SrcEff.same rfl, ⟨h.inv, h.wf, h.rem, h.good, by simp [SrcPc.live],
      by simp [SrcPc.live], ?_, by simp [SrcPc.wpos], by simp [SrcPc.inPf], trivial, by simp, ?_⟩⟩
    · intro _ _ q h1 h2
      simp only [wnext] at h1 h2
      exact h.good q (g4 q (by omega) (by omega))
    · intro N' hN'
      rw [hN] at hN'; cases hN'
      refine ⟨by simp [SrcPc.live], ?_, by simp, b4⟩
      intro _; simp only [wnext]; omega
  case seekRestartNone p n heq hsh hpf hN hg =>
    have hl : s.spc.live = true := by simp [heq, SrcPc.live]
    obtain ⟨b1, b2, b3, b4⟩ := h.bnd n hN
    have hp := b3 p heq
    have g := RSet.nextGap_none hg
    have hb2 := b2 (live_active hl)
    rw [wnext_of hl] at hb2
    have t1 := h.tpos hl
    have t2 := h.pend hl
    simp only [heq, SrcPc.pend] at t1 t2
    refine ⟨W, SrcEff.same rfl, ⟨h.inv, h.wf, h.rem, h.good, fun _ => t1,
      fun _ => t2, ?_, by simp [SrcPc.wpos], by simp [SrcPc.inPf], trivial, by simp, ?_⟩⟩
    · intro _ _ q h1 h2
      simp only [wnext] at h1 h2
      exact h.good q (g q (by omega) (by omega))
    · intro N' hN'
      rw [hN] at hN'; cases hN'
      refine ⟨fun _ => b1 hl, ?_, by simp, b4⟩
      intro _; simp only [wnext]; omega
  case seekRestartUnk p heq hsh hpf hN =>
    refine ⟨W, SrcEff.same rfl, ⟨h.inv, h.wf, h.rem, h.good, by simp [SrcPc.live],
      by simp [SrcPc.live], ?_, by simp [SrcPc.wpos], by simp [SrcPc.inPf], trivial, by simp, ?_⟩⟩
    · intro _ _ q h1 h2
      simp only [wnext] at h1 h2
      omega
    · intro N' hN'
      rw [hN] at hN'; cases hN'
  case seekAbort p n x y heq hsh hpf hN hg =>
    have hl : s.spc.live = true := by simp [heq, SrcPc.live]
    obtain ⟨b1, b2, b3, b4⟩ := h.bnd n hN
    have hp := b3 p heq
    have hgd := h.pf hpf (live_active hl)
    rw [wnext_of hl] at hgd
    obtain ⟨w1, w2⟩ := good_add h hgd
    obtain ⟨g1, g2, g3, g4, g5, g6⟩ := RSet.nextGap_some w1 hg
    refine ⟨W, SrcEff.same rfl, ⟨h.inv, w1, h.rem, w2, by simp [SrcPc.live],
      by simp [SrcPc.live], by simp, by simp [SrcPc.wpos], by simp [SrcPc.inPf], trivial, by simp, ?_⟩⟩
    · intro N' hN'
      rw [hN] at hN'; cases hN'
      refine ⟨by simp [SrcPc.live], ?_, by simp, b4⟩
      intro _; simp only [wnext]; omega
  case seekAbortNone p n heq hsh hpf hN hg =>
    have hl : s.spc.live = true := by simp [heq, SrcPc.live]
    obtain ⟨b1, b2, b3, b4⟩ := h.bnd n hN
    have hgd := h.pf hpf (live_active hl)
    rw [wnext_of hl] at hgd
    obtain ⟨w1, w2⟩ := good_add h hgd
    have hb2 := b2 (live_active hl)
    rw [wnext_of hl] at hb2
    have t1 := h.tpos hl
    have t2 := h.pend hl
    simp only [heq, SrcPc.pend] at t1 t2
    refine ⟨W, SrcEff.same rfl, ⟨h.inv, w1, h.rem, w2, fun _ => t1,
      fun _ => t2, by simp, by simp [SrcPc.wpos], by simp [SrcPc.inPf], trivial, by simp, ?_⟩⟩
    · intro N' hN'
      rw [hN] at hN'; cases hN'
      refine ⟨fun _ => b1 hl, ?_, by simp, b4⟩
      intro _; simp only [wnext]; omega
  case seekAbortUnk p heq hsh hpf hN =>
    have hl : s.spc.live = true := by simp [heq, SrcPc.live]
    have hgd := h.pf hpf (live_active hl)
    rw [wnext_of hl] at hgd
    obtain ⟨w1, w2⟩ := good_add h hgd
    refine ⟨W, SrcEff.same rfl, ⟨h.inv, w1, h.rem, w2, by simp [SrcPc.live],
      by simp [SrcPc.live], by simp, by simp [SrcPc.wpos], by simp [SrcPc.inPf], trivial, by simp, ?_⟩⟩
    · intro N' hN'
      rw [hN] at hN'; cases hN'
  case pfWriteMore len todo k st' heq hw hk =>
    have hl : s.spc.live = true := by simp [heq, SrcPc.live]
    have hpf := h.inPf (by simp [heq, SrcPc.inPf])
    have hgd := h.pf hpf (live_active hl)
    rw [wnext_of hl] at hgd
    obtain ⟨k1, k2, k3, k4, k5, k6, k7, k8, k9, k10⟩ :=
      write_step h hl (by simp [heq, SrcPc.pend]) hw
    refine ⟨_, ⟨Finset.subset_union_left, k6, fun _ q a1 a2 => k7 q a1 (by simp only at a2; omega), fun q hq => (k8 q hq).imp id (fun hq => ⟨hl, rfl, by simp only; omega⟩)⟩, ⟨k2, h.wf, h.rem, fun q hq => k6 q (h.good q hq),
      fun _ => k9, fun _ => k10, ?_, by simp [SrcPc.wpos], fun _ => hpf, trivial, by simp, ?_⟩⟩
    · intro _ _ q h1 h2
      simp only [wnext, k3] at h1 h2
      by_cases hq : q < S.wtell s.st
      · exact k6 q (hgd q h1 hq)
      · exact k7 q (by omega) h2
    · intro N hN
      obtain ⟨b1, b2, b3, b4⟩ := h.bnd N hN
      have ht := b1 hl
      refine ⟨fun _ => ht, ?_, by simp, ?_⟩
      · intro _; simp only [wnext]; omega
      · intro q hq
        rcases k8 q hq with hq | hq
        · exact b4 q hq
        · omega
  case pfWriteEnd len todo st' heq hw =>
    have hl : s.spc.live = true := by simp [heq, SrcPc.live]
    have hpf := h.inPf (by simp [heq, SrcPc.inPf])
    have hgd := h.pf hpf (live_active hl)
    rw [wnext_of hl] at hgd
    obtain ⟨k1, k2, k3, k4, k5, k6, k7, k8, k9, k10⟩ :=
      write_step h hl (by simp [heq, SrcPc.pend]) hw
    simp only [Nat.add_zero, List.drop_zero] at k3 k9 k10
    refine ⟨_, ⟨Finset.subset_union_left, k6, fun _ q a1 a2 => k7 q a1 (by simp only at a2; omega), fun q hq => (k8 q hq).imp id (fun hq => ⟨hl, rfl, by simp only; omega⟩)⟩, ⟨k2, h.wf, h.rem, fun q hq => k6 q (h.good q hq),
      fun _ => k9, fun _ => k10, ?_, by simp [SrcPc.wpos], fun _ => hpf, ?_, by simp, ?_⟩⟩
    · intro _ _ q h1 h2
      simp only [wnext, k3] at h1 h2
      exact k6 q (hgd q h1 h2)
    · simp only [SrcPc.fullOk]
      apply List.eq_nil_of_length_eq_zero; omega
    · intro N hN
      obtain ⟨b1, b2, b3, b4⟩ := h.bnd N hN
      have ht := b1 hl
      refine ⟨fun _ => ht, ?_, by simp, ?_⟩
      · intro _; simp only [wnext]; omega
      · intro q hq
        rcases k8 q hq with hq | hq
        · exact b4 q hq
        · omega
  case pfPostMore len heq hlt =>
    exact ⟨W, SrcEff.same rfl, h.move rfl rfl rfl rfl rfl rfl (by simp [heq, SrcPc.live]) rfl
      (by simp [heq, SrcPc.pend]) (Or.inl rfl) (by simp [SrcPc.inPf]) trivial (by simp) (by simp)⟩
  case pfPostDone len heq hlt =>
    have hl : s.spc.live = true := by simp [heq, SrcPc.live]
    have hpf := h.inPf (by simp [heq, SrcPc.inPf])
    have hgd := h.pf hpf (live_active hl)
    rw [wnext_of hl] at hgd
    obtain ⟨w1, w2⟩ := good_add h hgd
    have t1 := h.tpos hl
    have t2 := h.pend hl
    simp only [heq, SrcPc.pend] at t1 t2
    refine ⟨W, SrcEff.same rfl, ⟨h.inv, w1, h.rem, w2, fun _ => t1,
      fun _ => t2, by simp, by simp [SrcPc.wpos], by simp [SrcPc.inPf], trivial, by simp, ?_⟩⟩
    · intro N hN
      obtain ⟨b1, b2, b3, b4⟩ := h.bnd N hN
      have hb2 := b2 (live_active hl)
      rw [wnext_of hl] at hb2
      exact ⟨fun _ => b1 hl, fun _ => by simpa only [wnext] using hb2, by simp, b4⟩
  case pfPostPart len todo heq hne =>
    have := h.ok
    simp only [heq, SrcPc.fullOk] at this
    exact absurd this hne
  case wReq pos0 len todo heq =>
    have ho := h.ok
    simp only [heq, SrcPc.fullOk] at ho
    exact ⟨W, SrcEff.same rfl, h.move rfl rfl rfl rfl rfl rfl (by simp [heq, SrcPc.live]) rfl
      (by simp [heq, SrcPc.pend]) (Or.inr (by simp [heq, SrcPc.wpos])) (by simp [SrcPc.inPf])
      (by simp [SrcPc.fullOk, ho]) (by simp) (by simp)⟩
  case wWriteMore pos0 len todo bw k st' heq hw hk =>
    have hl : s.spc.live = true := by simp [heq, SrcPc.live]
    obtain ⟨hpf, hgd⟩ := h.wst pos0 (by simp [heq, SrcPc.wpos])
    obtain ⟨k1, k2, k3, k4, k5, k6, k7, k8, k9, k10⟩ :=
      write_step h hl (by simp [heq, SrcPc.pend]) hw
    refine ⟨_, ⟨Finset.subset_union_left, k6, fun _ q a1 a2 => k7 q a1 (by simp only at a2; omega), fun q hq => (k8 q hq).imp id (fun hq => ⟨hl, rfl, by simp only; omega⟩)⟩, ⟨k2, h.wf, h.rem, fun q hq => k6 q (h.good q hq),
      fun _ => k9, fun _ => k10, ?_, ?_, by simp [SrcPc.inPf], ?_, by simp, ?_⟩⟩
    · intro hf; simp [hpf] at hf
    · intro p hp
      simp only [SrcPc.wpos, Option.some.injEq] at hp
      subst hp
      refine ⟨hpf, ?_⟩
      intro q h1 h2
      simp only [k3] at h2
      by_cases hq : q < S.wtell s.st
      · exact k6 q (hgd q h1 hq)
      · exact k7 q (by omega) h2
    · simp only [SrcPc.fullOk]; intro hz; omega
    · intro N hN
      obtain ⟨b1, b2, b3, b4⟩ := h.bnd N hN
      have ht := b1 hl
      refine ⟨fun _ => ht, ?_, by simp, ?_⟩
      · intro _; simp only [wnext]; omega
      · intro q hq
        rcases k8 q hq with hq | hq
        · exact b4 q hq
        · omega
  case wWriteEnd pos0 len todo bw st' heq hw =>
    have hl : s.spc.live = true := by simp [heq, SrcPc.live]
    have ho := h.ok
    simp only [heq, SrcPc.fullOk] at ho
    obtain ⟨hpf, hgd⟩ := h.wst pos0 (by simp [heq, SrcPc.wpos])
    obtain ⟨k1, k2, k3, k4, k5, k6, k7, k8, k9, k10⟩ :=
      write_step h hl (by simp [heq, SrcPc.pend]) hw
    simp only [Nat.add_zero, List.drop_zero] at k3 k9 k10
    have hnil : todo = [] := by apply List.eq_nil_of_length_eq_zero; omega
    refine ⟨_, ⟨Finset.subset_union_left, k6, fun _ q a1 a2 => k7 q a1 (by simp only at a2; omega), fun q hq => (k8 q hq).imp id (fun hq => ⟨hl, rfl, by simp only; omega⟩)⟩, ⟨k2, h.wf, h.rem, fun q hq => k6 q (h.good q hq),
      fun _ => k9, fun _ => k10, ?_, ?_, by simp [SrcPc.inPf], ?_, by simp, ?_⟩⟩
    · intro hf; simp [hpf] at hf
    · intro p hp
      simp only [SrcPc.wpos, Option.some.injEq] at hp
      subst hp
      refine ⟨hpf, ?_⟩
      intro q h1 h2
      simp only [k3] at h2
      exact k6 q (hgd q h1 h2)
    · simp only [SrcPc.fullOk]; exact ⟨hnil, fun hz => ho hz hnil⟩
    · intro N hN
      obtain ⟨b1, b2, b3, b4⟩ := h.bnd N hN
      have ht := b1 hl
      refine ⟨fun _ => ht, ?_, by simp, ?_⟩
      · intro _; simp only [wnext]; omega
      · intro q hq
        rcases k8 q hq with hq | hq
        · exact b4 q hq
        · omega
  case wAdd pos0 len todo bw heq =>
    have hl : s.spc.live = true := by simp [heq, SrcPc.live]
    have ho := h.ok
    simp only [heq, SrcPc.fullOk] at ho
    obtain ⟨hpf, hgd⟩ := h.wst pos0 (by simp [heq, SrcPc.wpos])
    obtain ⟨w1, w2⟩ := good_add h hgd
    have t1 := h.tpos hl
    have t2 := h.pend hl
    simp only [heq, SrcPc.pend] at t1 t2
    refine ⟨W, SrcEff.same rfl, ⟨h.inv, w1, h.rem, w2, fun _ => t1,
      fun _ => t2, ?_, ?_, by simp [SrcPc.inPf], ho, by simp, ?_⟩⟩
    · intro hf; simp [hpf] at hf
    · intro p hp
      simp only [SrcPc.wpos, Option.some.injEq] at hp
      subst hp
      exact ⟨hpf, hgd⟩
    · intro N hN
      obtain ⟨b1, b2, b3, b4⟩ := h.bnd N hN
      have hb2 := b2 (live_active hl)
      rw [wnext_of hl] at hb2
      exact ⟨fun _ => b1 hl, fun _ => by simpa only [wnext] using hb2, by simp, b4⟩
  case wChkHit pos0 len todo bw r heq hreq hle =>
    have ho := h.ok
    simp only [heq, SrcPc.fullOk] at ho
    exact ⟨W, SrcEff.same rfl, h.move rfl rfl rfl rfl rfl rfl (by simp [heq, SrcPc.live]) rfl
      (by simp [heq, SrcPc.pend]) (Or.inr (by simp [heq, SrcPc.wpos])) (by simp [SrcPc.inPf])
      (by simp [SrcPc.fullOk, ho]) (by simp) (by simp)⟩
  case wChkMiss pos0 len todo bw heq hreq =>
    have ho := h.ok
    simp only [heq, SrcPc.fullOk] at ho
    have hrp : roundPc pos0 len todo bw = .wRep len := by simp [roundPc, ho]
    exact ⟨W, SrcEff.same rfl, h.move rfl rfl rfl rfl rfl rfl (by simp [heq, SrcPc.live])
      (by simp [hrp, SrcPc.live]) (by simp only [hrp, heq, SrcPc.pend]; exact ho.1.symm)
      (Or.inl (by simp [hrp, SrcPc.wpos])) (by simp [hrp, SrcPc.inPf])
      (by simp [hrp, SrcPc.fullOk]) (by simp [hrp]) (by simp [hrp])⟩
  case wClr pos0 len todo bw heq =>
    have ho := h.ok
    simp only [heq, SrcPc.fullOk] at ho
    exact ⟨W, SrcEff.same rfl, h.move rfl rfl rfl rfl rfl rfl (by simp [heq, SrcPc.live]) rfl
      (by simp [heq, SrcPc.pend]) (Or.inr (by simp [heq, SrcPc.wpos])) (by simp [SrcPc.inPf])
      (by simp [SrcPc.fullOk, ho]) (by simp) (by simp)⟩
  case wNtf pos0 len todo bw heq =>
    have ho := h.ok
    simp only [heq, SrcPc.fullOk] at ho
    have hrp : roundPc pos0 len todo bw = .wRep len := by simp [roundPc, ho]
    exact ⟨W, SrcEff.same rfl, h.move rfl rfl rfl rfl rfl rfl (by simp [heq, SrcPc.live])
      (by simp [hrp, SrcPc.live]) (by simp only [hrp, heq, SrcPc.pend]; exact ho.1.symm)
      (Or.inl (by simp [hrp, SrcPc.wpos])) (by simp [hrp, SrcPc.inPf])
      (by simp [hrp, SrcPc.fullOk]) (by simp [hrp]) (by simp [hrp])⟩
  case wWait pos0 len todo heq hper =>
    have ho := h.ok
    simp [heq, SrcPc.fullOk] at ho
  case wRep len r heq hz hg =>
    exact ⟨W, SrcEff.same rfl, h.move rfl rfl rfl rfl rfl rfl (by simp [heq, SrcPc.live]) rfl
      (by simp [heq, SrcPc.pend]) (Or.inl rfl) (by simp [SrcPc.inPf]) trivial (by simp) (by simp)⟩
  case finGap n x y heq hss hN hg =>
    have hl : s.spc.live = true := by simp [heq, SrcPc.live]
    obtain ⟨b1, b2, b3, b4⟩ := h.bnd n hN
    obtain ⟨g1, g2, g3, g4, g5, g6⟩ := RSet.nextGap_some h.wf hg
    refine ⟨W, SrcEff.same rfl, ⟨h.inv, h.wf, h.rem, h.good, by simp [SrcPc.live],
      by simp [SrcPc.live], ?_, by simp [SrcPc.wpos], by simp [SrcPc.inPf], trivial, by simp, ?_⟩⟩
    · intro _ _ q h1 h2
      simp only [wnext] at h1 h2
      exact h.good q (g4 q (by omega) (by omega))
    · intro N' hN'
      rw [hN] at hN'; cases hN'
      refine ⟨by simp [SrcPc.live], ?_, by simp, b4⟩
      intro _; simp only [wnext]; omega
  case recvSeek p heq hq =>
    exact ⟨W, SrcEff.same rfl, h.move rfl rfl rfl rfl rfl rfl (by simp [heq, SrcPc.live]) rfl
      (by simp [heq, SrcPc.pend]) (Or.inl rfl) (by simp [SrcPc.inPf]) trivial (by simp)
      (by intro N p' hN hp; simp only [SrcPc.seekMsg.injEq] at hp; subst hp; exact hr.seekQ N p hN hq)⟩
  case chunkPf n heq hte hlim hrl hpf =>
    have hl : s.spc.live = true := by simp [heq, SrcPc.live]
    have t1 := h.tpos hl
    simp only [heq, SrcPc.pend, List.length_nil, Nat.add_zero] at t1
    have hgd := h.pf hpf (live_active hl)
    rw [wnext_of hl] at hgd
    refine ⟨W, SrcEff.same rfl, ⟨h.inv, h.wf, h.rem, h.good, ?_, ?_, ?_, by simp [SrcPc.wpos],
      fun _ => hpf, trivial, by simp, ?_⟩⟩
    · intro _; simp [SrcPc.pend, t1]
    · intro _; simp only [SrcPc.pend, t1]; exact isSlice_slice _ _ _
    · intro _ _; simpa only [wnext] using hgd
    · intro N hN
      obtain ⟨b1, b2, b3, b4⟩ := h.bnd N hN
      obtain ⟨m, hm, hmN⟩ := hlen N hN
      simp only [hm, leOpt, decide_eq_true_eq] at hrl
      exact ⟨fun _ => by simp only; omega, fun _ => by simp only [wnext]; omega, by simp, b4⟩
  case chunkRem n r heq hte hlim hrl hpf hrem =>
    rw [h.rem] at hrem; simp at hrem
  case chunk n heq hte hlim hrl hpf hrem =>
    have hl : s.spc.live = true := by simp [heq, SrcPc.live]
    have t1 := h.tpos hl
    simp only [heq, SrcPc.pend, List.length_nil, Nat.add_zero] at t1
    have hb4 : ∀ N, c.contentLength = some N → s.tpos + n ≤ N := by
      intro N hN
      obtain ⟨m, hm, hmN⟩ := hlen N hN
      simp only [hm, leOpt, decide_eq_true_eq] at hrl
      omega
    by_cases hn : slice c.remote s.tpos n = []
    · have hn0 : n = 0 := by simpa using congrArg List.length hn
      subst hn0
      refine ⟨W, SrcEff.same rfl, ⟨h.inv, h.wf, h.rem, h.good, ?_, ?_, ?_, ?_, ?_, ?_, ?_, ?_⟩⟩
      all_goals simp only [startPc, hn, if_true]
      · intro _; simp [SrcPc.pend, t1]
      · intro _; exact isSlice_nil _ _
      · intro hf; simp [hpf] at hf
      · simp [SrcPc.wpos]
      · simp [SrcPc.inPf]
      · trivial
      · simp
      · intro N hN
        obtain ⟨b1, b2, b3, b4⟩ := h.bnd N hN
        have := hb4 N hN
        exact ⟨fun _ => this, fun _ => by simp only [wnext]; omega, by simp, b4⟩
    · refine ⟨W, SrcEff.same rfl, ⟨h.inv, h.wf, h.rem, h.good, ?_, ?_, ?_, ?_, ?_, ?_, ?_, ?_⟩⟩
      all_goals simp only [startPc, hn, if_false]
      · intro _; simp [SrcPc.pend, t1]
      · intro _; simp only [SrcPc.pend, t1]; exact isSlice_slice _ _ _
      · intro hf; simp [hpf] at hf
      · intro p hp
        simp only [SrcPc.wpos, Option.some.injEq] at hp
        subst hp
        exact ⟨hpf, fun q h1 h2 => by omega⟩
      · simp [SrcPc.inPf]
      · exact hn
      · simp
      · intro N hN
        obtain ⟨b1, b2, b3, b4⟩ := h.bnd N hN
        have := hb4 N hN
        exact ⟨fun _ => this, fun _ => by simp only [wnext]; omega, by simp, b4⟩
  case chunkErr heq =>
    exact ⟨W, SrcEff.same rfl, h.move rfl rfl rfl rfl rfl rfl (by simp [heq, SrcPc.live])
      (by simp [heq, SrcPc.live]) rfl (Or.inr rfl) (fun h => h) h.ok (by simp [heq]) (by simp [heq])⟩
  case eofPf heq hpf =>
    have hl : s.spc.live = true := by simp [heq, SrcPc.live]
    have hgd := h.pf hpf (live_active hl)
    rw [wnext_of hl] at hgd
    obtain ⟨w1, w2⟩ := good_add h hgd
    have t1 := h.tpos hl
    have t2 := h.pend hl
    simp only [heq, SrcPc.pend] at t1 t2
    refine ⟨W, SrcEff.same rfl, ⟨h.inv, w1, h.rem, w2, fun _ => t1,
      fun _ => t2, by simp, by simp [SrcPc.wpos], by simp [SrcPc.inPf], trivial, by simp, ?_⟩⟩
    · intro N hN
      obtain ⟨b1, b2, b3, b4⟩ := h.bnd N hN
      have hb2 := b2 (live_active hl)
      rw [wnext_of hl] at hb2
      exact ⟨fun _ => b1 hl, fun _ => by simpa only [wnext] using hb2, by simp, b4⟩
  case eofRem r heq hpf hrem =>
    rw [h.rem] at hrem; simp at hrem
  case eof heq hpf hrem =>
    exact ⟨W, SrcEff.same rfl, h.move rfl rfl rfl rfl rfl rfl (by simp [heq, SrcPc.live]) rfl
      (by simp [heq, SrcPc.pend]) (Or.inl rfl) (by simp [SrcPc.inPf]) trivial (by simp) (by simp)⟩
  case timeout heq =>
    exact ⟨W, SrcEff.same rfl, h.move rfl rfl rfl rfl rfl rfl (by simp [heq, SrcPc.live]) rfl
      (by simp [heq, SrcPc.pend]) (Or.inl rfl) (by simp [SrcPc.inPf]) trivial
      (by intro p hp; simp only [SrcPc.reconn.injEq] at hp; exact hp.symm) (by simp)⟩
  case seekOk start stop pos st' heq hw =>
    obtain ⟨h1, h2, h3, h4, h5⟩ := L.wseek_ok h.inv (Or.inl rfl) hw
    have hpos := hon.1 start stop pos heq rfl
    subst hpos
    have hg : ∀ q, GoodAt c L W s.st q → GoodAt c L W st' q := fun q hq => wseek_good h.inv hw hq
    have hwn : wnext s = pos := by simp [wnext, heq]
    have hact : s.spc.active = true := by simp [heq, SrcPc.active]
    refine ⟨W, ⟨Finset.Subset.refl _, hg, by simp [heq, SrcPc.live], fun q hq => Or.inl (by rw [← h5]; exact hq)⟩, ⟨h1, h.wf, h.rem, fun q hq => hg q (h.good q hq), ?_, ?_, ?_,
      by simp [SrcPc.wpos], by simp [SrcPc.inPf], trivial, by simp, ?_⟩⟩
    · intro _; simp [SrcPc.pend, h4]
    · intro _; exact isSlice_nil _ _
    · intro hf _ q a1 a2
      simp only [wnext, h4] at a2
      exact hg q (h.pf hf hact q a1 (by omega))
    · intro N hN
      obtain ⟨b1, b2, b3, b4⟩ := h.bnd N hN
      have := b2 hact
      refine ⟨fun _ => by simp only; omega, fun _ => by simp only [wnext]; omega, by simp, ?_⟩
      simpa only [h5] using b4
  case reconnOk p pos heq =>
    have hl : s.spc.live = true := by simp [heq, SrcPc.live]
    have hpos := hon.2 p pos heq rfl
    subst hpos
    have hp := h.recon pos heq
    have t1 := h.tpos hl
    simp only [heq, SrcPc.pend, List.length_nil, Nat.add_zero] at t1
    exact ⟨W, SrcEff.same rfl, h.move rfl rfl rfl rfl rfl (by simp only; omega) hl rfl
      (by simp [heq, SrcPc.pend]) (Or.inl rfl) (by simp [SrcPc.inPf]) trivial (by simp) (by simp)⟩
  case reconnFail p heq =>
    exact ⟨W, SrcEff.same rfl, h.move rfl rfl rfl rfl rfl rfl (by simp [heq, SrcPc.live]) rfl
      (by simp [heq, SrcPc.pend]) (Or.inl rfl) (by simp [SrcPc.inPf]) trivial (by simp) (by simp)⟩
  case reconnTimeout p heq =>
    exact ⟨W, SrcEff.same rfl, h.move rfl rfl rfl rfl rfl rfl (by simp [heq, SrcPc.live]) rfl
      (by simp [heq, SrcPc.pend]) (Or.inl rfl) (by simp [SrcPc.inPf]) trivial (by simp) (by simp)⟩
  all_goals first
    | (simp [Act.isRdr] at ha; done)
    | exact ⟨W, SrcEff.same rfl, h.stop rfl rfl rfl rfl⟩


/-- What an action of the task's side leaves alone. -/
structure SrcFrame {full : Bool} (L : Lawful S full) (s s' : Sys S) : Prop where
  rpc : s'.rpc = s.rpc
  rpos : L.rpos s'.st = L.rpos s.st
  clean : L.Clean s.st → L.Clean s'.st
  seekQ : ∀ p, s'.seekQ = some p → s.seekQ = some p
  dl : RSet.WF s.dl → ∀ q, RSet.Mem s.dl q → RSet.Mem s'.dl q
  log : ∃ es, s'.log = es ++ s.log ∧ ∀ e ∈ es, e.isRdr = false

theorem src_frame {full : Bool} (L : Lawful S full) {c : Cfg} {s s' : Sys S} {a : Act}
    {W : Finset Nat} (ha : a.isRdr = false) (h : Tr c s a s') (hinv : L.Inv s.st W)
    (hk : ∀ start stop, s.spc = .seeking start stop → full = true ∨ start = S.wtell s.st) :
    SrcFrame L s s' := by
  cases h
  case pfWriteMore len todo k st' heq hw hk =>
    obtain ⟨h1, h2, h3, h4, h5, h6, h7⟩ := L.write_ok hinv hw
    exact ⟨rfl, h4, h3, fun _ h => h, fun _ _ h => h, ⟨[_], rfl, by simp [Ev.isRdr]⟩⟩
  case pfWriteEnd len todo st' heq hw =>
    obtain ⟨h1, h2, h3, h4, h5, h6, h7⟩ := L.write_ok hinv hw
    exact ⟨rfl, h4, h3, fun _ h => h, fun _ _ h => h, ⟨[_], rfl, by simp [Ev.isRdr]⟩⟩
  case wWriteMore pos0 len todo bw k st' heq hw hk =>
    obtain ⟨h1, h2, h3, h4, h5, h6, h7⟩ := L.write_ok hinv hw
    exact ⟨rfl, h4, h3, fun _ h => h, fun _ _ h => h, ⟨[_], rfl, by simp [Ev.isRdr]⟩⟩
  case wWriteEnd pos0 len todo bw st' heq hw =>
    obtain ⟨h1, h2, h3, h4, h5, h6, h7⟩ := L.write_ok hinv hw
    exact ⟨rfl, h4, h3, fun _ h => h, fun _ _ h => h, ⟨[_], rfl, by simp [Ev.isRdr]⟩⟩
  case seekOk start stop pos st' heq hw =>
    obtain ⟨h1, h2, h3, h4, h5⟩ := L.wseek_ok hinv (hk start stop heq) hw
    exact ⟨rfl, h3, h2, fun _ h => h, fun _ _ h => h, ⟨[], rfl, by simp⟩⟩
  case recvSeek p heq hq =>
    exact ⟨rfl, rfl, fun h => h, by simp, fun _ _ h => h, ⟨[], rfl, by simp⟩⟩
  all_goals first
    | (simp [Act.isRdr] at ha; done)
    | (refine ⟨rfl, rfl, fun h => h, fun _ h => h, ?_, ?_⟩
       · first
           | exact fun _ _ h => h
           | exact fun hw q h => (RSet.mem_add hw _ _ q).2 (Or.inl h)
       · first | exact ⟨[], rfl, by simp⟩ | exact ⟨[_], rfl, by simp [Ev.isRdr]⟩)

theorem FullRdr.of_frame {c : Cfg} {L : Lawful S true} {s s' : Sys S} (h : FullRdr c L s)
    (hwf : RSet.WF s.dl) (f : SrcFrame L s s') : FullRdr c L s' := by
  refine ⟨?_, ?_, ?_, ?_⟩
  · intro hh; rw [f.rpc] at hh; exact f.clean (h.clean hh)
  · intro N p hN hp; exact h.seekQ N p hN (f.seekQ p hp)
  · intro N p hN hp; rw [f.rpc] at hp; exact h.target N p hN hp
  · intro n hn
    rw [f.rpc] at hn; rw [f.rpos]
    obtain ⟨g1, g2⟩ := h.fast n hn
    exact ⟨f.dl hwf _ g1, fun q h1 h2 => f.dl hwf q (g2 q h1 h2)⟩

/-- The invariant is preserved by every step, and correctly stored bytes stay. -/
theorem Full.step {c : Cfg} {L : Lawful S true} {W : Finset Nat} {s s' : Sys S} {a : Act}
    (hb : c.batchSize ≠ 0) (hlen : c.LengthHonest) (hon : Honest s a)
    (h : Full c L W s) (ht : Tr c s a s') :
    ∃ W', SrcEff c L W s W' s' ∧ Full c L W' s' := by
  cases ha : a.isRdr
  · obtain ⟨W', h1, h3⟩ := FullSrc.step hb hlen hon h.src h.rdr ha ht
    exact ⟨W', h1, h3, h.rdr.of_frame h.src.wf
      (src_frame L ha ht h.src.inv (fun _ _ _ => Or.inl rfl))⟩
  · obtain ⟨f, hi, hc⟩ := rdr_frame L ha ht h.src.inv h.rdr.clean
    refine ⟨W, ⟨Finset.Subset.refl _, ?_, ?_, ?_⟩, h.src.of_frame f hi, FullRdr.step h.src h.rdr ha ht⟩
    · intro q hq; exact ⟨hq.1, by rw [f.cell]; exact hq.2⟩
    · intro _ q a1 a2; rw [f.wtell] at a2; omega
    · intro q hq; rw [f.cell] at hq; exact Or.inl hq

theorem Full.init {c : Cfg} {P : Provider} (LP : LawfulProvider P true c.contentLength)
    {s0 : Sys P.S} (h : Starts P c s0) : Full c LP.law ∅ s0 := by
  obtain ⟨-, st, hc, rfl⟩ := h
  obtain ⟨h1, h2, h3, h4, h5, h6⟩ := LP.create_ok hc
  refine ⟨⟨h1, trivial, rfl, ?_, ?_, ?_, ?_, ?_, ?_, trivial, ?_, ?_⟩, ⟨?_, ?_, ?_, ?_⟩⟩
  · intro q hq; exact absurd hq (RSet.mem_nil q)
  · intro _; simp [SD.init, SrcPc.pend, h5]
  · intro _; exact isSlice_nil _ _
  · intro _ _ q a1 a2; simp [SD.init, wnext, h5] at a2
  · simp [SD.init, SrcPc.wpos]
  · simp [SD.init, SrcPc.inPf]
  · simp [SD.init]
  · intro N hN
    refine ⟨by simp [SD.init], by simp [SD.init, wnext, h5], by simp [SD.init], ?_⟩
    intro q hq
    obtain ⟨_, n, hn, hlt⟩ := h6 q hq
    rw [hN] at hn; cases hn; exact hlt
  · simp [CleanInv, SD.init, RdrPc.inRead]
  · simp [SD.init]
  · simp [SD.init, RdrPc.target]
  · simp [SD.init]

theorem Full.reach {c : Cfg} {P : Provider} (LP : LawfulProvider P true c.contentLength)
    (hb : c.batchSize ≠ 0) (hlen : c.LengthHonest) {G : Sys P.S → Act → Prop}
    (hG : ∀ s a, G s a → Honest s a) {s0 s : Sys P.S} (h0 : Starts P c s0)
    (h : Reach c G s0 s) : ∃ W, Full c LP.law W s := by
  refine Reach.inv (P := fun s => ∃ W, Full c LP.law W s) h ⟨∅, Full.init LP h0⟩ ?_
  rintro s s' a ⟨W, hW⟩ hg ht
  obtain ⟨W', -, h'⟩ := hW.step hb hlen (hG _ _ hg) ht
  exact ⟨W', h'⟩

end SD
