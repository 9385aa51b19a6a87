import Verif.Proof.Sys.Window

/-! # What a windowed storage holds during a contiguous download -/

set_option linter.unusedSimpArgs false
set_option linter.unusedVariables false

namespace SD

variable {S : Storage}

structure Win (c : Cfg) (L : Lawful S false) (W : Finset Nat) (s : Sys S) : Prop where
  seq : Seq c s
  inv : L.Inv s.st W
  clean : CleanInv L s
  flow : s.spc.live = true → IsSlice c.remote (S.wtell s.st) (inFlight s) ∧
    s.tpos = S.wtell s.st + (inFlight s).length
  sound : ∀ q b, L.cell s.st q = some b → b = c.remote q
  wW : ∀ q, q < S.wtell s.st → q ∈ W

/-- What one write of the task does. -/
theorem Win.write {c : Cfg} {L : Lawful S false} {W : Finset Nat} {s : Sys S} {st' : S.σ}
    {todo : List Byte} {k : Nat} (h : Win c L W s) (hl : s.spc.live = true)
    (hp : s.spc.pend = todo) (hrem : s.rem = none)
    (hw : S.write s.st (batch c todo) = .ok (k, st')) :
    L.Inv st' (W ∪ Finset.Ico (S.wtell s.st) (S.wtell s.st + k)) ∧
    S.wtell st' = S.wtell s.st + k ∧ k ≤ (batch c todo).length ∧
    (∀ q b, L.cell st' q = some b → b = c.remote q) ∧
    IsSlice c.remote (S.wtell st') (todo.drop k) ∧
    s.tpos = S.wtell st' + (todo.drop k).length ∧
    (∀ q, q < S.wtell st' → q ∈ W ∪ Finset.Ico (S.wtell s.st) (S.wtell s.st + k)) := by
  obtain ⟨f1, f2⟩ := h.flow hl
  rw [inFlight, hp, hrem, Option.getD_none, List.append_nil] at f1 f2
  obtain ⟨h1, h2, h3, h4, h5, h6, h7⟩ := L.write_ok h.inv hw
  obtain ⟨h8, h9⟩ := L.write_window rfl h.inv hw
  have hbl := batch_length c todo
  refine ⟨h2, h5, h1, ?_, ?_, ?_, ?_⟩
  · intro q b hq
    rcases h8 q b hq with ⟨i, i1, i2, i3⟩ | hq
    · have hsl := batch_slice (c := c) f1
      rw [hsl.getElem? (by omega)] at i3
      simp only [Option.some.injEq] at i3
      rw [i2, i3]
    · exact h.sound q b hq
  · rw [h5]; exact f1.drop k
  · rw [h5, f2, List.length_drop]; omega
  · intro q hq
    rw [Finset.mem_union, Finset.mem_Ico]
    by_cases hlt : q < S.wtell s.st
    · exact Or.inl (h.wW q hlt)
    · exact Or.inr ⟨by omega, by omega⟩

theorem startPc_pend (w : Nat) (bs : List Byte) : (startPc w bs).pend = bs := by
  unfold startPc; split
  · next h => rw [h]; rfl
  · rfl

theorem roundPc_pend (pos0 len : Nat) (todo : List Byte) (bw : Nat) :
    (roundPc pos0 len todo bw).pend = todo := by
  unfold roundPc; split
  · rfl
  · split
    · next h => rw [h]; rfl
    · rfl

theorem CleanInv.src {full : Bool} {L : Lawful S full} {s s' : Sys S} (h : CleanInv L s)
    (f : SrcFrame L s s') : CleanInv L s' := by
  intro hh; rw [f.rpc] at hh; exact f.clean (h hh)

theorem Win.src {c : Cfg} {L : Lawful S false} {W : Finset Nat} {s s' : Sys S} {a : Act}
    (hG : SeqG c s a) (h : Win c L W s) (ha : a.isRdr = false) (ht : Tr c s a s') :
    ∃ W', Win c L W' s' := by
  have hseq := h.seq.step hG.2.2 h.inv h.clean ht
  have hfr := src_frame L ha ht h.inv (fun a b hs => Or.inr (h.seq.seekAt a b hs).1)
  have hcl := h.clean.src hfr
  obtain ⟨⟨hon1, hon2⟩, hcr, -⟩ := hG
  have hnoSeek : ∀ p, ¬ (s.spc = .seekMsg p ∧ shouldSeek c s p) :=
    fun p hp => (h.seq.noSeek hp.2.1).2.1 p hp.1
  have same : s'.st = s.st → (s'.spc.live = true → IsSlice c.remote (S.wtell s'.st) (inFlight s') ∧
      s'.tpos = S.wtell s'.st + (inFlight s').length) → ∃ W', Win c L W' s' := by
    intro he hfl
    refine ⟨W, hseq, by rw [he]; exact h.inv, hcl, hfl, by rw [he]; exact h.sound, by rw [he]; exact h.wW⟩
  have halt : s'.st = s.st → s'.spc.live = false → ∃ W', Win c L W' s' := by
    intro he hl
    exact same he (by simp [hl])
  have move : s'.st = s.st → s.spc.live = true → inFlight s' = inFlight s → s'.tpos = s.tpos →
      ∃ W', Win c L W' s' := by
    intro he hl hi htp
    refine same he (fun _ => ?_)
    rw [he, hi, htp]; exact h.flow hl
  cases ht
  case pfWriteMore len todo k st' heq hw hk =>
    have hrem := h.seq.remPf (h.seq.inPf (by simp [heq, SrcPc.inPf]))
    obtain ⟨w1, w2, w3, w4, w5, w6, w7⟩ := h.write (by simp [heq, SrcPc.live]) (by simp [heq, SrcPc.pend]) hrem hw
    exact ⟨_, hseq, w1, hcl, fun _ => by
      simp only [inFlight, SrcPc.pend, hrem, Option.getD_none, List.append_nil]; exact ⟨w5, w6⟩, w4, w7⟩
  case pfWriteEnd len todo st' heq hw =>
    have hrem := h.seq.remPf (h.seq.inPf (by simp [heq, SrcPc.inPf]))
    obtain ⟨w1, w2, w3, w4, w5, w6, w7⟩ := h.write (by simp [heq, SrcPc.live]) (by simp [heq, SrcPc.pend]) hrem hw
    exact ⟨_, hseq, w1, hcl, fun _ => by
      simp only [inFlight, SrcPc.pend, hrem, Option.getD_none, List.append_nil]; exact ⟨w5, w6⟩, w4, w7⟩
  case wWriteMore pos0 len todo bw k st' heq hw hk =>
    have hrem := (h.seq.wle pos0 (by simp [heq, SrcPc.wpos])).2.2
    obtain ⟨w1, w2, w3, w4, w5, w6, w7⟩ := h.write (by simp [heq, SrcPc.live]) (by simp [heq, SrcPc.pend]) hrem hw
    exact ⟨_, hseq, w1, hcl, fun _ => by
      simp only [inFlight, SrcPc.pend, hrem, Option.getD_none, List.append_nil]; exact ⟨w5, w6⟩, w4, w7⟩
  case wWriteEnd pos0 len todo bw st' heq hw =>
    have hrem := (h.seq.wle pos0 (by simp [heq, SrcPc.wpos])).2.2
    obtain ⟨w1, w2, w3, w4, w5, w6, w7⟩ := h.write (by simp [heq, SrcPc.live]) (by simp [heq, SrcPc.pend]) hrem hw
    exact ⟨_, hseq, w1, hcl, fun _ => by
      simp only [inFlight, SrcPc.pend, hrem, Option.getD_none, List.append_nil]; exact ⟨w5, w6⟩, w4, w7⟩
  case seekOk start stp pos st' heq hw =>
    obtain ⟨e1, e2, -⟩ := h.seq.seekAt start stp heq
    subst e1
    obtain ⟨k1, k2, k3, k4, k5⟩ := L.wseek_ok h.inv (Or.inr rfl) hw
    have hpos := hon1 _ stp pos heq rfl
    refine ⟨W, hseq, k1, hcl, fun _ => ?_, ?_, ?_⟩
    · simp only [inFlight, SrcPc.pend, e2, Option.getD_none, List.append_nil, List.length_nil, k4, hpos]
      exact ⟨isSlice_nil _ _, rfl⟩
    · intro q b; rw [k5]; exact h.sound q b
    · rw [k4]; exact h.wW
  case chunkPf n heq _ _ _ hpf =>
    have hrem := h.seq.remPf hpf
    obtain ⟨f1, f2⟩ := h.flow (by simp [heq, SrcPc.live])
    simp only [inFlight, heq, SrcPc.pend, hrem, Option.getD_none, List.append_nil, List.length_nil, Nat.add_zero] at f2
    refine same rfl (fun _ => ?_)
    simp only [inFlight, SrcPc.pend, hrem, Option.getD_none, List.append_nil, slice_length, f2]
    exact ⟨isSlice_slice _ _ _, trivial⟩
  case chunkRem n r heq _ _ _ hpf hrem =>
    obtain ⟨f1, f2⟩ := h.flow (by simp [heq, SrcPc.live])
    simp only [inFlight, heq, SrcPc.pend, hrem, Option.getD_some, List.nil_append] at f1 f2
    refine same rfl (fun _ => ?_)
    simp only [inFlight, startPc_pend, Option.getD_none, List.append_nil, List.length_append, slice_length]
    refine ⟨f1.append ?_, by omega⟩
    rw [← f2]; exact isSlice_slice _ _ _
  case chunk n heq _ _ _ hpf hrem =>
    obtain ⟨f1, f2⟩ := h.flow (by simp [heq, SrcPc.live])
    simp only [inFlight, heq, SrcPc.pend, hrem, Option.getD_none, List.append_nil, List.length_nil, Nat.add_zero] at f2
    refine same rfl (fun _ => ?_)
    simp only [inFlight, startPc_pend, hrem, Option.getD_none, List.append_nil, slice_length]
    rw [f2]
    exact ⟨isSlice_slice _ _ _, rfl⟩
  case eofRem r heq hpf hrem =>
    refine move rfl (by simp [heq, SrcPc.live]) ?_ rfl
    simp only [inFlight, startPc_pend, heq, hrem, Option.getD_none, Option.getD_some, List.append_nil]
    rfl
  case reconnOk p pos heq =>
    have hrem := hcr pos rfl
    have hpos := hon2 p pos heq rfl
    have hp := h.seq.recon p heq
    refine same rfl (fun _ => ?_)
    simp only [inFlight, SrcPc.pend, hrem, Option.getD_none, List.append_nil, List.length_nil, hpos, hp]
    exact ⟨isSlice_nil _ _, rfl⟩
  case pfPostPart len todo heq hne =>
    have hrem := h.seq.remPf (h.seq.inPf (by simp [heq, SrcPc.inPf]))
    exact move rfl (by simp [heq, SrcPc.live]) (by simp [inFlight, heq, SrcPc.pend, hrem]) rfl
  case wChkMiss pos0 len todo bw heq hr =>
    exact move rfl (by simp [heq, SrcPc.live]) (by simp only [inFlight, roundPc_pend, heq]; rfl) rfl
  case wNtf pos0 len todo bw heq =>
    exact move rfl (by simp [heq, SrcPc.live]) (by simp only [inFlight, roundPc_pend, heq]; rfl) rfl
  all_goals first
    | (simp [Act.isRdr] at ha; done)
    | (exact halt rfl rfl)
    | (refine halt rfl ?_; simp [*, SrcPc.live]; done)
    | (refine move rfl ?_ ?_ rfl
       · simp [*, SrcPc.live]; done
       · simp [inFlight, *, SrcPc.pend]; done)
    | (refine move rfl ?_ rfl rfl; simp [*, SrcPc.live]; done)
    | (exact absurd ⟨‹_›, ‹_›⟩ (hnoSeek _))

theorem Win.rdr {c : Cfg} {L : Lawful S false} {W : Finset Nat} {s s' : Sys S} {a : Act}
    (hG : SeqG c s a) (h : Win c L W s) (ha : a.isRdr = true) (ht : Tr c s a s') :
    Win c L W s' := by
  have hseq := h.seq.step hG.2.2 h.inv h.clean ht
  obtain ⟨f, hi, hc⟩ := rdr_frame L ha ht h.inv h.clean
  have hfl : inFlight s' = inFlight s := by unfold inFlight; rw [f.spc, f.rem]
  refine ⟨hseq, hi, hc, ?_, ?_, ?_⟩
  · rw [f.spc, hfl, f.wtell, f.tpos]; exact h.flow
  · intro q b; rw [f.cell]; exact h.sound q b
  · rw [f.wtell]; exact h.wW

theorem Seq.init {c : Cfg} {st : S.σ} (h5 : S.wtell st = 0) : Seq c (SD.init c st) := by
  constructor <;> simp [SD.init, RdrPc.target, SrcPc.wpos, SrcPc.inPf, h5]
  · trivial
  · intro q hq; exact absurd hq (RSet.mem_nil q)

theorem Win.init {c : Cfg} {P : Provider} (LP : LawfulProvider P false c.contentLength)
    {s0 : Sys P.S} (h : Starts P c s0) : Win c LP.law ∅ s0 := by
  obtain ⟨-, st, hc, rfl⟩ := h
  obtain ⟨h1, h2, h3, h4, h5, h6⟩ := LP.create_ok hc
  refine ⟨Seq.init h5, h1, ?_, ?_, ?_, ?_⟩
  · intro hh; simp [SD.init, RdrPc.inRead] at hh
  · intro _
    simp [inFlight, SD.init, SrcPc.pend, h5]
    exact isSlice_nil _ _
  · intro q b hq
    have := (h6 q (by simp only [SD.init] at hq; rw [hq]; simp)).1
    simp at this
  · intro q hq; simp [SD.init, h5] at hq

theorem Win.reach {c : Cfg} {P : Provider} (LP : LawfulProvider P false c.contentLength)
    {G : Sys P.S → Act → Prop} (hG : ∀ s a, G s a → SeqG c s a) {s0 s : Sys P.S}
    (h0 : Starts P c s0) (h : Reach c G s0 s) : ∃ W, Win c LP.law W s := by
  refine Reach.inv (P := fun s => ∃ W, Win c LP.law W s) h ⟨∅, Win.init LP h0⟩ ?_
  rintro s s' a ⟨W, hW⟩ hg ht
  cases ha : a.isRdr
  · exact hW.src (hG _ _ hg) ha ht
  · exact ⟨W, hW.rdr (hG _ _ hg) ha ht⟩

/-- Every read returns the bytes of the resource. -/
theorem Win.read {c : Cfg} {L : Lawful S false} {W : Finset Nat} {s s' : Sys S} {a : Act}
    {pos len : Nat} {fast : Bool} {bs : List Byte} (h : Win c L W s) (ht : Tr c s a s')
    (hl : s'.log = .readRet pos len fast (.ok bs) :: s.log) : bs = slice c.remote pos bs.length := by
  obtain ⟨-, h2, h3, h4, -⟩ := tr_readRet ht hl
  obtain ⟨t1, -⟩ := L.tell_ok h.inv
  rw [t1] at h3; subst h3
  have hcl := h.clean (by simp [h2, RdrPc.inRead])
  obtain ⟨r1, r2, -⟩ := L.read_ok h.inv (L.clean_fresh h.inv hcl) h4
  apply slice_ext
  intro i hi
  have h5 := r2 i hi
  rw [← h5]
  cases hcell : L.cell s.st (L.rpos s.st + i) with
  | none =>
    rw [hcell] at h5
    have := List.getElem?_eq_none_iff.mp h5.symm
    omega
  | some b => rw [h.sound _ b hcell]

end SD
