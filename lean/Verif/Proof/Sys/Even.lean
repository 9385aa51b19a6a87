import Verif.Proof.Sys.FinishWin

/-!
# A download without seeks needs no ranges

The consumer does not seek, and every response ends where it should: the gap that is looked for
after the end of the transport is empty.
-/

set_option linter.unusedSimpArgs false
set_option linter.unusedVariables false

namespace SD

variable {S : Storage}

/-- The number of bytes received and not written yet. -/
def waiting (s : Sys S) : Nat := s.spc.pend.length + (s.rem.getD []).length

/-- Where a download of `m` bytes without seeks stands. -/
structure Even (c : Cfg) {full : Bool} (L : Lawful S full) (m : Nat) (s : Sys S) : Prop where
  seq : Seq c s
  inv : ∃ W, L.Inv s.st W
  clean : CleanInv L s
  flow : s.spc.live = true → s.tpos ≤ S.wtell s.st + waiting s
  lim : s.tlim = none
  ask : ∀ a b, s.spc ≠ .seeking a b
  fin : s.spc = .fin → m ≤ S.wtell s.st
  log : ∀ a b, Ev.seekRange a b ∉ s.log

/-- The guard. -/
def EvenG (c : Cfg) (s : Sys S) (a : Act) : Prop :=
  Honest s a ∧ NoSeek s a ∧ EndsWhereAsked c s a

set_option maxHeartbeats 4000000 in
theorem Even.step {c : Cfg} {full : Bool} {L : Lawful S full} {m : Nat} (hfin : c.Finite m) {s s' : Sys S}
    {a : Act} (hg : EvenG c s a) (h : Even c L m s) (ht : Tr c s a s') : Even c L m s' := by
  obtain ⟨hm, hcl⟩ := hfin
  obtain ⟨W, hi⟩ := h.inv
  have hseq := h.seq.step (fun _ => hg.2.1) hi h.clean ht
  cases ha : a.isRdr
  case true =>
    obtain ⟨f, f2, f3⟩ := rdr_frame L ha ht hi h.clean
    obtain ⟨h1, h2, h3, h4, h5, h6, h7, h8⟩ := h
    refine ⟨hseq, ⟨W, f2⟩, f3, ?_, by rw [f.tlim]; exact h5, by rw [f.spc]; exact h6, by rw [f.spc, f.wtell]; exact h7, ?_⟩
    · unfold waiting; rw [f.spc, f.tpos, f.wtell, f.rem]; exact h4
    · obtain ⟨es, e1, e2⟩ := f.log
      intro p q hp
      rw [e1, List.mem_append] at hp
      rcases hp with hp | hp
      · have := e2 _ hp; simp [Ev.isRdr] at this
      · exact h8 p q hp
  have hfr := src_frame L ha ht hi (fun p b hs => absurd hs (h.ask p b))
  have hclean := h.clean.src hfr
  have hseek : ∀ p, s.spc = .seekMsg p → ¬ shouldSeek c s p :=
    fun p hp hs => (h.seq.noSeek hs.1).2.1 p hp
  obtain ⟨⟨-, hon⟩, -, hend⟩ := hg
  have hgap : s.spc = .fin → ∀ n p q, RSet.nextGap s.dl 0 n = some (p, q) → p = S.wtell s.st ∧ p < n := by
    intro hf n p q hg
    obtain ⟨-, g1, g2, -⟩ := RSet.nextGap_some h.seq.wf hg
    exact ⟨h.seq.gap hf hg, by omega⟩
  have hrec := h.seq.recon
  have hremPf := h.seq.remPf
  have hinPf := h.seq.inPf
  have hwle := h.seq.wle
  obtain ⟨-, -, -, h4, h5, h6, h7, h8⟩ := h
  have hw : ∀ bs k st', S.write s.st bs = .ok (k, st') → k ≤ bs.length ∧ (∃ W, L.Inv st' W) ∧
      S.wtell st' = S.wtell s.st + k := by
    intro bs k st' e
    obtain ⟨e1, e2, -, -, e3, -⟩ := L.write_ok hi e
    exact ⟨e1, ⟨_, e2⟩, e3⟩
  have hend' : a = .eof → m ≤ s.tpos := by
    intro e
    rcases hend e with ⟨m', e1, e2⟩ | ⟨b, e1, e2⟩
    · rw [hm] at e1; cases e1; exact e2
    · rw [h5] at e1; cases e1
  have hb : ∀ todo : List Byte, (batch c todo).length ≤ todo.length := by
    intro todo; simp [batch]
  unfold waiting at h4
  have pc1 : ∀ p bs, (startPc p bs).pend = bs := startPc_pend
  have pc2 : ∀ p l t b, (roundPc p l t b).pend = t := roundPc_pend
  have pc3 : ∀ p bs, startPc p bs ≠ .fin ∧ ∀ a b, startPc p bs ≠ .seeking a b := by
    intro p bs; unfold startPc; split <;> simp
  have pc4 : ∀ p l t b, roundPc p l t b ≠ .fin ∧ ∀ x y, roundPc p l t b ≠ .seeking x y := by
    intro p l t b; unfold roundPc; split
    · simp
    · split <;> simp
  refine ⟨hseq, ?_, hclean, ?_, ?_, ?_, ?_, ?_⟩ <;> (try unfold waiting) <;> clear hseq hclean hfr <;>
    cases ht
  all_goals first
    | assumption
    | (exfalso; exact hseek _ ‹_› ‹_›)
    | grind [SrcPc.pend, SrcPc.live, Act.isRdr, SrcPc.inPf, SrcPc.wpos, slice_length]

/-- Without seeks the download is contiguous, whatever the transport does. -/
theorem seq_reach {P : Provider} {c : Cfg} {full : Bool} (LP : LawfulProvider P full c.contentLength)
    {G : Sys P.S → Act → Prop} (hG : ∀ s a, G s a → NoSeek s a) {s0 s : Sys P.S} (h0 : Starts P c s0)
    (h : Reach c G s0 s) : Seq c s := by
  have key : Seq c s ∧ (∃ W, LP.law.Inv s.st W) ∧ CleanInv LP.law s := by
    refine Reach.inv (P := fun s => Seq c s ∧ (∃ W, LP.law.Inv s.st W) ∧ CleanInv LP.law s) h ?_ ?_
    · obtain ⟨-, st, hc, rfl⟩ := h0
      obtain ⟨k1, -, -, -, k2, -⟩ := LP.create_ok hc
      refine ⟨?_, ⟨_, k1⟩, by simp [CleanInv, init, RdrPc.inRead]⟩
      constructor <;> simp [init, RSet.WF, RdrPc.target, RSet.mem_nil, k2, SrcPc.wopen, SrcPc.wpos, SrcPc.inPf]
    · rintro s s' a ⟨h1, ⟨W, h2⟩, h3⟩ hg ht
      refine ⟨h1.step (fun _ => hG _ _ hg) h2 h3 ht, ?_⟩
      cases ha : a.isRdr
      case true =>
        obtain ⟨-, f2, f3⟩ := rdr_frame LP.law ha ht h2 h3
        exact ⟨⟨_, f2⟩, f3⟩
      have hsk := fun p b hs => (h1.seekAt p b hs).1
      refine ⟨?_, h3.src (src_frame LP.law ha ht h2 fun p b hs => Or.inr (hsk p b hs))⟩
      cases ht
      case pfWriteMore hw hk => exact ⟨_, (LP.law.write_ok h2 hw).2.1⟩
      case pfWriteEnd hw => exact ⟨_, (LP.law.write_ok h2 hw).2.1⟩
      case wWriteMore hw hk => exact ⟨_, (LP.law.write_ok h2 hw).2.1⟩
      case wWriteEnd hw => exact ⟨_, (LP.law.write_ok h2 hw).2.1⟩
      case seekOk heq hw => exact ⟨_, (LP.law.wseek_ok h2 (Or.inr (hsk _ _ heq)) hw).1⟩
      all_goals first
        | exact ⟨W, h2⟩
        | (simp [Act.isRdr] at ha; done)
  exact key.1

theorem even_reach {P : Provider} {c : Cfg} {full : Bool} {m : Nat} (hfin : c.Finite m)
    (LP : LawfulProvider P full c.contentLength) {G : Sys P.S → Act → Prop} (hG : ∀ s a, G s a → EvenG c s a)
    {s0 s : Sys P.S} (h0 : Starts P c s0) (h : Reach c G s0 s) : Even c LP.law m s := by
  refine Reach.inv (P := Even c LP.law m) h ?_ (fun _ _ _ h hg ht => h.step hfin (hG _ _ hg) ht)
  have hseq := seq_reach (G := NoSeek) LP (fun _ _ h => h) h0 .refl
  obtain ⟨-, st, hc, rfl⟩ := h0
  obtain ⟨k1, -, -, -, k2, -⟩ := LP.create_ok hc
  exact ⟨hseq, ⟨_, k1⟩, by simp [CleanInv, init, RdrPc.inRead], by simp [init], rfl, by simp [init], by simp [init],
    by simp [init]⟩

end SD
