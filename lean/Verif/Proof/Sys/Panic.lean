import Verif.Proof.Ring
import Verif.Proof.Sys.Task
import Verif.Proof.Sys.Windowed

/-! # Panics of the download task; storages in unrestricted histories -/

set_option linter.unusedSimpArgs false
set_option linter.unusedVariables false

namespace SD

variable {S : Storage}

/-! ### Storages that keep everything -/

/-- The representation invariant, in every history. -/
structure Keep (L : Lawful S true) (s : Sys S) : Prop where
  inv : ∃ W, L.Inv s.st W
  clean : CleanInv L s
  rem : s.rem = none
  ok : s.spc.fullOk

theorem keep_pc {c : Cfg} (hb : c.batchSize ≠ 0) {L : Lawful S true} {s s' : Sys S} {a : Act}
    {W : Finset Nat} (hi : L.Inv s.st W) (hr : s.rem = none) (hok : s.spc.fullOk) (ht : Tr c s a s') :
    s'.rem = none ∧ s'.spc.fullOk := by
  have hz : ∀ todo st', S.write s.st (batch c todo) = .ok (0, st') → todo = [] := by
    intro todo st' h
    have h1 := (L.write_full rfl hi h).1
    rw [← List.length_pos_iff] at h1
    simp only [batch, List.length_take] at h1
    cases todo with
    | nil => rfl
    | cons x t => simp at h1; omega
  have hn : ∀ n p, 0 < n → slice c.remote p n ≠ [] := by
    intro n p h1 h2
    have := congrArg List.length h2
    simp at this; omega
  cases ht
  case wWriteMore p l t bw k st' heq hwr hk =>
    refine ⟨hr, ?_⟩
    simp only [SrcPc.fullOk]
    intro h; omega
  case wWriteEnd p l t bw st' heq hwr =>
    refine ⟨hr, ?_⟩
    have h1 := hz t st' hwr
    simp only [SrcPc.fullOk, heq] at hok ⊢
    exact ⟨h1, fun h2 => hok h2 h1⟩
  all_goals grind [SrcPc.fullOk, roundPc, startPc]

theorem Keep.step {c : Cfg} (hb : c.batchSize ≠ 0) {L : Lawful S true} {s s' : Sys S} {a : Act}
    (h : Keep L s) (ht : Tr c s a s') : Keep L s' := by
  obtain ⟨⟨W, hi⟩, h2, h3, h4⟩ := h
  obtain ⟨h5, h6⟩ := keep_pc hb hi h3 h4 ht
  refine ⟨?_, ?_, h5, h6⟩
  · cases ha : a.isRdr
    · cases ht
      case pfWriteMore hw _ => exact ⟨_, (L.write_ok hi hw).2.1⟩
      case pfWriteEnd hw => exact ⟨_, (L.write_ok hi hw).2.1⟩
      case wWriteMore hw _ => exact ⟨_, (L.write_ok hi hw).2.1⟩
      case wWriteEnd hw => exact ⟨_, (L.write_ok hi hw).2.1⟩
      case seekOk hw => exact ⟨_, (L.wseek_ok hi (Or.inl rfl) hw).1⟩
      all_goals first
        | exact ⟨W, hi⟩
        | (simp [Act.isRdr] at ha; done)
    · exact ⟨W, (rdr_frame L ha ht hi h2).2.1⟩
  · cases ha : a.isRdr
    · exact h2.src (src_frame L ha ht hi (fun _ _ _ => Or.inl rfl))
    · exact (rdr_frame L ha ht hi h2).2.2

theorem Keep.reach {c : Cfg} (hb : c.batchSize ≠ 0) {P : Provider}
    (LP : LawfulProvider P true c.contentLength) {G : Sys P.S → Act → Prop} {s0 s : Sys P.S}
    (h0 : Starts P c s0) (h : Reach c G s0 s) : Keep LP.law s := by
  refine Reach.inv (P := Keep LP.law) h ?_ (fun _ _ _ h _ ht => h.step hb ht)
  obtain ⟨-, st, hc, rfl⟩ := h0
  exact ⟨⟨_, (LP.create_ok hc).1⟩, by simp [CleanInv, init, RdrPc.inRead], rfl, trivial⟩

/-! ### Windowed storages -/

theorem ring_step {b : Bool} {R : Ring S b} {c : Cfg} {s s' : Sys S} {a : Act}
    (h : R.Ok s.st) (ht : Tr c s a s') : R.Ok s'.st ∧ R.size s'.st = R.size s.st := by
  obtain ⟨t1, t2, t3, t4, t5⟩ := R.tell h
  cases ht
  case pfWriteMore hw _ => exact ⟨(R.write h hw).1, (R.write h hw).2.2.2.2⟩
  case pfWriteEnd hw => exact ⟨(R.write h hw).1, (R.write h hw).2.2.2.2⟩
  case wWriteMore hw _ => exact ⟨(R.write h hw).1, (R.write h hw).2.2.2.2⟩
  case wWriteEnd hw => exact ⟨(R.write h hw).1, (R.write h hw).2.2.2.2⟩
  case seekOk hw => exact ⟨(R.wseek h hw).1, (R.wseek h hw).2.2.2⟩
  case rRead hw => exact ⟨(R.read h hw).1, (R.read h hw).2.2.2⟩
  case sSeek hw => exact ⟨(R.rseek h hw).1, (R.rseek h hw).2.2.2⟩
  all_goals first
    | exact ⟨h, rfl⟩
    | exact ⟨t2, t5⟩

theorem ring_reach {b : Bool} {c : Cfg} {P : Provider} (RP : RingProvider P c.contentLength b)
    {G : Sys P.S → Act → Prop} {s0 s : Sys P.S} (h0 : Starts P c s0) (h : Reach c G s0 s) :
    RP.ring.Ok s.st ∧ RP.ring.size s.st = Bnd.sizeFor RP.bufferSize c.contentLength := by
  refine Reach.inv (P := fun s => RP.ring.Ok s.st ∧
    RP.ring.size s.st = Bnd.sizeFor RP.bufferSize c.contentLength) h ?_ ?_
  · obtain ⟨-, st, hc, rfl⟩ := h0
    exact ⟨(RP.create hc).1, (RP.create hc).2.2.2⟩
  · rintro s s' a ⟨h1, h2⟩ - ht
    obtain ⟨h3, h4⟩ := ring_step h1 ht
    exact ⟨h3, h4.trans h2⟩

/-! ### The progress report finds its range -/

structure RepOk (s : Sys S) : Prop where
  rem : ∀ r, s.rem = some r → r ≠ []
  req : ∀ p l t, s.spc = .wReq p l t ∨ s.spc = .wWait p l t → t ≠ [] ∧ p ≤ S.wtell s.st
  wr : ∀ p l t bw, s.spc = .wWrite p l t bw ∨ s.spc = .wAdd p l t bw →
    (bw = 0 → t ≠ []) ∧ p + bw ≤ S.wtell s.st
  later : ∀ p l t bw, s.spc = .wChk p l t bw ∨ s.spc = .wClr p l t bw ∨ s.spc = .wNtf p l t bw →
    (bw = 0 → t ≠ []) ∧ p ≤ S.wtell s.st ∧
    (bw ≠ 0 → S.wtell s.st ≠ 0 ∧ RSet.Mem s.dl (S.wtell s.st - 1))
  rep : ∀ l, s.spc = .wRep l → S.wtell s.st ≠ 0 ∧ RSet.Mem s.dl (S.wtell s.st - 1)

set_option maxHeartbeats 4000000 in
theorem RepOk.step {Q : Positional S} {c : Cfg} {s s' : Sys S} {a : Act} (hok : Q.Ok s.st)
    (hwf : RSet.WF s.dl) (hne : NonEmpty s a) (h : RepOk s) (ht : Tr c s a s') : RepOk s' := by
  obtain ⟨h1, h2, h3, h4, h5⟩ := h
  obtain ⟨-, -, -, t4⟩ := Q.tell hok
  have hw : ∀ bs k st', S.write s.st bs = .ok (k, st') → S.wtell st' = S.wtell s.st + k :=
    fun bs k st' h => (Q.write hok h).2.2.2
  have hr : ∀ n bs st', S.read s.st n = .ok (bs, st') → S.wtell st' = S.wtell s.st :=
    fun n bs st' h => (Q.read hok h).2.2
  have hs : ∀ p st', S.rseek s.st p = .ok st' → S.wtell st' = S.wtell s.st :=
    fun p st' h => (Q.rseek hok h).2.2
  have hm : ∀ lo hi p, RSet.Mem (RSet.add s.dl lo hi) p ↔ RSet.Mem s.dl p ∨ (lo ≤ p ∧ p < hi) :=
    fun lo hi p => RSet.mem_add hwf lo hi p
  have hn : ∀ n p, n ≠ 0 → slice c.remote p n ≠ [] := by
    intro n p h1 h2
    have := congrArg List.length h2
    simp at this; omega
  unfold NonEmpty at hne
  cases ht
  all_goals constructor
  all_goals grind [roundPc, startPc, List.append_eq_nil_iff]

theorem RepOk.reach {c : Cfg} {P : Provider} (PP : PositionalProvider P c.contentLength)
    {G : Sys P.S → Act → Prop} (hG : ∀ s a, G s a → NonEmpty s a) {s0 s : Sys P.S}
    (h0 : Starts P c s0) (h : Reach c G s0 s) : RepOk s := by
  have : PosInv PP.pos s ∧ RSet.WF s.dl ∧ RepOk s := by
    refine Reach.inv (P := fun s => PosInv PP.pos s ∧ RSet.WF s.dl ∧ RepOk s) h ?_ ?_
    · refine ⟨PosInv.reach PP h0 (G := G) .refl, ?_⟩
      obtain ⟨-, st, hc, rfl⟩ := h0
      refine ⟨trivial, ?_⟩
      constructor <;> simp [init]
    · rintro s s' a ⟨h1, h2, h3⟩ hg ht
      exact ⟨h1.step ht, wf_step h2 ht, h3.step h1.ok h2 (hG _ _ hg) ht⟩
  exact this.2.2

/-- The ways in which the task can panic. -/
theorem tr_panic {c : Cfg} {s s' : Sys S} {a : Act} (ht : Tr c s a s') (h : s.spc ≠ .panicked)
    (h' : s'.spc = .panicked) :
    (∃ bs, S.write s.st bs = .panic) ∨
    (∃ start stop, s.spc = .seeking start stop ∧ S.wseek s.st start = .panic) ∨
    (∃ l, s.spc = .wRep l ∧ (S.wtell s.st = 0 ∨ RSet.get s.dl (S.wtell s.st - 1) = none)) := by
  cases ht
  all_goals first
    | (exfalso; grind [roundPc, startPc])
    | grind

end SD
