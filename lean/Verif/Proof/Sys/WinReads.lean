import Verif.Proof.Sys.Windowed

/-! # Short reads from a windowed storage -/

set_option linter.unusedSimpArgs false
set_option linter.unusedVariables false

namespace SD

variable {S : Storage}

/-- What the consumer knows about the writer's position. -/
structure WinRdr (c : Cfg) {full : Bool} (L : Lawful S full) (s : Sys S) : Prop where
  exact : L.Exact s.st
  tgt : ∀ p, s.rpc.target = some p → L.rpos s.st ≤ p
  norm : ∀ n r, s.rpc.readReq = some (n, r) → r = c.normalize (L.rpos s.st + n)
  told : s.reached = true → s.done = false → ∀ n r, s.rpc.readWait = some (n, r) → r ≤ S.wtell s.st
  ready : ∀ n r, s.rpc = .rCheck n r → s.done = true ∨ r ≤ S.wtell s.st
  len : ∀ n b, s.rpc = .rRead n b →
    (b = false ∧ Ev.eof ∈ s.log) ∨ c.normalize (L.rpos s.st + n) ≤ S.wtell s.st

/-- A download that is contiguous from 0: what the rest of this file needs of `Win` and of `Line`. -/
structure Contig (c : Cfg) {full : Bool} (L : Lawful S full) (W : Finset Nat) (s : Sys S) : Prop where
  seq : Seq c s
  inv : L.Inv s.st W
  clean : CleanInv L s
  wW : ∀ q, q < S.wtell s.st → q ∈ W

theorem Win.contig {c : Cfg} {L : Lawful S false} {W : Finset Nat} {s : Sys S} (h : Win c L W s) : Contig c L W s :=
  ⟨h.seq, h.inv, h.clean, h.wW⟩

theorem wtell_mono {c : Cfg} {full : Bool} {L : Lawful S full} {W : Finset Nat} {s s' : Sys S} {a : Act}
    (h : Contig c L W s) (ht : Tr c s a s') : S.wtell s.st ≤ S.wtell s'.st := by
  obtain ⟨t1, t2, t3, t4, t5, t6⟩ := L.tell_ok h.inv
  cases ht
  case pfWriteMore len todo k st' heq hw hk =>
    have := (L.write_ok h.inv hw).2.2.2.2.1; simp only; omega
  case pfWriteEnd len todo st' heq hw =>
    have := (L.write_ok h.inv hw).2.2.2.2.1; simp only; omega
  case wWriteMore pos0 len todo bw k st' heq hw hk =>
    have := (L.write_ok h.inv hw).2.2.2.2.1; simp only; omega
  case wWriteEnd pos0 len todo bw st' heq hw =>
    have := (L.write_ok h.inv hw).2.2.2.2.1; simp only; omega
  case seekOk start stp pos st' heq hw =>
    obtain ⟨e1, e2, -⟩ := h.seq.seekAt start stp heq
    subst e1
    obtain ⟨k1, k2, k3, k4, k5⟩ := L.wseek_ok h.inv (Or.inr rfl) hw
    simp only [k4]; exact Nat.le_refl _
  case rRead n fast bs st' heq hr =>
    have := (L.read_ok h.inv (L.clean_fresh h.inv (h.clean (by simp [heq, RdrPc.inRead]))) hr).2.2.2.2.2.1
    simp only [this]; exact Nat.le_refl _
  case sSeek p st' heq hr =>
    simp only [(L.rseek_ok h.inv hr).2.2.2.1]; exact Nat.le_refl _
  all_goals first
    | exact Nat.le_refl _
    | (simp only [t5]; exact Nat.le_refl _)

theorem exact_step {c : Cfg} {full : Bool} {L : Lawful S full} {W : Finset Nat} {s s' : Sys S} {a : Act}
    (h : Contig c L W s) (ht : Tr c s a s') (he : L.Exact s.st)
    (htg : ∀ p, s.rpc.target = some p → L.rpos s.st ≤ p) : L.Exact s'.st := by
  cases ht
  case pfWriteMore len todo k st' heq hw hk => exact L.exact_write h.inv he hw
  case pfWriteEnd len todo st' heq hw => exact L.exact_write h.inv he hw
  case wWriteMore pos0 len todo bw k st' heq hw hk => exact L.exact_write h.inv he hw
  case wWriteEnd pos0 len todo bw st' heq hw => exact L.exact_write h.inv he hw
  case seekOk start stp pos st' heq hw =>
    obtain ⟨e1, e2, -⟩ := h.seq.seekAt start stp heq
    subst e1
    exact L.exact_wseek h.inv he hw
  case rRead n fast bs st' heq hr => exact L.exact_read h.inv he hr
  case sSeek p st' heq hr => exact L.exact_rseek h.inv he (htg p (by simp [heq, RdrPc.target])) hr
  all_goals first
    | exact he
    | exact L.exact_tell h.inv he

theorem readReq_target {p : RdrPc} {x : Nat × Nat} (h : p.readReq = some x) : p.target = none := by
  revert h; cases p <;> simp [RdrPc.readReq, RdrPc.target]

theorem readWait_readReq {p : RdrPc} {x : Nat × Nat} (h : p.readWait = some x) : p.readReq = some x := by
  revert h; cases p <;> simp [RdrPc.readReq, RdrPc.readWait]

set_option maxHeartbeats 2000000 in
theorem WinRdr.step {c : Cfg} {full : Bool} {L : Lawful S full} {W : Finset Nat} {s s' : Sys S} {a : Act}
    (hw : Contig c L W s) (hT : Tok s) (he : EndInv s) (hfw : Forward c s a)
    (h : WinRdr c L s) (ht : Tr c s a s') : WinRdr c L s' := by
  have hex := exact_step hw ht h.exact h.tgt
  have hmono := wtell_mono hw ht
  have heof := he.eof
  have hreq := hT.wait
  have hfree := hT.free
  obtain ⟨t1, t2, t3, t4, t5, t6⟩ := L.tell_ok hw.inv
  obtain ⟨h1, h2, h3, h4, h5, h6⟩ := h
  refine ⟨hex, ?_, ?_, ?_, ?_, ?_⟩
  all_goals cases ha : a.isRdr
  · have f := src_frame L ha ht hw.inv (fun a b hs => Or.inr (hw.seq.seekAt a b hs).1)
    rw [f.rpc, f.rpos]; exact h2
  · cases ht
    all_goals first
      | (simp [Act.isRdr] at ha; done)
      | exact h2
      | grind [RdrPc.target, Forward]
  · have f := src_frame L ha ht hw.inv (fun a b hs => Or.inr (hw.seq.seekAt a b hs).1)
    rw [f.rpc, f.rpos]; exact h3
  · cases ht
    all_goals first
      | (simp [Act.isRdr] at ha; done)
      | exact h3
      | grind [RdrPc.readReq]
  · have f := src_frame L ha ht hw.inv (fun a b hs => Or.inr (hw.seq.seekAt a b hs).1)
    intro hre hd n r hr
    rw [f.rpc] at hr
    have hd' : s.done = false := by
      revert hd; cases ht <;> simp
    by_cases hre' : s.reached = true
    · have := h4 hre' hd' n r hr; omega
    · cases ht
      case wNtf pos0 len todo bw heq =>
        rcases hreq r (readWait_waiting hr) with ⟨_, hw⟩ | ⟨_, hw⟩
        · exact (hw hd').2.2.1 (by simp [heq, SrcPc.answering])
        · exact absurd (hw hd').1 hre'
      all_goals first
        | (simp [Act.isRdr] at ha; done)
        | exact absurd hre hre'
  · cases ht
    all_goals first
      | (simp [Act.isRdr] at ha; done)
      | exact h4
      | grind [RdrPc.readWait, RdrPc.waiting]
  · have f := src_frame L ha ht hw.inv (fun a b hs => Or.inr (hw.seq.seekAt a b hs).1)
    intro n r hr
    rw [f.rpc] at hr
    rcases h5 n r hr with hd | hle
    · left; revert hd; cases ht <;> simp
    · right; omega
  · cases ht
    case rWaitDone n r heq hd => exact fun _ _ _ => Or.inl hd
    case rWaitReached n r heq hd hr =>
      intro n' r' hr'
      simp only [RdrPc.rCheck.injEq] at hr'
      obtain ⟨rfl, rfl⟩ := hr'
      exact Or.inr (h4 hr hd n r (by simp [heq, RdrPc.readWait]))
    all_goals first
      | (simp [Act.isRdr] at ha; done)
      | exact h5
      | (simp; done)
      | grind
  · have f := src_frame L ha ht hw.inv (fun a b hs => Or.inr (hw.seq.seekAt a b hs).1)
    intro n b hr
    rw [f.rpc] at hr
    rw [f.rpos]
    rcases h6 n b hr with ⟨hb, hd⟩ | hle
    · left
      obtain ⟨es, e1, -⟩ := f.log
      exact ⟨hb, by rw [e1]; exact List.mem_append_right _ hd⟩
    · right; omega
  · cases ht
    case rDecideFast n a b heq _ hg hle =>
      intro n' b' hr
      simp only [RdrPc.rRead.injEq] at hr
      obtain ⟨rfl, rfl⟩ := hr
      right
      have hc := RSet.get_some_covers hg
      have hm := RSet.get_some_mem hg
      simp only [t4, t5]
      rw [t1] at hle
      have := hw.seq.dlub (b - 1) (hc (b - 1) (by have := hm.2; simp only at this; omega)
        (by have := hm.2; simp only at this; omega))
      omega
    case rCheckOk n r heq hnf =>
      intro n' b' hr
      simp only [RdrPc.rRead.injEq] at hr
      obtain ⟨rfl, rfl⟩ := hr
      have hr := h3 n r (by simp [heq, RdrPc.readReq])
      rcases h5 n r heq with hd | hle
      · exact Or.inl ⟨rfl, heof (Or.inr ⟨hnf, Or.inr hd⟩)⟩
      · right; simp only; omega
    all_goals first
      | (simp [Act.isRdr] at ha; done)
      | exact h6
      | (simp; done)
      | grind

/-- A read is short only at the end. -/
theorem WinRdr.short {c : Cfg} {full : Bool} {L : Lawful S full} {W : Finset Nat} {s s' : Sys S} {a : Act}
    {pos len : Nat} {fast : Bool} {bs : List Byte} (hw : Contig c L W s) (h : WinRdr c L s)
    (ht : Tr c s a s') (hl : s'.log = .readRet pos len fast (.ok bs) :: s.log)
    (hlt : bs.length < len) :
    (∃ N, c.contentLength = some N ∧ N ≤ pos + bs.length) ∨ Ev.eof ∈ s.log ∨ L.Cut len bs.length := by
  obtain ⟨-, h2, h3, h4, -⟩ := tr_readRet ht hl
  obtain ⟨t1, -⟩ := L.tell_ok hw.inv
  rw [t1] at h3; subst h3
  have hcl := hw.clean (by simp [h2, RdrPc.inRead])
  rcases h.len len fast h2 with ⟨-, he⟩ | hle
  · exact Or.inr (Or.inl he)
  · have hle2 := normalize_le_self c (L.rpos s.st + len)
    rcases L.read_len (m := c.normalize (L.rpos s.st + len) - L.rpos s.st) hw.inv h.exact hcl h4
      (by omega) (fun i hi => hw.wW _ (by omega)) with this | hc
    · left
      unfold Cfg.normalize at this
      split at this
      · next N hN => exact ⟨N, hN, by omega⟩
      · omega
    · exact Or.inr (Or.inr hc)

theorem WinRdr.init {c : Cfg} {P : Provider} {full : Bool} (LP : LawfulProvider P full c.contentLength)
    {s0 : Sys P.S} (h : Starts P c s0) : WinRdr c LP.law s0 := by
  obtain ⟨-, st, hc, rfl⟩ := h
  obtain ⟨h1, h2, h3, h4, h5, h6⟩ := LP.create_ok hc
  constructor <;> simp [SD.init, RdrPc.target, RdrPc.readReq, RdrPc.readWait, h2]

end SD
