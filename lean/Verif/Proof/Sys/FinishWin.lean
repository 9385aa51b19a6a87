import Verif.Proof.Sys.Finish
import Verif.Proof.Sys.WinReads

/-!
# The download ends: storages that keep a window

The download is contiguous (`Seq`): every chunk brings the transport closer to the end.
-/

set_option linter.unusedSimpArgs false
set_option linter.unusedVariables false

namespace SD

variable {S : Storage}

/-- Where a contiguous download of `m` bytes stands. -/
structure Straight (m : Nat) (s : Sys S) : Prop where
  lim : ∀ b, s.tlim = some b → b = m
  seekLim : ∀ a b, s.spc = .seeking a (some b) → b = m
  seekAt : ∀ a b, s.spc = .seeking a b → a = s.tpos
  tm : s.tpos ≤ m

set_option maxHeartbeats 4000000 in
theorem Straight.step {c : Cfg} {L : Lawful S false} {W : Finset Nat} {m : Nat} (hfin : c.Finite m)
    {s s' : Sys S} {a : Act} (hg : SeqG c s a) (hw : Win c L W s)
    (h : Straight m s) (ht : Tr c s a s') : Straight m s' := by
  obtain ⟨hm, hcl⟩ := hfin
  cases ha : a.isRdr
  case true =>
    obtain ⟨f, -, -⟩ := rdr_frame L ha ht hw.inv hw.clean
    obtain ⟨h1, h2, h3, h5⟩ := h
    constructor
    · rw [f.tlim]; exact h1
    · rw [f.spc]; exact h2
    · rw [f.spc, f.tpos]; exact h3
    · rw [f.tpos]; exact h5
  have hseek : ∀ p, ¬ (s.spc = .seekMsg p ∧ shouldSeek c s p) :=
    fun p hp => (hw.seq.noSeek hp.2.1).2.1 p hp.1
  obtain ⟨h1, h2, h3, h5⟩ := h
  have hflow := hw.flow
  cases ht
  case finGap n a b heq hsk hcn hg' =>
    have e := hw.seq.gap heq hg'
    obtain ⟨g1, g2, g3, g4, g5, g6⟩ := RSet.nextGap_some hw.seq.wf hg'
    have e4 := (hflow (by simp [heq, SrcPc.live])).2
    simp only [inFlight, heq, SrcPc.pend, (hw.seq.fin heq).2, Option.getD_none, List.append_nil, List.length_nil] at e4
    have e5 := hcl n hcn
    have e6 : b = m := by
      rcases g6 with h | h
      · omega
      · have := hw.seq.dlub b h
        omega
    refine ⟨h1, ?_, ?_, h5⟩
    · rintro a' b' h
      simp only [SrcPc.seeking.injEq, Option.some.injEq] at h
      omega
    · rintro a' b' h
      simp only [SrcPc.seeking.injEq] at h
      show a' = s.tpos
      omega
  case seekOk start stop pos st' heq hx =>
    have e1 := hg.1.1 start stop pos heq rfl
    have e2 := h3 start stop heq
    refine ⟨?_, by simp, by simp, by simp only; omega⟩
    intro b hb
    simp only [if_pos e1] at hb
    exact h2 start b (by rw [heq, hb])
  case reconnOk p pos heq =>
    have e1 := hg.1.2 p pos heq rfl
    have e2 := hw.seq.recon p heq
    have e3 := hg.2.1 pos rfl
    have e4 := (hflow (by simp [heq, SrcPc.live])).2
    simp only [inFlight, heq, SrcPc.pend, e3, Option.getD_none, List.append_nil, List.length_nil] at e4
    exact ⟨by simp, by simp, by simp, by simp only; omega⟩
  case chunkPf n heq k1 k2 k3 hpf =>
    have h6 : s.tpos + n ≤ m := by rw [hm] at k3; simpa [leOpt] using k3
    exact ⟨h1, by simp, by simp, h6⟩
  case chunk n heq k1 k2 k3 hpf hr =>
    have h6 : s.tpos + n ≤ m := by rw [hm] at k3; simpa [leOpt] using k3
    refine ⟨h1, ?_, ?_, h6⟩ <;> simp only [startPc] <;> split <;> simp
  case chunkRem n r heq k1 k2 k3 hpf hr =>
    have h6 : s.tpos + n ≤ m := by rw [hm] at k3; simpa [leOpt] using k3
    refine ⟨h1, ?_, ?_, h6⟩ <;> simp only [startPc] <;> split <;> simp
  case eofRem r heq hpf hr =>
    refine ⟨h1, ?_, ?_, h5⟩ <;> simp only [startPc] <;> split <;> simp
  case wChkMiss pos0 len todo bw heq hq =>
    refine ⟨h1, ?_, ?_, h5⟩ <;> simp only [roundPc] <;> split <;> (try split) <;> simp
  case wNtf pos0 len todo bw heq =>
    refine ⟨h1, ?_, ?_, h5⟩ <;> simp only [roundPc] <;> split <;> (try split) <;> simp
  all_goals first
    | (simp [Act.isRdr] at ha; done)
    | (exact absurd ⟨‹_›, ‹_›⟩ (hseek _))
    | (refine ⟨h1, ?_, ?_, h5⟩ <;> simp [*]; done)
    | exact ⟨h1, h2, h3, h5⟩

theorem Straight.init {c : Cfg} {st : S.σ} {m : Nat} : Straight m (SD.init c st) := by
  constructor <;> simp [SD.init]

/-- What is to come, for a contiguous download. -/
def remaining (m : Nat) (s : Sys S) : Nat :=
  (if s.pfDone then 0 else 2) + (if s.rem = none then 0 else 1) + 2 * (m - s.tpos) +
    if s.spc = .fin ∨ s.tpos < m then 0 else 1

theorem remaining_rdr {c : Cfg} {full : Bool} {L : Lawful S full} {W : Finset Nat} {m : Nat} {s s' : Sys S}
    {a : Act} (hi : L.Inv s.st W) (hc : CleanInv L s) (ha : a.isRdr = true) (ht : Tr c s a s') :
    remaining m s' = remaining m s := by
  obtain ⟨f, -, -⟩ := rdr_frame L ha ht hi hc
  unfold remaining
  rw [f.pfDone, f.rem, f.tpos, f.spc]

set_option maxHeartbeats 4000000 in
theorem remaining_step {c : Cfg} {L : Lawful S false} {W : Finset Nat} {m : Nat} (hfin : c.Finite m)
    {s s' : Sys S} {a : Act} (hg : SeqG c s a) (hw : Win c L W s) (h : Straight m s)
    (hng : s'.spc.gone ≠ true) (ht : Tr c s a s') :
    remaining m s' ≤ remaining m s ∧ ((∃ n, 0 < n ∧ a = .chunk n) ∨ (a = .eof ∧ EndsWhereAsked c s .eof) → remaining m s' < remaining m s) := by
  obtain ⟨hm, hcl⟩ := hfin
  have quiet : ∀ {s' : Sys S}, (a ≠ .eof) → (∀ n, a ≠ .chunk n) → remaining m s' ≤ remaining m s →
      remaining m s' ≤ remaining m s ∧
        ((∃ n, 0 < n ∧ a = .chunk n) ∨ (a = .eof ∧ EndsWhereAsked c s .eof) → remaining m s' < remaining m s) := by
    intro s' h1 h2 h3
    refine ⟨h3, ?_⟩
    rintro (⟨n, -, e⟩ | ⟨e, -⟩)
    · exact absurd e (h2 n)
    · exact absurd e h1
  have less : ∀ {s' : Sys S}, remaining m s' < remaining m s →
      remaining m s' ≤ remaining m s ∧
        ((∃ n, 0 < n ∧ a = .chunk n) ∨ (a = .eof ∧ EndsWhereAsked c s .eof) → remaining m s' < remaining m s) :=
    fun h => ⟨Nat.le_of_lt h, fun _ => h⟩
  cases ha : a.isRdr
  case true =>
    refine quiet ?_ ?_ (Nat.le_of_eq (remaining_rdr hw.inv hw.clean ha ht))
    · rintro rfl; simp [Act.isRdr] at ha
    · rintro n rfl; simp [Act.isRdr] at ha
  have hseek : ∀ p, ¬ (s.spc = .seekMsg p ∧ shouldSeek c s p) :=
    fun p hp => (hw.seq.noSeek hp.2.1).2.1 p hp.1
  obtain ⟨h1, h2, h3, h5⟩ := h
  have hflow := hw.flow
  have some : ∀ n : Nat, (∃ k, 0 < k ∧ Act.chunk n = .chunk k) ∨ (Act.chunk n = .eof ∧ EndsWhereAsked c s .eof) → 0 < n := by
    rintro n (⟨k, hk, e⟩ | ⟨e, -⟩)
    · cases e; exact hk
    · cases e
  cases ht
  case finGap n a b heq hsk hcn hg' =>
    have e := hw.seq.gap heq hg'
    obtain ⟨g1, g2, g3, -⟩ := RSet.nextGap_some hw.seq.wf hg'
    have e4 := (hflow (by simp [heq, SrcPc.live])).2
    simp only [inFlight, heq, SrcPc.pend, (hw.seq.fin heq).2, Option.getD_none, List.append_nil, List.length_nil] at e4
    have e5 := hcl n hcn
    have e6 : s.tpos < m := by omega
    exact quiet (by simp) (by simp) (by simp [remaining, heq, e6])
  case chunkPf n heq k1 k2 k3 hpf =>
    have h6 : s.tpos + n ≤ m := by rw [hm] at k3; simpa [leOpt] using k3
    refine ⟨?_, fun e => ?_⟩
    · simp [remaining, heq]; (repeat' split) <;> omega
    · have := some n e
      simp [remaining, heq]; (repeat' split) <;> omega
  case chunk n heq k1 k2 k3 hpf hr =>
    have h6 : s.tpos + n ≤ m := by rw [hm] at k3; simpa [leOpt] using k3
    have hs : startPc (S.wtell s.st) (slice c.remote s.tpos n) ≠ .fin := by unfold startPc; split <;> simp
    refine ⟨?_, fun e => ?_⟩
    · simp [remaining, heq, hs]; (repeat' split) <;> omega
    · have := some n e
      simp [remaining, heq, hs]; (repeat' split) <;> omega
  case chunkRem n r heq k1 k2 k3 hpf hr =>
    have h6 : s.tpos + n ≤ m := by rw [hm] at k3; simpa [leOpt] using k3
    have hs : ∀ bs, startPc (S.wtell s.st) bs ≠ .fin := by intro bs; unfold startPc; split <;> simp
    exact less (by simp [remaining, heq, hs, hr]; (repeat' split) <;> omega)
  case eofRem r heq hpf hr =>
    have hs : ∀ bs, startPc (S.wtell s.st) bs ≠ .fin := by intro bs; unfold startPc; split <;> simp
    exact less (by simp [remaining, heq, hs, hr])
  case eofPf heq hpf => exact less (by simp [remaining, heq, hpf]; omega)
  case eof heq hpf hr =>
    refine ⟨by simp [remaining, heq, hpf], ?_⟩
    rintro (⟨n, -, e⟩ | ⟨-, hend⟩)
    · cases e
    have h6 : m ≤ s.tpos := by
      rcases hend rfl with ⟨m', e1, e2⟩ | ⟨b, e1, e2⟩
      · rw [hm] at e1; cases e1; exact e2
      · rw [← h1 b e1]; exact e2
    have h7 : ¬ s.tpos < m := by omega
    simp [remaining, heq, hpf, h7]
  case seekOk start stop pos st' heq hx =>
    have e1 := hg.1.1 start stop pos heq rfl
    have e2 := h3 start stop heq
    have e3 := (hw.seq.seekAt start stop heq).2
    exact quiet (by simp) (by simp) (by simp [remaining, heq, e3.1, e3.2]; (repeat' split) <;> omega)
  case reconnOk p pos heq =>
    have e1 := hg.1.2 p pos heq rfl
    have e2 := hw.seq.recon p heq
    have e3 := hg.2.1 pos rfl
    have e4 := (hflow (by simp [heq, SrcPc.live])).2
    simp only [inFlight, heq, SrcPc.pend, e3, Option.getD_none, List.append_nil, List.length_nil] at e4
    exact quiet (by simp) (by simp) (by simp [remaining, heq]; (repeat' split) <;> omega)
  case pfPostDone len heq _ =>
    have := hw.seq.inPf (by simp [heq, SrcPc.inPf])
    exact quiet (by simp) (by simp) (by simp [remaining, heq, this])
  case pfPostPart len todo heq _ =>
    have e1 := hw.seq.inPf (by simp [heq, SrcPc.inPf])
    have e2 := hw.seq.remPf e1
    exact quiet (by simp) (by simp) (by simp [remaining, heq, e1, e2])
  case wChkMiss pos0 len todo bw heq hq =>
    have hs : roundPc pos0 len todo bw ≠ .fin := by unfold roundPc; split <;> (try split) <;> simp
    exact quiet (by simp) (by simp) (by simp [remaining, heq, hs])
  case wNtf pos0 len todo bw heq =>
    have hs : roundPc pos0 len todo bw ≠ .fin := by unfold roundPc; split <;> (try split) <;> simp
    exact quiet (by simp) (by simp) (by simp [remaining, heq, hs])
  all_goals try (simp [Act.isRdr] at ha; done)
  all_goals try (exact absurd ⟨‹_›, ‹_›⟩ (hseek _))
  all_goals first
    | (exfalso; simp [SrcPc.gone] at hng; done)
    | (clear hcl hg hw hflow
       refine quiet (by simp) (by simp) ?_
       simp [remaining, *]; done)
    | (clear hcl hg hw hflow
       refine quiet (by simp) (by simp) ?_
       simp only [remaining, *]; split <;> omega)

/-! ### Infinite histories -/

theorem straight_reach {P : Provider} {c : Cfg} {m : Nat} (hfin : c.Finite m)
    (LP : LawfulProvider P false c.contentLength) {G : Sys P.S → Act → Prop}
    (hG : ∀ s a, G s a → SeqG c s a) {s0 s : Sys P.S} (h0 : Starts P c s0)
    (h : Reach c G s0 s) : ∃ W, Win c LP.law W s ∧ Straight m s := by
  refine Reach.inv (P := fun s => ∃ W, Win c LP.law W s ∧ Straight m s) h ⟨∅, Win.init LP h0, ?_⟩ ?_
  · obtain ⟨-, st, hc, rfl⟩ := h0; exact Straight.init
  · rintro s s' a ⟨W, hW, hS⟩ hg ht
    have hS' := hS.step hfin (hG _ _ hg) hW ht
    cases ha : a.isRdr
    · obtain ⟨W', hW'⟩ := hW.src (hG _ _ hg) ha ht
      exact ⟨W', hW', hS'⟩
    · exact ⟨W, hW.rdr (hG _ _ hg) ha ht, hS'⟩

/-- The task waits for the source only finitely often. -/
theorem awaits_finally_win {P : Provider} {c : Cfg} {m : Nat} (hfin : c.Finite m)
    (LP : LawfulProvider P false c.contentLength) {s0 : Sys P.S} (h0 : Starts P c s0) {r : Nat → Sys P.S}
    {act : Nat → Option Act} (he : Exec c s0 r act) (hp : Advancing c r act)
    (hG : ∀ i a, act i = some a → SeqG c (r i) a) :
    ∃ i, ∀ j, i ≤ j → (r j).spc.awaits = false := by
  refine awaits_stops (i0 := 0) (D := fun s s' => remaining m s < remaining m s')
    (DE := fun s s' => remaining m s ≤ remaining m s') he hp (fun _ => Nat.le_refl _) Nat.le_trans
    Nat.lt_of_lt_of_le ?_ fun j a hj ha hng => ?_
  · intro h
    have key : ∀ n j, remaining m (r j) = n → False := by
      intro n
      induction n using Nat.strongRecOn with
      | _ n ih =>
        intro j hj
        obtain ⟨k, -, hk⟩ := h j (Nat.zero_le _)
        exact ih _ (by omega) k rfl
    exact key _ 0 rfl
  · obtain ⟨W, hW, hS⟩ := straight_reach hfin LP (fun _ _ h => h) h0 (he.reachG hG j)
    exact remaining_step hfin (hG j a ha) hW hS hng (tr_of_step (he.next j a ha))

end SD
