import Verif.Spec.Log
import Verif.Proof.Sys.Panic
import Verif.Proof.Sys.Ending

/-! # What happens to the bytes of a chunk; the prefetch phase -/

set_option linter.unusedSimpArgs false
set_option linter.unusedVariables false

namespace SD

variable {S : Storage}

/-- Chunks are being processed, or were completely. -/
def SrcPc.going : SrcPc → Bool
  | .onFin (some _) _ | .setFail | .sigDone | .tokCancel | .ended | .panicked => false
  | _ => true

/-- The transport has ended for now, or the task waits for it to restart. -/
def SrcPc.drained : SrcPc → Bool
  | .fin | .finSig | .report | .onFin none _ => true
  | _ => false

theorem refused_cons {e : Ev} {l : List Ev} (h : refused l) : refused (e :: l) := by
  obtain ⟨p, bs, h1, h2⟩ := h
  exact ⟨p, bs, h1, List.mem_cons_of_mem _ h2⟩

structure Chunks (s : Sys S) : Prop where
  ord : s.spc.going = true → received s.log = accepted s.log ++ s.spc.pend ++ s.rem.getD []
  pre : accepted s.log <+: received s.log
  rem : s.rem ≠ none → s.pfDone = true ∧ s.spc.inPf = false ∧ s.spc.wpos = none ∧
    s.spc.drained = false ∧ refused s.log
  post : ∀ n t, s.spc = .pfPost n t → t ≠ [] → refused s.log
  comp : completes s.log ≠ 0 → received s.log = accepted s.log ∧
    (s.spc.going = true → s.rem = none ∧ s.spc.pend = []) ∧ s.spc.ending = true

set_option maxHeartbeats 4000000 in
theorem Chunks.step {c : Cfg} (hb : c.batchSize ≠ 0) {s s' : Sys S} {a : Act}
    (hk : ∀ bs k st', S.write s.st bs = .ok (k, st') → k ≤ bs.length)
    (hr : ∀ p, s.spc = .seekMsg p → shouldSeek c s p → s.rem = none) (he : EndLog c s)
    (h : Chunks s) (ht : Tr c s a s') : Chunks s' := by
  have hbf := he.before
  have hrp := he.report
  obtain ⟨h1, h2, h3, h4, h5⟩ := h
  have hd : ∀ (t : List Byte) k, k ≤ (batch c t).length → (batch c t).take k ++ t.drop k = t := by
    intro t k hk
    simp only [batch, List.length_take] at hk
    simp only [batch, List.take_take]
    rw [show min k (min c.batchSize t.length) = k by omega, List.take_append_drop]
  have hbe : ∀ t : List Byte, t ≠ [] → batch c t ≠ [] := by
    intro t h h2
    simp only [batch, List.take_eq_nil_iff] at h2
    rcases h2 with h2 | h2
    · have := List.length_pos_iff.mpr h; omega
    · exact h h2
  have hrc := @refused_cons
  have hrf : ∀ p bs l, bs ≠ [] → refused (.write p bs 0 :: l) :=
    fun p bs l h => ⟨p, bs, h, List.mem_cons_self⟩
  clear he
  cases ht
  all_goals constructor
  all_goals grind (splits := 14) [SrcPc.pend, SrcPc.going, SrcPc.drained, SrcPc.inPf, SrcPc.wpos, received, accepted,
    completes, SrcPc.ending, roundPc, startPc, List.append_assoc, List.prefix_append]

theorem Chunks.init (c : Cfg) (st : S.σ) : Chunks (SD.init c st) := by
  constructor <;> simp [SD.init, received, accepted, completes, SrcPc.pend]

set_option maxHeartbeats 4000000 in
theorem chunk_rules {c : Cfg} {s s' : Sys S} {a : Act}
    (hk : ∀ bs k st', S.write s.st bs = .ok (k, st') → k ≤ bs.length)
    (h : Chunks s) (h1 : Always (batchRule c) s.log) (h2 : Always storedRule s.log)
    (ht : Tr c s a s') : Always (batchRule c) s'.log ∧ Always storedRule s'.log := by
  have ho := h.ord
  have hr := h.rem
  have hb : ∀ t : List Byte, (batch c t).length ≤ c.batchSize := by
    intro t; simp only [batch, List.length_take]; omega
  clear h
  cases ht
  all_goals constructor
  all_goals grind [Always, batchRule, storedRule, SrcPc.pend, SrcPc.going]

theorem Chunks.reach {c : Cfg} (hb : c.batchSize ≠ 0) {P : Provider}
    (PP : PositionalProvider P c.contentLength) {G : Sys P.S → Act → Prop} {s0 s : Sys P.S}
    (h0 : Starts P c s0)
    (hr : ∀ s p, Reach c G s0 s → s.spc = .seekMsg p → shouldSeek c s p → s.rem = none)
    (h : Reach c G s0 s) : Chunks s ∧ Always (batchRule c) s.log ∧ Always storedRule s.log := by
  have : EndLog c s ∧ Chunks s ∧ Always (batchRule c) s.log ∧ Always storedRule s.log := by
    induction h with
    | refl =>
      obtain ⟨-, st, hc, rfl⟩ := h0
      exact ⟨EndLog.init c st, Chunks.init c st, trivial, trivial⟩
    | @step s s' a hs _ hst ih =>
      obtain ⟨h1, h2, h3, h4⟩ := ih
      have ht := tr_of_step hst
      have hk : ∀ bs k st', P.S.write s.st bs = .ok (k, st') → k ≤ bs.length :=
        fun bs k st' h => (PP.pos.write (PosInv.reach PP h0 hs).ok h).2.1
      exact ⟨h1.step ht, h2.step hb hk (fun p => hr s p hs) h1 ht, chunk_rules hk h2 h3 h4 ht⟩
  exact this.2

/-! ### The prefetch phase -/

theorem prefetched_mono {c : Cfg} {e : Ev} {l : List Ev} (h : prefetched c l) : prefetched c (e :: l) := by
  rcases h with h | h | h | ⟨r, o, h⟩
  · refine Or.inl (le_trans h ?_)
    cases e <;> simp [accepted]
  · exact Or.inr (Or.inl (List.mem_cons_of_mem _ h))
  · exact Or.inr (Or.inr (Or.inl (refused_cons h)))
  · exact Or.inr (Or.inr (Or.inr ⟨r, o, List.mem_cons_of_mem _ h⟩))

/-- The consumer is about to use the storage in `read`. -/
def RdrPc.readNow : RdrPc → Bool
  | .rCheck _ _ | .rRead _ _ => true
  | _ => false

structure Pf (c : Cfg) (s : Sys S) : Prop where
  ok : s.pfDone = true ∨ s.dl ≠ [] ∨ s.reached = true ∨ s.done = true ∨ s.rpc.readNow = true →
    prefetched c s.log
  wr : s.spc.wpos ≠ none → s.pfDone = true
  rep : ∀ l, s.spc = .wRep l → s.pfDone = true
  fin : s.spc.drained = true ∨ (∃ a b, s.spc = .seeking a b) → Ev.eof ∈ s.log
  over : s.spc.over = true → ∃ r o, Ev.onFinish r o ∈ s.log
  pos : Ev.eof ∉ s.log → S.wtell s.st = (accepted s.log).length
  start : s.pfStart = 0
  post : ∀ n t, s.spc = .pfPost n t → t ≠ [] → refused s.log
  rule : Always (prefetchRule c) s.log

set_option maxHeartbeats 4000000 in
theorem Pf.step {Q : Positional S} {c : Cfg} (hb : c.batchSize ≠ 0) {s s' : Sys S} {a : Act}
    (hok : Q.Ok s.st) (hns : ∀ p, s.spc ≠ .seekMsg p) (h : Pf c s) (ht : Tr c s a s') : Pf c s' := by
  obtain ⟨h1, h2, h3, h4, h5, h6, h7, h8, h9⟩ := h
  obtain ⟨-, -, -, t4⟩ := Q.tell hok
  have hw : ∀ bs k st', S.write s.st bs = .ok (k, st') → S.wtell st' = S.wtell s.st + k ∧ k ≤ bs.length :=
    fun bs k st' h => ⟨(Q.write hok h).2.2.2, (Q.write hok h).2.1⟩
  have hr : ∀ n bs st', S.read s.st n = .ok (bs, st') → S.wtell st' = S.wtell s.st :=
    fun n bs st' h => (Q.read hok h).2.2
  have hs : ∀ p st', S.rseek s.st p = .ok st' → S.wtell st' = S.wtell s.st :=
    fun p st' h => (Q.rseek hok h).2.2
  have hbe : ∀ t : List Byte, t ≠ [] → batch c t ≠ [] := by
    intro t h h2
    simp only [batch, List.take_eq_nil_iff] at h2
    rcases h2 with h2 | h2
    · have := List.length_pos_iff.mpr h; omega
    · exact h h2
  have hrc := @refused_cons
  have hrf : ∀ p bs l, bs ≠ [] → refused (.write p bs 0 :: l) :=
    fun p bs l h => ⟨p, bs, h, List.mem_cons_self⟩
  have hm : ∀ e l, prefetched c l → prefetched c (e :: l) := fun e l => prefetched_mono
  have p1 : ∀ l, c.prefetchBytes ≤ (accepted l).length → prefetched c l := fun l h => Or.inl h
  have p2 : ∀ l, Ev.eof ∈ l → prefetched c l := fun l h => Or.inr (Or.inl h)
  have p3 : ∀ l, refused l → prefetched c l := fun l h => Or.inr (Or.inr (Or.inl h))
  have p4 : ∀ l r o, Ev.onFinish r o ∈ l → prefetched c l :=
    fun l r o h => Or.inr (Or.inr (Or.inr ⟨r, o, h⟩))
  have hg : ∀ p, RSet.get [] p = none := fun _ => rfl
  cases ht
  all_goals constructor
  all_goals grind [SrcPc.drained, SrcPc.wpos, SrcPc.over, RdrPc.readNow, accepted, Always, prefetchRule,
    roundPc, startPc]

theorem Pf.reach {c : Cfg} (hb : c.batchSize ≠ 0) {P : Provider}
    (PP : PositionalProvider P c.contentLength) {s0 s : Sys P.S} (h0 : Starts P c s0)
    (h : Reach c NoSeek s0 s) : Pf c s := by
  induction h with
  | refl =>
    obtain ⟨-, st, hc, rfl⟩ := h0
    constructor <;> simp [init, SrcPc.wpos, SrcPc.drained, SrcPc.over, RdrPc.readNow, Always, accepted,
      prefetched]
    · intro h; exact Or.inl h
    · exact (PP.create hc).2.2
  | @step s s' a hs _ hst ih =>
    refine ih.step hb (PosInv.reach PP h0 hs).ok ?_ (tr_of_step hst)
    obtain ⟨-, st, hc, rfl⟩ := h0
    exact (noSeek_src hs).2.2

end SD
