import Verif.Proof.Sys.Ending
import Verif.Proof.Sys.Pos

/-! # The download task: ranges, reports, reconnects -/

set_option linter.unusedSimpArgs false
set_option linter.unusedVariables false

namespace SD

variable {S : Storage}

/-! ### The downloaded ranges are canonical in every history -/

theorem wf_step {c : Cfg} {s s' : Sys S} {a : Act} (h : RSet.WF s.dl) (ht : Tr c s a s') :
    RSet.WF s'.dl := by
  cases ht <;> first | exact h | exact RSet.wf_add h _ _

theorem wf_reach {c : Cfg} {G : Sys S → Act → Prop} {st : S.σ} {s : Sys S}
    (h : Reach c G (init c st) s) : RSet.WF s.dl :=
  Reach.inv (P := fun s => RSet.WF s.dl) h trivial (fun _ _ _ h _ ht => wf_step h ht)

/-- Downloaded positions stay downloaded. -/
theorem mem_step {c : Cfg} {s s' : Sys S} {a : Act} (hwf : RSet.WF s.dl) (ht : Tr c s a s') {q : Nat}
    (h : RSet.Mem s.dl q) : RSet.Mem s'.dl q := by
  cases ht <;> first | exact h | exact (RSet.mem_add hwf _ _ _).mpr (Or.inl h)

/-! ### Range requests -/

/-- How a `seek_range` call comes about. -/
theorem tr_seekRange {c : Cfg} {s s' : Sys S} {a : Act} {start : Nat} {stop : Option Nat}
    (hwf : RSet.WF s.dl) (ht : Tr c s a s') (hl : s'.log = .seekRange start stop :: s.log) :
    a = .src ∧ c.supportsSeek = true ∧ S.wtell s'.st = S.wtell s.st ∧
    ((s.spc = .fin ∧ ∃ n b, c.contentLength = some n ∧ stop = some b ∧ s'.dl = s.dl ∧
        RSet.nextGap s'.dl 0 n = some (start, b)) ∨
     (∃ p n a b, s.spc = .seekMsg p ∧ c.contentLength = some n ∧ start = max a p ∧ stop = some b ∧
        RSet.nextGap s'.dl (min (S.wtell s.st) p) n = some (a, b)) ∨
     (∃ p, s.spc = .seekMsg p ∧ c.contentLength = none ∧ start = p ∧ stop = none)) := by
  cases ht
  all_goals first
    | (exfalso; simp at hl; done)
    | (simp only [List.cons.injEq, Ev.seekRange.injEq, and_true] at hl
       obtain ⟨rfl, rfl⟩ := hl
       grind [shouldSeek])

/-- Without calls of `seek` the task never sees one. -/
theorem noSeek_src {c : Cfg} {st : S.σ} {s : Sys S}
    (h : Reach c NoSeek (init c st) s) :
    s.rpc.target = none ∧ s.seekQ = none ∧ ∀ p, s.spc ≠ .seekMsg p := by
  refine Reach.inv (P := fun s => s.rpc.target = none ∧ s.seekQ = none ∧ ∀ p, s.spc ≠ .seekMsg p) h
    ⟨rfl, rfl, by simp [init]⟩ ?_
  rintro s s' a ⟨h1, h2, h3⟩ hg ht
  unfold NoSeek at hg
  cases ht <;> grind [RdrPc.target, roundPc, startPc]

theorem Reach.mono {c : Cfg} {G G' : Sys S → Act → Prop} (hG : ∀ s a, G s a → G' s a) {s0 s : Sys S}
    (h : Reach c G s0 s) : Reach c G' s0 s := by
  induction h with
  | refl => exact .refl
  | step _ hg hs ih => exact ih.step (hG _ _ hg) hs

/-! ### What is complete is covered -/

/-- The task has found nothing missing. -/
def SrcPc.found : SrcPc → Bool
  | .finSig | .report => true
  | .onFin none _ => true
  | _ => false

structure Cov (c : Cfg) (s : Sys S) : Prop where
  wf : RSet.WF s.dl
  found : s.spc.found = true → c.supportsSeek = true → ∀ n, c.contentLength = some n →
    RSet.Covers s.dl 0 n
  log : completes s.log ≠ 0 → s.spc.ending = true ∧ s.spc ≠ .report ∧
    (c.supportsSeek = true → ∀ n, c.contentLength = some n → RSet.Covers s.dl 0 n)

set_option maxHeartbeats 4000000 in
theorem Cov.step {c : Cfg} {s s' : Sys S} {a : Act} (h : Cov c s) (ht : Tr c s a s') :
    Cov c s' := by
  have hwf := wf_step h.wf ht
  obtain ⟨h1, h2, h3⟩ := h
  have hn : ∀ n, RSet.nextGap s.dl 0 n = none → RSet.Covers s.dl 0 n := fun n h => RSet.nextGap_none h
  refine ⟨hwf, ?_, ?_⟩
  all_goals
    clear hwf h1
    cases ht
    all_goals grind [SrcPc.ending, SrcPc.found, completes, roundPc, startPc]

theorem Cov.reach {c : Cfg} {G : Sys S → Act → Prop} {st : S.σ} {s : Sys S}
    (h : Reach c G (init c st) s) : Cov c s :=
  Reach.inv (P := Cov c) h ⟨trivial, by simp [init, SrcPc.found], by simp [init, completes]⟩
    (fun _ _ _ h _ ht => h.step ht)

theorem completes_mem {l : List Ev} {pos : Nat} {r : Nat × Nat} (h : Ev.progress pos r .complete ∈ l) :
    completes l ≠ 0 := by
  induction l with
  | nil => simp at h
  | cons e l ih =>
    rcases List.mem_cons.mp h with rfl | h
    · simp [completes]
    · have := ih h
      unfold completes
      split <;> simp_all

/-! ### Progress reports -/

/-- Nothing is reported after `Complete`. -/
def reportRule (e : Ev) (l : List Ev) : Prop :=
  match e with
  | .progress _ _ _ => completes l = 0
  | _ => True

set_option maxHeartbeats 4000000 in
theorem report_step {c : Cfg} {s s' : Sys S} {a : Act} (h : EndLog c s) (hl : Always reportRule s.log)
    (ht : Tr c s a s') : Always reportRule s'.log := by
  have h1 := h.before
  have h2 := h.report
  clear h
  cases ht
  all_goals grind [SrcPc.ending, Always, reportRule]

theorem report_reach {c : Cfg} {G : Sys S → Act → Prop} {st : S.σ} {s : Sys S}
    (h : Reach c G (init c st) s) : Always reportRule s.log := by
  have : EndLog c s ∧ Always reportRule s.log := by
    refine Reach.inv (P := fun s => EndLog c s ∧ Always reportRule s.log) h
      ⟨EndLog.init c st, trivial⟩ ?_
    rintro s s' a ⟨h1, h2⟩ - ht
    exact ⟨h1.step ht, report_step h1 h2 ht⟩
  exact this.2

/-! ### Reconnects -/

/-- Waiting for `reconnect` to return. -/
def SrcPc.reconnecting : SrcPc → Bool
  | .reconn _ => true
  | _ => false

def Recon (s : Sys S) : Prop :=
  s.log.countP Ev.isOnReconnect + (if s.spc.reconnecting then 1 else 0) ≤ s.log.countP Ev.isReconnect

set_option maxHeartbeats 4000000 in
theorem recon_step {c : Cfg} {s s' : Sys S} {a : Act} (h : Recon s) (ht : Tr c s a s') : Recon s' := by
  unfold Recon at *
  cases ht
  all_goals simp only [List.countP_cons]
  all_goals grind [SrcPc.reconnecting, Ev.isReconnect, Ev.isOnReconnect, roundPc, startPc]

theorem recon_reach {c : Cfg} {G : Sys S → Act → Prop} {st : S.σ} {s : Sys S}
    (h : Reach c G (init c st) s) : Recon s :=
  Reach.inv (P := Recon) h (by simp [Recon, init, SrcPc.reconnecting])
    (fun _ _ _ h _ ht => recon_step h ht)

end SD
