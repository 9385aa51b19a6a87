import Verif.Proof.Sys.Cancel
import Verif.Proof.LiveSystem
import Verif.Props.Panic
import Verif.Props.Live

/-!
# Cancellation: infinite histories of the systems with a real source
-/

set_option linter.unusedVariables false

namespace SD

variable {S : Storage}

/-- What the system sees of an infinite history with a source. -/
structure Watched (c : Cfg) (s0 : Sys S) (r : Nat → Sys S) (act : Nat → Option Act) : Prop where
  exec : Exec c s0 r act
  task : Fair c r act .src
  consumer : Fair c r act .rdr
  timer : Fair c r act .reconnTimeout
  select : StronglyFair (step c) r act .seeCancel
  nonEmpty : ∀ j, act j ≠ some (.chunk 0)

theorem http_seen {remote : List Byte} {b : Byte} {c : Cfg} {w0 : HSys S} {r : Nat → HSys S}
    {act : Nat → Option HAct} (hi : HInv remote c w0) (h : HRun c (RangeServer remote) w0 r act)
    (hok : ∀ i a, act i = some a → RangesOk (r i) a) (ht : FairFor (hstep c) r act (.sys .reconnTimeout))
    (hp : StronglyFair (hstep c) r act (.sys .seeCancel)) :
    ∃ act', Watched (c.on remote b) w0.sys (fun i => (r i).sys) act' ∧
      ∀ i a, act i = some a → ∃ x, act' i = some x ∧ a.Is x := by
  have hinv : ∀ i, HInv remote c (r i) := by
    intro i
    induction i with
    | zero => rw [h.run.start]; exact hi
    | succ i ih =>
      cases ha : act i with
      | none => rw [h.run.pause i ha]; exact ih
      | some a =>
        exact (hstep_sim (b := b) ih (fun answer e => h.server i a answer ha e) (hok i a ha) (h.run.next i a ha)).1
  obtain ⟨act', h1, h2, h3⟩ := lift_exec (c := c.on remote b) HSys.sys
    (Q := fun i a x => a.Is x) h.run (fun i a ha => by
      obtain ⟨-, x, k1, -, k3⟩ := hstep_sim (b := b) (hinv i) (fun answer e => h.server i a answer ha e) (hok i a ha)
        (h.run.next i a ha)
      exact ⟨x, k1, k3⟩)
  have hen : ∀ (x : Act) j, x.ofTransport = false → step (c.on remote b) (r j).sys x ≠ none →
      hstep c (r j) (.sys x) ≠ none := by
    intro x j hx hen hn
    refine hen ?_
    rw [step_on hx]
    simp only [hstep, hx, Bool.false_eq_true, if_false] at hn
    split at hn
    · cases hn
    · assumption
  have hact : ∀ (x : Act) j, act j = some (.sys x) → act' j = some x := by
    intro x j ha
    obtain ⟨x', h4, h5⟩ := h3 j _ ha
    cases h5
    exact h4
  have hfair : ∀ x : Act, x.ofTransport = false → FairFor (hstep c) r act (.sys x) →
      Fair (c.on remote b) (fun i => (r i).sys) act' x := by
    intro x hx hf i h
    obtain ⟨j, hj, ha⟩ := hf i (fun j hj => hen x j hx (h j hj))
    exact ⟨j, hj, hact x j ha⟩
  refine ⟨act', ⟨h1, hfair _ rfl h.task, hfair _ rfl h.consumer, hfair _ rfl ht, fun hinf i => ?_, fun j hj => ?_⟩, h3⟩
  · obtain ⟨j, hj, ha⟩ := hp (fun i => by
      obtain ⟨j, hj, h⟩ := hinf i
      exact ⟨j, hj, hen _ j rfl h⟩) i
    exact ⟨j, hj, hact _ j ha⟩
  · obtain ⟨a, ha, hx⟩ := h2 j _ hj
    cases hx with
    | sys _ hf => simp [Act.ofTransport] at hf
    | chunk =>
      have := h.run.next j _ ha
      simp [hstep] at this

theorem src_seen {R : Source} {W : World R} {remote : List Byte} {strict : Bool} (V : Serves R W remote strict)
    {b : Byte} {c : Cfg} {w0 : XSys R S} {r : Nat → XSys R S} {act : Nat → Option (XAct R)} (hi : XInv V w0)
    (h : XRun c W w0 r act) (ht : FairFor (xstep R c) r act (.sys .reconnTimeout))
    (hp : StronglyFair (xstep R c) r act (.sys .seeCancel)) :
    ∃ act', Watched (c.on remote b) w0.sys (fun i => (r i).sys) act' ∧
      ∀ i a, act i = some a → ∃ x, act' i = some x ∧ a.Is (r i).src x := by
  have hinv : ∀ i, XInv V (r i) := by
    intro i
    induction i with
    | zero => rw [h.run.start]; exact hi
    | succ i ih =>
      cases ha : act i with
      | none => rw [h.run.pause i ha]; exact ih
      | some a => exact (xstep_sim V (b := b) ih (h.world i a ha) (h.run.next i a ha)).1
  obtain ⟨act', h1, h2, h3⟩ := lift_exec (c := c.on remote b) XSys.sys
    (Q := fun i a x => a.Is (r i).src x) h.run (fun i a ha => by
      obtain ⟨-, x, k1, -, k3⟩ := xstep_sim V (b := b) (hinv i) (h.world i a ha) (h.run.next i a ha)
      exact ⟨x, k1, k3⟩)
  have hen : ∀ (x : Act) j, x.ofSource = false → step (c.on remote b) (r j).sys x ≠ none →
      xstep R c (r j) (.sys x) ≠ none := by
    intro x j hx hen hn
    refine hen ?_
    rw [step_on_source hx]
    simp only [xstep, hx, Bool.false_eq_true, if_false] at hn
    split at hn
    · cases hn
    · assumption
  have hact : ∀ (x : Act) j, act j = some (.sys x) → act' j = some x := by
    intro x j ha
    obtain ⟨x', h4, h5⟩ := h3 j _ ha
    cases h5
    exact h4
  have hfair : ∀ x : Act, x.ofSource = false → FairFor (xstep R c) r act (.sys x) →
      Fair (c.on remote b) (fun i => (r i).sys) act' x := by
    intro x hx hf i h
    obtain ⟨j, hj, ha⟩ := hf i (fun j hj => hen x j hx (h j hj))
    exact ⟨j, hj, hact x j ha⟩
  refine ⟨act', ⟨h1, hfair _ rfl h.task, hfair _ rfl h.consumer, hfair _ rfl ht, fun hinf i => ?_, fun j hj => ?_⟩, h3⟩
  · obtain ⟨j, hj, ha⟩ := hp (fun i => by
      obtain ⟨j, hj, h⟩ := hinf i
      exact ⟨j, hj, hen _ j rfl h⟩) i
    exact ⟨j, hj, hact _ j ha⟩
  · obtain ⟨a, ha, hx⟩ := h2 j _ hj
    cases hx with
    | sys _ hf => simp [Act.ofSource] at hf
    | chunk _ _ hn => omega

theorem cancels_now {c : Cfg} {s0 : Sys S} {r : Nat → Sys S} {act : Nat → Option Act} (he : Exec c s0 r act) {i : Nat}
    {a : Act} (ha : act i = some a) (hc : Cancels c a) : (r (i + 1)).cancelled = true := by
  have h := he.next i a ha
  rcases hc with rfl | ⟨rfl, hd⟩
  · simp [step] at h
    rw [← h]
  · simp [step] at h
    rw [← h.2, hd]
    simp

/-- After a cancellation the task ends, with storage that keeps everything. -/
theorem cancelled_ends {P : Provider} {c : Cfg} (hP : Unbounded c.contentLength P)
    (hb : c.batchSize ≠ 0) {s0 : Sys P.S} (h0 : Starts P c s0) {r : Nat → Sys P.S} {act : Nat → Option Act}
    (h : Watched c s0 r act) (ha : AnswersSeeks r) {i : Nat} (hc : (r i).cancelled = true) :
    ∃ j, i ≤ j ∧ (r j).spc = .ended := by
  obtain ⟨LP, -, -⟩ := keeps_lawful hP
  obtain ⟨PP⟩ := keeps_positional hP
  rcases cancel_ends (Q := PP.pos) h.exec h.task h.timer h.select ha
      (fun j => (Track.reach PP h0 (h.exec.reach j)).1.1) hc with ⟨j, hj, h1 | h1⟩ | h1
  · exact ⟨j, hj, h1⟩
  · refine absurd h1 (C39_no_panic_unbounded_partial hP hb h0 (h.exec.reachG (fun i a ha e => ?_) j))
    exact h.nonEmpty i (by rw [ha, e])
  · obtain ⟨j, -, h2⟩ := h1 0
    have := (Keep.reach hb LP h0 (h.exec.reach j)).ok
    cases hs : (r j).spc <;> simp [hs, SrcPc.needsRoom, SrcPc.fullOk] at h2 this

/-- Once the task has ended, calls return. -/
theorem returns_after_end {P : Provider} {c : Cfg} {s0 : Sys P.S} (h0 : Starts P c s0) {r : Nat → Sys P.S}
    {act : Nat → Option Act} (he : Exec c s0 r act) (hf : Fair c r act .rdr) {j : Nat} (hj : (r j).spc = .ended)
    {k : Nat} (hk : (r k).rpc.inCall = true) : ∃ l, k ≤ l ∧ ((r l).rpc = .idle ∨ (r l).rpc = .panicked) := by
  rcases ends_or_sleeps he hf _ k (Nat.le_refl _) hk with h | ⟨i', p, w, h1, -, -, h2⟩
  · exact h
  · have hst : ∀ l, j ≤ l → (r l).spc = .ended := by
      intro l hl
      induction hl with
      | refl => exact hj
      | @step l hl ih =>
        cases hact : act l with
        | none => rw [he.pause _ hact]; exact ih
        | some a =>
          have ht := tr_of_step (he.next _ a hact)
          by_cases e : a = .src
          · subst e
            have := he.next _ _ hact
            simp [step, srcStep, ih] at this
          · rw [spc_frame ht (by rw [ih]; rfl) e, ih]
    have h3 := h2 (max i' j) (by omega)
    rw [ended_done h0 (he.reach _) (hst (max i' j) (by omega))] at h3
    cases h3.2.1

end SD
