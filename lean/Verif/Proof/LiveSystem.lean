import Verif.Spec.LiveSystem
import Verif.Proof.SourceSystem
import Verif.Proof.ProcessSystem
import Verif.Proof.HttpSystem
import Verif.Props.Finish
import Verif.Props.HttpSystem

/-!
# Infinite histories of the systems with a real source are infinite histories of the system
-/

set_option linter.unusedVariables false

namespace SD

variable {S : Storage}

theorem lift_exec {W A : Type} {f : W → A → Option W} {w0 : W} {r : Nat → W} {act : Nat → Option A} {c : Cfg}
    (sys : W → Sys S) {Q : Nat → A → Act → Prop} (hr : Run f w0 r act)
    (hsim : ∀ i a, act i = some a → ∃ x, Q i a x ∧ step c (sys (r i)) x = some (sys (r (i + 1)))) :
    ∃ act', Exec c (sys w0) (fun i => sys (r i)) act' ∧
      (∀ i x, act' i = some x → ∃ a, act i = some a ∧ Q i a x) ∧
      ∀ i a, act i = some a → ∃ x, act' i = some x ∧ Q i a x := by
  have key : ∀ i, ∃ ox : Option Act, (act i = none → ox = none) ∧
      ∀ a, act i = some a → ∃ x, ox = some x ∧ Q i a x ∧ step c (sys (r i)) x = some (sys (r (i + 1))) := by
    intro i
    cases h : act i with
    | none => exact ⟨none, fun _ => rfl, nofun⟩
    | some a =>
      obtain ⟨x, h1, h2⟩ := hsim i a h
      exact ⟨some x, nofun, fun a' e => by cases e; exact ⟨x, rfl, h1, h2⟩⟩
  have key' := fun i => (key i).choose_spec
  refine ⟨fun i => (key i).choose, ⟨by rw [hr.start], fun i hi => ?_, fun i x hx => ?_⟩, fun i x hx => ?_,
    fun i a ha => ?_⟩ <;> try dsimp only at *
  · cases h : act i with
    | none => rw [hr.pause i h]
    | some a =>
      obtain ⟨x, h1, -⟩ := (key' i).2 a h
      rw [hi] at h1; cases h1
  · cases h : act i with
    | none => rw [(key' i).1 h] at hx; cases hx
    | some a =>
      obtain ⟨x', h1, h2, h3⟩ := (key' i).2 a h
      rw [h1] at hx; cases hx
      exact h3
  · cases h : act i with
    | none => rw [(key' i).1 h] at hx; cases hx
    | some a =>
      obtain ⟨x', h1, h2, h3⟩ := (key' i).2 a h
      rw [h1] at hx; cases hx
      exact ⟨a, rfl, h2⟩
  · obtain ⟨x, h1, h2, -⟩ := (key' i).2 a ha
    exact ⟨x, h1, h2⟩

theorem empty_bytesIn {remote : List Byte} {p : Nat} {lim : Option Nat} (h : bytesIn remote p lim = []) :
    remote.length ≤ p ∨ ∃ e, lim = some e ∧ e ≤ p := by
  cases lim with
  | none => left; simpa [bytesIn] using h
  | some e => simp [bytesIn] at h; simp; omega

/-! ### HTTP -/

theorem Run.hreach {c : Cfg} {A : Answer → Prop} {G : HSys S → HAct → Prop} {w0 : HSys S} {r : Nat → HSys S}
    {act : Nat → Option HAct} (h : HRun c A w0 r act) (hG : ∀ i a, act i = some a → G (r i) a) (i : Nat) :
    HReach c A G w0 (r i) := by
  induction i with
  | zero => rw [h.run.start]; exact .refl
  | succ i ih =>
    cases ha : act i with
    | none => rw [h.run.pause i ha]; exact ih
    | some a => exact ih.step (fun answer e => h.server i a answer ha e) (hG i a ha) (h.run.next i a ha)

/-- What a request does to the system. -/
theorem request_sim {remote : List Byte} {b : Byte} {c : Cfg} {w w' : HSys S} {answer : Answer} {start : Nat}
    {stop : Option Nat} (hp : w.sys.spc = .seeking start stop) (hok : (w.http.seekRange answer start stop).res = .ok ())
    (hs : hstep c w (.seekRange answer) = some w') :
    Honest w.sys (.seekOk start) ∧ step (c.on remote b) w.sys (.seekOk start) = some w'.sys := by
  constructor
  · constructor
    · rintro start' stop' pos h h'
      simp at h'; subst h'
      rw [hp] at h; simp at h; exact h.1
    · rintro p pos - h; simp at h
  · simp only [hstep, hp, hok, step] at hs ⊢
    split at hs
    · next h1 =>
      cases hs
      exact h1
    · cases hs

/-- The history, as one of the system. -/
theorem http_exec' {remote : List Byte} {b : Byte} {c : Cfg} {w0 : HSys S} {r : Nat → HSys S}
    {act : Nat → Option HAct} (hi : HInv remote c w0) (h : HRun c (RangeServer remote) w0 r act)
    (hok : ∀ i a, act i = some a → RangesOk (r i) a) :
    ∃ act', Exec (c.on remote b) w0.sys (fun i => (r i).sys) act' ∧
      (∀ i x, act' i = some x → ∃ a, act i = some a ∧ a.Is x ∧ Honest (r i).sys x ∧
        ((r i).http.stream = [] → EndsWhereAsked (c.on remote b) (r i).sys x) ∧
        ∀ k, x = .seekFail k → ∃ answer start stop, a = .seekRange answer ∧ (r i).sys.spc = .seeking start stop ∧
          ((r i).http.seekRange answer start stop).res ≠ .ok ()) ∧
      (∀ i a, act i = some a → ∃ x, act' i = some x ∧ a.Is x) ∧
      Fair (c.on remote b) (fun i => (r i).sys) act' .src ∧ Fair (c.on remote b) (fun i => (r i).sys) act' .rdr ∧
      (HAdvancing r act → Advancing (c.on remote b) (fun i => (r i).sys) act') ∧ ∀ j, act' j ≠ some (.chunk 0) := by
  have hinv : ∀ i, HInv remote c (r i) := by
    intro i
    induction i with
    | zero => rw [h.run.start]; exact hi
    | succ i ih =>
      cases ha : act i with
      | none => rw [h.run.pause i ha]; exact ih
      | some a =>
        exact (hstep_sim (b := b) ih (fun answer e => h.server i a answer ha e) (hok i a ha) (h.run.next i a ha)).1
  obtain ⟨act', h1, h2, h3⟩ := lift_exec (c := c.on remote b) HSys.sys
    (Q := fun i a x => a.Is x ∧ Honest (r i).sys x ∧
      ((r i).http.stream = [] → EndsWhereAsked (c.on remote b) (r i).sys x) ∧
      ∀ k, x = .seekFail k → ∃ answer start stop, a = .seekRange answer ∧ (r i).sys.spc = .seeking start stop ∧
        ((r i).http.seekRange answer start stop).res ≠ .ok ()) h.run (fun i a ha => by
      obtain ⟨-, x, k1, k2, k3⟩ := hstep_sim (b := b) (hinv i) (fun answer e => h.server i a answer ha e) (hok i a ha)
        (h.run.next i a ha)
      by_cases hans : ∃ answer start stop, a = .seekRange answer ∧ (r i).sys.spc = .seeking start stop ∧
        ((r i).http.seekRange answer start stop).res = .ok ()
      · obtain ⟨answer, start, stop, rfl, e2, e3⟩ := hans
        obtain ⟨e4, e5⟩ := request_sim (remote := remote) (b := b) e2 e3 (h.run.next i _ ha)
        exact ⟨_, ⟨.seekOk _ _, e4, nofun, nofun⟩, e5⟩
      refine ⟨x, ⟨k1, k2, ?_, fun k e => ?_⟩, k3⟩
      rotate_left
      · subst e
        cases k1 with
        | sys _ hf => simp [Act.ofTransport] at hf
        | seekFail answer =>
          have ht := tr_of_step k3
          generalize (r (i + 1)).sys = s' at ht
          cases ht
          case seekFail start stop heq => exact ⟨answer, start, stop, rfl, heq, fun e => hans ⟨_, _, _, rfl, heq, e⟩⟩
      rintro he rfl
      cases k1 with
      | sys _ _ =>
        have hb := (hinv i).body (by
          have := tr_of_step k3
          have hs : (r i).sys.spc = .sel := by
            generalize (r (i + 1)).sys = s' at this
            cases this <;> assumption
          rw [hs]; rfl)
        rw [he] at hb
        rcases empty_bytesIn hb.symm with h | ⟨e, h, h'⟩
        · exact Or.inl ⟨_, rfl, h⟩
        · exact Or.inr ⟨e, h, h'⟩)
  have hfair : ∀ x : Act, x.ofTransport = false → FairFor (hstep c) r act (.sys x) →
      Fair (c.on remote b) (fun i => (r i).sys) act' x := by
    intro x hx hf i hen
    obtain ⟨j, hj, ha⟩ := hf i (fun j hj hn => by
      refine hen j hj ?_
      rw [step_on hx]
      simp only [hstep, hx, Bool.false_eq_true, if_false] at hn
      split at hn
      · cases hn
      · assumption)
    obtain ⟨x', h4, h5, -⟩ := h3 j _ ha
    cases h5
    exact ⟨j, hj, h4⟩
  refine ⟨act', h1, h2, fun i a ha => ?_, hfair _ rfl h.task, hfair _ rfl h.consumer, fun hw hinf i => ?_,
    fun j hj => ?_⟩
  · obtain ⟨x, h4, h5⟩ := h3 i a ha
    exact ⟨x, h4, h5.1⟩
  · obtain ⟨j, hj, ⟨n, ha⟩ | ⟨ha, hs⟩⟩ := hw hinf i
    · obtain ⟨x, h4, h5, -⟩ := h3 j _ ha
      cases h5
      refine ⟨j, hj, Or.inl ⟨n, ?_, h4⟩⟩
      have := h.run.next j _ ha
      simp only [hstep] at this
      split at this
      · next hc => exact hc.2.2.1
      · cases this
    · obtain ⟨x, h4, h5, -, h6, -⟩ := h3 j _ ha
      cases h5
      exact ⟨j, hj, Or.inr ⟨h4, h6 hs⟩⟩
  · obtain ⟨a, ha, hx, -⟩ := h2 j _ hj
    cases hx with
    | sys _ hf => simp [Act.ofTransport] at hf
    | chunk =>
      have := h.run.next j _ ha
      simp [hstep] at this

/-- The same, for bodies that do not break off. -/
theorem http_exec {remote : List Byte} {b : Byte} {c : Cfg} {w0 : HSys S} {r : Nat → HSys S}
    {act : Nat → Option HAct} (hi : HInv remote c w0) (h : HRun c (RangeServer remote) w0 r act)
    (hok : ∀ i a, act i = some a → RangesOk (r i) a) (hwb : WholeBodies r act) :
    ∃ act', Exec (c.on remote b) w0.sys (fun i => (r i).sys) act' ∧
      (∀ i x, act' i = some x → ∃ a, act i = some a ∧ a.Is x ∧ Faithful (c.on remote b) (r i).sys x) ∧
      (∀ i a, act i = some a → ∃ x, act' i = some x ∧ a.Is x) ∧
      Fair (c.on remote b) (fun i => (r i).sys) act' .src ∧ Fair (c.on remote b) (fun i => (r i).sys) act' .rdr ∧
      (HWorking r act → Productive (fun i => (r i).sys) act') ∧ ∀ j, act' j ≠ some (.chunk 0) := by
  obtain ⟨act', h1, h2, h3, h4, h5, h6, h7⟩ := http_exec' (b := b) hi h hok
  refine ⟨act', h1, fun i x hx => ?_, h3, h4, h5, fun hw hinf i => ?_, h7⟩
  · obtain ⟨a, ha, hx, hf, he, -⟩ := h2 i x hx
    refine ⟨a, ha, hx, hf, ?_⟩
    rintro rfl
    cases hx with
    | sys _ _ => exact he (hwb i ha) rfl
  · obtain ⟨j, hj, hp⟩ := h6 (fun hinf i => by
      obtain ⟨j, hj, hp⟩ := hw hinf i
      exact ⟨j, hj, hp.imp_right fun ha => ⟨ha, hwb j ha⟩⟩) hinf i
    exact ⟨j, hj, hp.imp_right And.left⟩

/-! ### Sources that are programs -/

variable {R : Source}

theorem src_exec {W : World R} {remote : List Byte} (V : Serves R W remote true) {b : Byte} {c : Cfg}
    {w0 : XSys R S} {r : Nat → XSys R S} {act : Nat → Option (XAct R)} (hi : XInv V w0) (h : XRun c W w0 r act) :
    ∃ act', Exec (c.on remote b) w0.sys (fun i => (r i).sys) act' ∧
      (∀ i x, act' i = some x → ∃ a, act i = some a ∧ a.Is (r i).src x ∧ Faithful (c.on remote b) (r i).sys x) ∧
      (∀ i a, act i = some a → ∃ x, act' i = some x ∧ a.Is (r i).src x) ∧
      Fair (c.on remote b) (fun i => (r i).sys) act' .src ∧ Fair (c.on remote b) (fun i => (r i).sys) act' .rdr ∧
      (XWorking r act → Productive (fun i => (r i).sys) act') ∧ ∀ j, act' j ≠ some (.chunk 0) := by
  have hinv : ∀ i, XInv V (r i) := by
    intro i
    induction i with
    | zero => rw [h.run.start]; exact hi
    | succ i ih =>
      cases ha : act i with
      | none => rw [h.run.pause i ha]; exact ih
      | some a => exact (xstep_sim V (b := b) ih (h.world i a ha) (h.run.next i a ha)).1
  obtain ⟨act', h1, h2, h3⟩ := lift_exec (c := c.on remote b) XSys.sys
    (Q := fun i a x => a.Is (r i).src x ∧ Faithful (c.on remote b) (r i).sys x) h.run (fun i a ha => by
      obtain ⟨-, x, k1, k2, k3⟩ := xstep_sim V (b := b) (hinv i) (h.world i a ha) (h.run.next i a ha)
      refine ⟨x, ⟨k1, k2, ?_⟩, k3⟩
      rintro rfl
      cases k1 with
      | sys _ hf => simp [Act.ofSource] at hf
      | eof e he =>
        have hs : (r i).sys.spc = .sel := by
          have := tr_of_step k3
          generalize (r (i + 1)).sys = s' at this
          cases this <;> assumption
        have hb := (V.done ((hinv i).at' (by rw [hs]; rfl)) (h.world i _ ha) he).2.2 rfl
        rcases empty_bytesIn hb with h | ⟨e, h, h'⟩
        · exact Or.inl ⟨_, rfl, h⟩
        · exact Or.inr ⟨e, h, h'⟩)
  have hfair : ∀ x : Act, x.ofSource = false → FairFor (xstep R c) r act (.sys x) →
      Fair (c.on remote b) (fun i => (r i).sys) act' x := by
    intro x hx hf i hen
    obtain ⟨j, hj, ha⟩ := hf i (fun j hj hn => by
      refine hen j hj ?_
      rw [step_on_source hx]
      simp only [xstep, hx, Bool.false_eq_true, if_false] at hn
      split at hn
      · cases hn
      · assumption)
    obtain ⟨x', h4, h5, -⟩ := h3 j _ ha
    cases h5
    exact ⟨j, hj, h4⟩
  refine ⟨act', h1, h2, fun i a ha => ?_, hfair _ rfl h.task, hfair _ rfl h.consumer, fun hw hinf i => ?_,
    fun j hj => ?_⟩
  · obtain ⟨x, h4, h5⟩ := h3 i a ha
    exact ⟨x, h4, h5.1⟩
  · obtain ⟨j, hj, e, ha, hne⟩ := hw hinf i
    obtain ⟨x, h4, h5, -⟩ := h3 j _ ha
    cases h5 with
    | chunk _ n hn => exact ⟨j, hj, Or.inl ⟨n, hn, h4⟩⟩
    | chunkErr _ h' => exact absurd h' hne
    | eof _ _ => exact ⟨j, hj, Or.inr h4⟩
  · obtain ⟨a, ha, hx, -⟩ := h2 j _ hj
    cases hx with
    | sys _ hf => simp [Act.ofSource] at hf
    | chunk e n hn => omega

/-! ### Processes -/

/-- A step, as one of the reader. -/
def PAct.toX : PAct → Option (XAct asyncReadSource)
  | .x a => some a
  | .finish _ => some (.sys .src)
  | _ => none

theorem exit_keeps {c : Cfg} {w w' : PSys S} {a : PAct} (hs : pstep c w a = some w') (h : w.last.exit ≠ none) :
    w'.last.exit ≠ none := by
  cases a with
  | x a =>
    simp only [pstep] at hs
    split at hs
    · simp at hs
    · split at hs
      · simp at hs; subst hs
        unfold PSys.release
        split
        · exact (drop_spec _).2.2 (fun _ => h)
        · exact (drop_spec _).2.2 (fun _ => h)
        · exact h
      · simp at hs
  | exitEarly k b => simp [pstep] at hs; subst hs; exact h
  | exit b => simp [pstep] at hs; subst hs; exact (leave_reaped _ b).2.2 h
  | finish b =>
    obtain ⟨r, o, h1, h2, h3, h4, -⟩ := finish_step hs
    rw [h4]
    unfold PChild.finish PChild.wait PChild.kill
    split
    · split
      · exact h
      · simp
    · exact h

/-- Once `on_finish` has returned, it does not begin again. -/
theorem past_keeps {c : Cfg} {w w' : PSys S} {a : PAct} (hs : pstep c w a = some w')
    (h : w.x.sys.spc.past = true) : w'.x.sys.spc.past = true := by
  cases a with
  | x a =>
    simp only [pstep] at hs
    split at hs
    · simp at hs
    · rename_i hn
      rw [Bool.and_eq_true] at hn
      split at hs
      · rename_i x1 h1
        simp at hs; subst hs
        rw [release_x]
        exact (plain_xstep h1 hn).past.trans h
      · simp at hs
  | exitEarly k b => simp [pstep] at hs; subst hs; exact h
  | exit b => simp [pstep] at hs; subst hs; exact h
  | finish b =>
    obtain ⟨r, o, h1, -⟩ := finish_step hs
    rw [h1] at h
    cases h

/-- A step that is not that of `on_finish`. -/
theorem keeps_finishing {c : Cfg} {w w' : PSys S} {a : PAct} (hs : pstep c w a = some w')
    (ha : ∀ b, a ≠ .finish b) (h : w.x.sys.spc.finishing = true) : w'.x.sys.spc = w.x.sys.spc := by
  cases a with
  | x a =>
    simp only [pstep] at hs
    split at hs
    · simp at hs
    · rename_i hn
      rw [Bool.and_eq_true] at hn
      split at hs
      · rename_i x1 h1
        simp at hs; subst hs
        rw [release_x]
        exact (plain_xstep h1 hn).finishing h
      · simp at hs
  | exitEarly k b => simp [pstep] at hs; subst hs; rfl
  | exit b => simp [pstep] at hs; subst hs; rfl
  | finish b => exact absurd rfl (ha b)

theorem Run.past {c : Cfg} {w0 : PSys S} {r : Nat → PSys S} {act : Nat → Option PAct} (h : Run (pstep c) w0 r act)
    {i j : Nat} (hij : i ≤ j) (hp : (r i).x.sys.spc.past = true) : (r j).x.sys.spc.past = true := by
  induction hij with
  | refl => exact hp
  | @step j hij ih =>
    cases ha : act j with
    | none => rw [h.pause j ha]; exact ih
    | some a => exact past_keeps (h.next j a ha) ih

/-- `on_finish` returns once. -/
theorem finish_unique {c : Cfg} {w0 : PSys S} {r : Nat → PSys S} {act : Nat → Option PAct}
    (h : Run (pstep c) w0 r act) {i j : Nat} {a b : Bool} (hi : act i = some (.finish a))
    (hj : act j = some (.finish b)) : ¬ i < j := by
  intro hlt
  obtain ⟨r1, o1, -, -, -, -, -, -, h1⟩ := finish_step (h.next i _ hi)
  obtain ⟨r2, o2, h2, -⟩ := finish_step (h.next j _ hj)
  have := h.past (i := i + 1) hlt (by rw [h1]; dsimp only; split <;> rfl)
  rw [h2] at this
  cases this

/-- The history, as one of the reader. -/
theorem process_exec {c : Cfg} {W : World asyncReadSource} {w0 : PSys S} {r : Nat → PSys S}
    {act : Nat → Option PAct} (h : PRun c W w0 r act) :
    ∃ env, XRun (c.finishing env) W w0.x (fun i => (r i).x) (fun i => (act i).bind PAct.toX) := by
  obtain ⟨env, henv⟩ : ∃ env, ∀ i ok, act i = some (.finish ok) → env = (r i).env ok := by
    by_cases hf : ∃ i ok, act i = some (.finish ok)
    · obtain ⟨i, ok, hi⟩ := hf
      refine ⟨(r i).env ok, fun j ok' hj => ?_⟩
      have h1 := finish_unique h.run hi hj
      have h2 := finish_unique h.run hj hi
      have : i = j := by omega
      subst this
      rw [hi] at hj
      cases hj
      rfl
    · exact ⟨⟨none, true⟩, fun i ok hi => absurd ⟨i, ok, hi⟩ hf⟩
  have hnext : ∀ i a, act i = some a →
      (a.toX = none → (r (i + 1)).x = (r i).x) ∧
      ∀ x, a.toX = some x → W.Allows (r i).x x ∧ xstep asyncReadSource (c.finishing env) (r i).x x = some (r (i + 1)).x := by
    intro i a ha
    have hs := h.run.next i a ha
    have hw := h.world i a ha
    cases a with
    | x a =>
      refine ⟨nofun, fun x hx => ?_⟩
      cases hx
      refine ⟨hw, ?_⟩
      simp only [pstep] at hs
      split at hs
      · simp at hs
      · rename_i hn
        rw [Bool.and_eq_true] at hn
        split at hs
        · rename_i x1 h1
          rw [xstep_onFinish hn, h1]
          simp at hs
          rw [← hs, release_x]
        · simp at hs
    | exitEarly k b => simp [pstep] at hs; exact ⟨fun _ => by rw [← hs], nofun⟩
    | exit b => simp [pstep] at hs; exact ⟨fun _ => by rw [← hs], nofun⟩
    | finish b =>
      refine ⟨nofun, fun x hx => ?_⟩
      cases hx
      obtain ⟨r', o, h1, h2, h3, h4, h5, h6, h7⟩ := finish_step hs
      rw [henv i b ha]
      exact ⟨trivial, h6⟩
  have hfair : ∀ x : XAct asyncReadSource, (∀ i, (xstep asyncReadSource (c.finishing env) (r i).x x) ≠ none →
        (r i).x.sys.spc.finishing = true ∧ x.isSrc = true ∨ pstep c (r i) (.x x) ≠ none) := by
    intro x i hne
    by_cases hn : (r i).x.sys.spc.finishing = true ∧ x.isSrc = true
    · exact Or.inl hn
    · right
      rw [xstep_onFinish hn] at hne
      simp only [pstep]
      rw [if_neg (by rw [Bool.and_eq_true]; exact hn)]
      split
      · simp
      · contradiction
  refine ⟨env, ⟨by rw [h.run.start], fun i hi => ?_, fun i x hx => ?_⟩, fun i x hx => ?_, fun i hen => ?_,
    fun i hen => ?_⟩
  · cases ha : act i with
    | none => rw [h.run.pause i ha]
    | some a => rw [ha] at hi; exact (hnext i a ha).1 hi
  · obtain ⟨a, ha, hx⟩ := Option.bind_eq_some_iff.mp hx
    exact ((hnext i a ha).2 x hx).2
  · obtain ⟨a, ha, hx⟩ := Option.bind_eq_some_iff.mp hx
    exact ((hnext i a ha).2 x hx).1
  · apply Classical.byContradiction
    intro hno
    have hnf : ∀ j, i ≤ j → ∀ b, act j ≠ some (.finish b) := by
      intro j hj b hb
      exact hno ⟨j, hj, by rw [hb]; rfl⟩
    by_cases hfin : ∃ k, i ≤ k ∧ (r k).x.sys.spc.finishing = true
    · obtain ⟨k, hik, hk⟩ := hfin
      have hstay : ∀ j, k ≤ j → (r j).x.sys.spc = (r k).x.sys.spc := by
        intro j hj
        induction hj with
        | refl => rfl
        | @step j hj ih =>
          cases ha : act j with
          | none => rw [h.run.pause j ha]; exact ih
          | some a =>
            rw [keeps_finishing (h.run.next j a ha) (fun b e => hnf j (Nat.le_trans hik hj) b (by rw [ha, e]))
              (by rw [ih]; exact hk)]
            exact ih
      obtain ⟨l, hl⟩ := h.exits (fun n => ⟨max n k, by omega, by rw [hstay _ (by omega)]; exact hk⟩)
      have hexit : ∀ j, l ≤ j → (r j).last.exit ≠ none := by
        intro j hj
        induction hj with
        | refl => exact hl
        | @step j hj ih =>
          cases ha : act j with
          | none => rw [h.run.pause j ha]; exact ih
          | some a => exact exit_keeps (h.run.next j a ha) ih
      obtain ⟨j, ok, hj, ha⟩ := h.finish (max k l) (fun j hj => by
        have h1 := hstay j (by omega)
        have h2 := hexit j (by omega)
        rw [← h1] at hk
        simp only [pstep]
        split
        · rename_i rr o hp
          rw [if_neg (by simp [Option.isNone_iff_eq_none, h2])]
          split
          · simp
          · rename_i hs
            simp only [step, srcStep, hp] at hs
            split at hs <;> simp at hs
        · rename_i hp
          revert hk
          cases hq : (r j).x.sys.spc <;> simp [SrcPc.finishing]
          exact absurd hq (hp _ _))
      exact hnf j (by omega) ok ha
    · obtain ⟨j, hj, ha⟩ := h.task i (fun j hj => by
        rcases hfair _ j (hen j hj) with h1 | h1
        · exact absurd ⟨j, hj, h1.1⟩ hfin
        · exact h1)
      exact hno ⟨j, hj, by rw [ha]; rfl⟩
  · obtain ⟨j, hj, ha⟩ := h.consumer i (fun j hj => by
      rcases hfair _ j (hen j hj) with h1 | h1
      · cases h1.2
      · exact h1)
    exact ⟨j, hj, by rw [ha]; rfl⟩

end SD
