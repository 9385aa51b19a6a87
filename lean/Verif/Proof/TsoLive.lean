import Verif.Proof.Tso
import Verif.Spec.LiveSystem

/-! # Infinite histories on hardware that delays stores -/

namespace SD

variable {S : Storage}

/-- The history `r`, `act` of the system without a store buffer follows the history `t`, `ta`
of the system with one: three moments for one. -/
structure Follows (t : Nat → TSys S) (ta : Nat → Option TAct) (r : Nat → Sys S) (act : Nat → Option Act) : Prop where
  only : ∀ n a, act n = some a → a = .rdr ∨ ∃ i, n = 3 * i ∧ ta i = some (.act a)
  sim : ∀ i, TSim (t i) (r (3 * i))
  mid : ∀ n, ∃ i, n ≤ 3 * i ∧ Midway (r n) (r (3 * i))
  ext : ∀ i a, ta i = some (.act a) → a ≠ .rdr → act (3 * i) = some a

/-- The slots of every moment. -/
theorem slots_exist {c : Cfg} {s0 : Sys S} {t : Nat → TSys S} {ta : Nat → Option TAct}
    (hr : Run (tstep c) { sys := s0, buf := none } t ta) :
    ∃ x : Nat → Slots S, (x 0).s = s0 ∧ ∀ i, TSim (t i) (x i).s ∧ (x i).Fits c (t i) (ta i) (t (i + 1)) ∧
      (x (i + 1)).s = (x i).s3 := by
  have hone : ∀ i (s : Sys S), TSim (t i) s → ∃ x : Slots S, x.s = s ∧ x.Fits c (t i) (ta i) (t (i + 1)) := by
    intro i s hs
    cases ha : ta i with
    | none =>
      have e := hr.pause i ha
      exact ⟨_, rfl, fits_stay (by rw [e]; exact hs) (fun _ h => nomatch h) (by simp) (by rw [e]; exact id)⟩
    | some a =>
      have e := hr.next i a ha
      cases a with
      | act a => exact tsim_step hs e
      | drain => exact tsim_drain hs e
  have h0 : TSim (t 0) s0 := by rw [hr.start]; exact ⟨s0.permit, s0.rpc, id, rfl, rfl⟩
  let f : (i : Nat) → { s : Sys S // TSim (t i) s } := fun i =>
    Nat.rec ⟨s0, h0⟩ (fun i s => ⟨(Classical.choose (hone i s.1 s.2)).s3,
      (Classical.choose_spec (hone i s.1 s.2)).2.sim⟩) i
  refine ⟨fun i => Classical.choose (hone i (f i).1 (f i).2), ?_, ?_⟩
  · exact (Classical.choose_spec (hone 0 (f 0).1 (f 0).2)).1
  · intro i
    obtain ⟨h1, h2⟩ := Classical.choose_spec (hone i (f i).1 (f i).2)
    refine ⟨?_, h2, ?_⟩
    · dsimp only; rw [h1]; exact (f i).2
    · exact (Classical.choose_spec (hone (i + 1) (f (i + 1)).1 (f (i + 1)).2)).1

/-- The state in a slot. -/
def slotState (x : Nat → Slots S) (n : Nat) : Sys S :=
  if n % 3 = 0 then (x (n / 3)).s else if n % 3 = 1 then (x (n / 3)).s1 else (x (n / 3)).s2

/-- The action in a slot. -/
def slotAct (x : Nat → Slots S) (n : Nat) : Option Act :=
  if n % 3 = 0 then (x (n / 3)).a0 else if n % 3 = 1 then (x (n / 3)).a1 else (x (n / 3)).a2

theorem slot_cases (n : Nat) : ∃ i, n = 3 * i ∨ n = 3 * i + 1 ∨ n = 3 * i + 2 := ⟨n / 3, by omega⟩

variable {x : Nat → Slots S} {i : Nat}

theorem slotState_0 : slotState x (3 * i) = (x i).s := by
  unfold slotState
  rw [if_pos (by omega), show 3 * i / 3 = i by omega]

theorem slotState_1 : slotState x (3 * i + 1) = (x i).s1 := by
  unfold slotState
  rw [if_neg (by omega), if_pos (by omega), show (3 * i + 1) / 3 = i by omega]

theorem slotState_2 : slotState x (3 * i + 2) = (x i).s2 := by
  unfold slotState
  rw [if_neg (by omega), if_neg (by omega), show (3 * i + 2) / 3 = i by omega]

theorem slotAct_0 : slotAct x (3 * i) = (x i).a0 := by
  unfold slotAct
  rw [if_pos (by omega), show 3 * i / 3 = i by omega]

theorem slotAct_1 : slotAct x (3 * i + 1) = (x i).a1 := by
  unfold slotAct
  rw [if_neg (by omega), if_pos (by omega), show (3 * i + 1) / 3 = i by omega]

theorem slotAct_2 : slotAct x (3 * i + 2) = (x i).a2 := by
  unfold slotAct
  rw [if_neg (by omega), if_neg (by omega), show (3 * i + 2) / 3 = i by omega]

theorem Opt.pause {c : Cfg} {s s' : Sys S} {o : Option Act} (h : Opt c s o s') (ho : o = none) : s' = s := by
  subst ho; exact h

theorem Opt.next {c : Cfg} {s s' : Sys S} {o : Option Act} {a : Act} (h : Opt c s o s') (ho : o = some a) :
    step c s a = some s' := by
  subst ho; exact h

/-- A step of the consumer that is possible without a store buffer is possible with an empty
one. -/
theorem rdr_possible {c : Cfg} {t : TSys S} {s : Sys S} (hs : TSim t s) (hbuf : t.buf = none)
    (h : step c s .rdr ≠ none) : tstep c t (.act .rdr) ≠ none := by
  obtain ⟨p, q, hp, hb, rfl⟩ := hs
  rw [hbuf] at hb
  simp only [behind, Option.some.injEq] at hb
  subst hb
  have he : step c t.sys .rdr ≠ none := by
    intro e
    apply h
    by_cases h1 : ∃ n r, t.sys.rpc = .rNotify n r
    · obtain ⟨n, r, h1⟩ := h1
      simp [step, rdrStep, h1] at e
    · by_cases h2 : t.sys.rpc = .rWake
      · simp [step, rdrStep, h2] at e
      · have := pe_rdrStep (c := c) (s := t.sys) (fun n r h => h1 ⟨n, r, h⟩) h2 p
        have e' : rdrStep c t.sys = none := e
        rw [e'] at this
        exact this
  intro e
  simp only [tstep, hbuf, if_true] at e
  revert e
  cases h1 : step c t.sys .rdr with
  | none => exact absurd h1 he
  | some s1 => split <;> simp

/-- A step of the task that is possible without a store buffer is possible with one, if the
task does not wait. -/
theorem src_possible {c : Cfg} {t : TSys S} {s : Sys S} (hs : TSim t s) (hw : ∀ x y z, t.sys.spc ≠ .wWait x y z)
    (h : step c s .src ≠ none) : tstep c t (.act .src) ≠ none := by
  obtain ⟨p, q, hp, hb, rfl⟩ := hs
  rw [re_step (a := .src) rfl hw p q] at h
  intro e
  simp only [tstep] at e
  cases h1 : step c t.sys .src with
  | none => rw [h1] at h; exact h rfl
  | some s1 => rw [h1] at e; cases e

/-- Every infinite history on hardware that delays stores is followed by one on hardware that
does not, and with fair schedulers if the former has them and the task never has to wait for
the consumer. -/
theorem tso_exec {c : Cfg} {s0 : Sys S} {t : Nat → TSys S} {ta : Nat → Option TAct}
    (hr : Run (tstep c) { sys := s0, buf := none } t ta) (hw : ∀ i x y z, (t i).sys.spc ≠ .wWait x y z)
    (hfs : FairFor (tstep c) t ta (.act .src)) (hfr : FairFor (tstep c) t ta (.act .rdr))
    (hfd : FairFor (tstep c) t ta .drain) :
    ∃ r act, Exec c s0 r act ∧ Fair c r act .src ∧ Fair c r act .rdr ∧ Follows t ta r act := by
  obtain ⟨x, hx0, hx⟩ := slots_exist hr
  refine ⟨slotState x, slotAct x, ⟨?_, ?_, ?_⟩, ?_, ?_, ?_, ?_, ?_, ?_⟩
  · exact hx0
  · intro n hn
    obtain ⟨i, rfl | rfl | rfl⟩ := slot_cases n
    · rw [slotAct_0] at hn; rw [slotState_1, slotState_0]; exact (hx i).2.1.step0.pause hn
    · rw [slotAct_1] at hn; rw [slotState_2, slotState_1]; exact (hx i).2.1.step1.pause hn
    · rw [slotAct_2] at hn
      rw [show 3 * i + 2 + 1 = 3 * (i + 1) by omega, slotState_2, slotState_0, (hx i).2.2]
      exact (hx i).2.1.step2.pause hn
  · intro n a hn
    obtain ⟨i, rfl | rfl | rfl⟩ := slot_cases n
    · rw [slotAct_0] at hn; rw [slotState_1, slotState_0]; exact (hx i).2.1.step0.next hn
    · rw [slotAct_1] at hn; rw [slotState_2, slotState_1]; exact (hx i).2.1.step1.next hn
    · rw [slotAct_2] at hn
      rw [show 3 * i + 2 + 1 = 3 * (i + 1) by omega, slotState_2, slotState_0, (hx i).2.2]
      exact (hx i).2.1.step2.next hn
  · intro n hn
    obtain ⟨k, h1, h2⟩ := hfs n (fun j hj => by
      have := hn (3 * j) (by omega)
      rw [slotState_0] at this
      exact src_possible (hx j).1 (hw j) this)
    refine ⟨3 * k, by omega, ?_⟩
    rw [slotAct_0]
    exact ((hx k).2.1.other _ h2).resolve_right (fun h => nomatch h.1)
  · intro n hn
    have hen : ∀ k, n ≤ k → step c (x k).s .rdr ≠ none := fun k hk => by
      have := hn (3 * k) (by omega)
      rwa [slotState_0] at this
    by_cases hb : ∃ k, n ≤ k ∧ (t k).buf ≠ none
    · obtain ⟨k, hk, hb⟩ := hb
      apply Classical.byContradiction
      intro hno
      have hnd : ∀ j, k ≤ j → ta j ≠ some .drain := by
        intro j hj h
        refine hno ⟨3 * j, by omega, ?_⟩
        rw [slotAct_0]
        exact (hx j).2.1.drain h
      have hfull : ∀ j, k ≤ j → (t j).buf ≠ none := by
        intro j hj
        obtain ⟨d, rfl⟩ := Nat.exists_eq_add_of_le hj
        clear hj
        induction d with
        | zero => exact hb
        | succ d ih => exact (hx (k + d)).2.1.full ih (hnd (k + d) (by omega))
      obtain ⟨j, hj, h⟩ := hfd k (fun j hj => by
        have := hfull j hj
        cases h : (t j).buf with
        | none => exact absurd h this
        | some r => simp [tstep, h])
      exact hnd j hj h
    · have hb : ∀ k, n ≤ k → (t k).buf = none := fun k hk =>
        Classical.byContradiction fun h => hb ⟨k, hk, h⟩
      obtain ⟨k, h1, h2⟩ := hfr n (fun j hj => rdr_possible (hx j).1 (hb j hj) (hen j hj))
      refine ⟨3 * k, by omega, ?_⟩
      rw [slotAct_0]
      exact ((hx k).2.1.other _ h2).resolve_right (fun h => h.2 (hb (k + 1) (by omega)))
  · intro n a hn
    obtain ⟨i, rfl | rfl | rfl⟩ := slot_cases n
    · rw [slotAct_0] at hn
      exact ((hx i).2.1.act a hn).imp id fun h => ⟨i, rfl, h⟩
    · rw [slotAct_1] at hn; exact .inl ((hx i).2.1.rdr1 a hn)
    · rw [slotAct_2] at hn; exact .inl ((hx i).2.1.rdr2 a hn)
  · intro i
    rw [slotState_0]; exact (hx i).1
  · intro n
    obtain ⟨i, rfl | rfl | rfl⟩ := slot_cases n
    · exact ⟨i, by omega, .inl rfl⟩
    · refine ⟨i + 1, by omega, ?_⟩
      rw [slotState_1, slotState_0, (hx i).2.2]
      exact (hx i).2.1.mid1
    · refine ⟨i + 1, by omega, ?_⟩
      rw [slotState_2, slotState_0, (hx i).2.2]
      exact (hx i).2.1.mid2
  · intro i a ha hne
    rw [slotAct_0]
    exact ((hx i).2.1.other a ha).resolve_right (fun h => hne h.1)

/-! ### What a history shows of the one that follows it -/

theorem TSim.sys {t : TSys S} {s : Sys S} (h : TSim t s) :
    s.log = t.sys.log ∧ s.spc = t.sys.spc := by
  obtain ⟨p, q, -, -, rfl⟩ := h
  exact ⟨rfl, rfl⟩

theorem TSim.returned {t : TSys S} {s : Sys S} (h : TSim t s) {q : RdrPc} (hq : q = .idle ∨ q = .panicked)
    (hs : s.rpc = q) : t.sys.rpc = q := by
  obtain ⟨p, q', hp, hb, rfl⟩ := h
  have hs : q' = q := hs
  subst hs
  cases hbuf : t.buf with
  | none => rw [hbuf] at hb; simpa [behind] using hb
  | some r =>
    rw [hbuf] at hb
    cases h1 : t.sys.rpc <;> rw [h1] at hb <;> simp only [behind, reduceCtorEq] at hb <;> split at hb <;>
      rcases hq with rfl | rfl <;> simp at hb

theorem TSim.inCall {t : TSys S} {s : Sys S} (h : TSim t s) (hc : t.sys.rpc.inCall = true) :
    s.rpc.inCall = true := by
  obtain ⟨p, q, hp, hb, rfl⟩ := h
  show q.inCall = true
  cases hbuf : t.buf with
  | none => rw [hbuf] at hb; simp only [behind, Option.some.injEq] at hb; rw [← hb]; exact hc
  | some r =>
    rw [hbuf] at hb
    cases h1 : t.sys.rpc <;> rw [h1] at hb <;> simp only [behind, reduceCtorEq] at hb <;> split at hb <;>
      simp only [Option.some.injEq, reduceCtorEq] at hb <;> rw [← hb] <;> rfl

theorem Midway.sys {s s' : Sys S} (h : Midway s s') : s.log = s'.log ∧ s.spc = s'.spc := by
  rcases h with rfl | ⟨⟨p, q, rfl⟩, -⟩ <;> exact ⟨rfl, rfl⟩

variable {t : Nat → TSys S} {ta : Nat → Option TAct} {r : Nat → Sys S} {act : Nat → Option Act}

theorem Follows.sys (h : Follows t ta r act) (n : Nat) :
    ∃ i, n ≤ 3 * i ∧ (r n).log = (t i).sys.log ∧ (r n).spc = (t i).sys.spc := by
  obtain ⟨i, h1, h2⟩ := h.mid n
  exact ⟨i, h1, h2.sys.1.trans (h.sim i).sys.1, h2.sys.2.trans (h.sim i).sys.2⟩

theorem Follows.returned (h : Follows t ta r act) {n : Nat} {q : RdrPc} (hq : q = .idle ∨ q = .panicked)
    (hn : (r n).rpc = q) :
    ∃ i, n ≤ 3 * i ∧ (r n).log = (t i).sys.log ∧ (t i).sys.rpc = q := by
  obtain ⟨i, h1, h2⟩ := h.mid n
  rcases h2 with h2 | ⟨-, h3, h4⟩
  · exact ⟨i, h1, by rw [h2]; exact (h.sim i).sys.1, (h.sim i).returned hq (by rw [← h2]; exact hn)⟩
  · rcases hq with rfl | rfl
    · exact absurd hn h3
    · exact absurd hn h4

theorem Follows.guard {G : Sys S → Act → Prop} (h : Follows t ta r act) (hG : Outside G)
    (ht : ∀ i a, ta i = some (.act a) → G (t i).sys a) : ∀ n a, act n = some a → G (r n) a := by
  intro n a ha
  rcases h.only n a ha with rfl | ⟨i, rfl, h1⟩
  · exact hG.rdr _
  · obtain ⟨p, q, e⟩ := (h.sim i).place
    rw [e]
    exact hG.blind _ _ _ _ (ht i a h1)

theorem Follows.working (h : Follows t ta r act) {progress : Nat → Prop} {done : Nat → Prop}
    (hp : Working (fun i => (t i).sys) progress) (hd : ∀ i, progress i → done (3 * i)) :
    (∀ i, ∃ j, i ≤ j ∧ (r j).spc.awaits = true) → ∀ i, ∃ j, i ≤ j ∧ done j := by
  intro hw i
  obtain ⟨j, h1, h2⟩ := hp (fun i => by
    obtain ⟨j, h1, h2⟩ := hw (3 * i)
    obtain ⟨k, h3, -, h4⟩ := h.sys j
    exact ⟨k, by omega, by dsimp only; rw [← h4]; exact h2⟩) i
  exact ⟨3 * j, by omega, hd j h2⟩

theorem trun_reach {c : Cfg} {G : Sys S → Act → Prop} {t0 : TSys S} (hr : Run (tstep c) t0 t ta)
    (hG : ∀ i a, ta i = some (.act a) → G (t i).sys a) (i : Nat) : TReach c G t0 (t i) := by
  induction i with
  | zero => rw [hr.start]; exact .refl
  | succ i ih =>
    cases ha : ta i with
    | none => rw [hr.pause i ha]; exact ih
    | some a =>
      cases a with
      | act a => exact .act ih (hG i a ha) (hr.next i _ ha)
      | drain => exact .drain ih (hr.next i _ ha)

end SD
