import Verif.Proof.Weak
import Verif.Proof.TsoLive

/-! # Infinite histories with weakly ordered memory -/

namespace SD

variable {S : Storage}

/-- The history `r`, `act` of the system without delays follows the history `t`, `ta` of the
system with weakly ordered memory: three moments for one. -/
structure FollowsW (t : Nat → WSys S) (ta : Nat → Option WAct) (r : Nat → Sys S) (act : Nat → Option Act) : Prop where
  only : ∀ n a, act n = some a → a = .rdr ∨ ∃ i, n = 3 * i ∧ ta i = some (.act a)
  sim : ∀ i, WSim (t i) (r (3 * i))
  mid : ∀ n, ∃ i, n ≤ 3 * i ∧ MidwayQ (r n) (r (3 * i))
  ext : ∀ i a, ta i = some (.act a) → a ≠ .rdr → act (3 * i) = some a

/-- The slots of every moment. -/
theorem wslots_exist {c : Cfg} {s0 : Sys S} {t : Nat → WSys S} {ta : Nat → Option WAct}
    (ht0 : Tok s0) (hr : Run (wstep c) (WSys.of s0) t ta) (hse : ∀ i a, ta i = some (.act a) → Sends (t i).sys a) :
    ∃ x : Nat → Slots S, (x 0).s = s0 ∧ ∀ i, WSim (t i) (x i).s ∧ (x i).FitsW c (t i) (ta i) (t (i + 1)) ∧
      (x (i + 1)).s = (x i).s3 := by
  have hone : ∀ i (s : Sys S), WSim (t i) s → ∃ x : Slots S, x.s = s ∧ x.FitsW c (t i) (ta i) (t (i + 1)) := by
    intro i s hs
    cases ha : ta i with
    | none =>
      have e := hr.pause i ha
      exact ⟨_, rfl, fitsW_stay (by rw [e]; exact hs) (fun _ h => nomatch h) (by simp) (by rw [e]; exact id)⟩
    | some a =>
      have e := hr.next i a ha
      cases a with
      | act a => exact wsim_step hs (hse i a ha) e
      | drain => exact wsim_drain hs e
  have h0 : WSim (t 0) s0 := by rw [hr.start]; exact wsim_start ht0
  let f : (i : Nat) → { s : Sys S // WSim (t i) s } := fun i =>
    Nat.rec ⟨s0, h0⟩ (fun i s => ⟨(Classical.choose (hone i s.1 s.2)).s3,
      (Classical.choose_spec (hone i s.1 s.2)).2.sim⟩) i
  refine ⟨fun i => Classical.choose (hone i (f i).1 (f i).2), ?_, ?_⟩
  · exact (Classical.choose_spec (hone 0 (f 0).1 (f 0).2)).1
  · intro i
    obtain ⟨h1, h2⟩ := Classical.choose_spec (hone i (f i).1 (f i).2)
    refine ⟨?_, h2, ?_⟩
    · dsimp only; rw [h1]; exact (f i).2
    · exact (Classical.choose_spec (hone (i + 1) (f (i + 1)).1 (f (i + 1)).2)).1

variable {x : Nat → Slots S} {i : Nat}

/-- A step of the consumer that is possible without delays is possible if all stores are
visible. -/
theorem wrdr_possible {c : Cfg} {t : WSys S} {s : Sys S} (hs : WSim t s) (hbuf : t.buf = [])
    (h : step c s .rdr ≠ none) : wstep c t (.act .rdr) ≠ none := by
  obtain ⟨-, p, q, k, hp, hb, rfl⟩ := hs
  cases hb with
  | here h1 h2 h3 =>
    have he : step c t.sys .rdr ≠ none := by
      intro e
      apply h
      by_cases h1 : ∃ n r, t.sys.rpc = .rNotify n r
      · obtain ⟨n, r, h1⟩ := h1
        simp [step, rdrStep, h1] at e
      · by_cases h2 : t.sys.rpc = .rWake
        · simp [step, rdrStep, h2] at e
        · have := pe_rdrStep (c := c) (s := t.sys) (fun n r h => h1 ⟨n, r, h⟩) h2 p
          have e' : rdrStep c t.sys = none := e
          rw [e'] at this
          exact this
    intro e
    simp only [wstep, hbuf, ne_eq, not_true_eq_false, and_false, if_false] at e
    revert e
    cases h1 : step c t.sys .rdr with
    | none => exact absurd h1 he
    | some s1 => split <;> simp
  | load n r h1 => rw [h1] at hbuf; cases hbuf
  | notify n r h1 => rw [h1] at hbuf; cases hbuf
  | wait n r h1 => rw [h1] at hbuf; cases hbuf
  | woken n r h1 => rw [h1] at hbuf; cases hbuf
  | send r h1 => rw [h1] at hbuf; cases hbuf
  | sent r h1 => rw [h1] at hbuf; cases hbuf

/-- A step of the task that is possible without delays is possible with delays, if the task
does not wait. -/
theorem wsrc_possible {c : Cfg} {t : WSys S} {s : Sys S} (hs : WSim t s) (hw : ∀ x y z, t.sys.spc ≠ .wWait x y z)
    (h : step c s .src ≠ none) : wstep c t (.act .src) ≠ none := by
  obtain ⟨-, p, q, k, hp, hb, rfl⟩ := hs
  have h1 : step c (t.sys.rq p q k) .src = (step c (t.sys.re p q) .src).map (·.sq k) :=
    sq_step (s := t.sys.re p q) (a := .src) rfl (by simp) k
  rw [h1, re_step (a := .src) rfl hw p q] at h
  intro e
  cases h1 : step c t.sys .src with
  | none => rw [h1] at h; exact h rfl
  | some s1 =>
    simp only [wstep, h1] at e
    cases e

/-- Every infinite history with weakly ordered memory is followed by one without delays, and with fair schedulers if the former has them and the task never has to wait for
the consumer. -/
theorem weak_exec {c : Cfg} {s0 : Sys S} {t : Nat → WSys S} {ta : Nat → Option WAct}
    (ht0 : Tok s0) (hr : Run (wstep c) (WSys.of s0) t ta) (hse : ∀ i a, ta i = some (.act a) → Sends (t i).sys a)
    (hw : ∀ i x y z, (t i).sys.spc ≠ .wWait x y z)
    (hfs : FairFor (wstep c) t ta (.act .src)) (hfr : FairFor (wstep c) t ta (.act .rdr))
    (hfd : FairFor (wstep c) t ta .drain) :
    ∃ r act, Exec c s0 r act ∧ Fair c r act .src ∧ Fair c r act .rdr ∧ FollowsW t ta r act := by
  obtain ⟨x, hx0, hx⟩ := wslots_exist ht0 hr hse
  refine ⟨slotState x, slotAct x, ⟨?_, ?_, ?_⟩, ?_, ?_, ?_, ?_, ?_, ?_⟩
  · exact hx0
  · intro n hn
    obtain ⟨i, rfl | rfl | rfl⟩ := slot_cases n
    · rw [slotAct_0] at hn; rw [slotState_1, slotState_0]; exact (hx i).2.1.step0.pause hn
    · rw [slotAct_1] at hn; rw [slotState_2, slotState_1]; exact (hx i).2.1.step1.pause hn
    · rw [slotAct_2] at hn
      rw [show 3 * i + 2 + 1 = 3 * (i + 1) by omega, slotState_2, slotState_0, (hx i).2.2]
      exact (hx i).2.1.step2.pause hn
  · intro n a hn
    obtain ⟨i, rfl | rfl | rfl⟩ := slot_cases n
    · rw [slotAct_0] at hn; rw [slotState_1, slotState_0]; exact (hx i).2.1.step0.next hn
    · rw [slotAct_1] at hn; rw [slotState_2, slotState_1]; exact (hx i).2.1.step1.next hn
    · rw [slotAct_2] at hn
      rw [show 3 * i + 2 + 1 = 3 * (i + 1) by omega, slotState_2, slotState_0, (hx i).2.2]
      exact (hx i).2.1.step2.next hn
  · intro n hn
    obtain ⟨k, h1, h2⟩ := hfs n (fun j hj => by
      have := hn (3 * j) (by omega)
      rw [slotState_0] at this
      exact wsrc_possible (hx j).1 (hw j) this)
    refine ⟨3 * k, by omega, ?_⟩
    rw [slotAct_0]
    exact ((hx k).2.1.other _ h2).resolve_right (fun h => nomatch h.1)
  · intro n hn
    have hen : ∀ k, n ≤ k → step c (x k).s .rdr ≠ none := fun k hk => by
      have := hn (3 * k) (by omega)
      rwa [slotState_0] at this
    by_cases hb : ∃ k, n ≤ k ∧ (t k).buf ≠ []
    · obtain ⟨k, hk, hb⟩ := hb
      apply Classical.byContradiction
      intro hno
      have hnd : ∀ j, k ≤ j → ta j ≠ some .drain := by
        intro j hj h
        refine hno ⟨3 * j, by omega, ?_⟩
        rw [slotAct_0]
        exact (hx j).2.1.drain h
      have hfull : ∀ j, k ≤ j → (t j).buf ≠ [] := by
        intro j hj
        obtain ⟨d, rfl⟩ := Nat.exists_eq_add_of_le hj
        clear hj
        induction d with
        | zero => exact hb
        | succ d ih => exact (hx (k + d)).2.1.full ih (hnd (k + d) (by omega))
      obtain ⟨j, hj, h⟩ := hfd k (fun j hj => by
        have := hfull j hj
        cases h : (t j).buf with
        | nil => exact absurd h this
        | cons r rest => simp [wstep, h])
      exact hnd j hj h
    · have hb : ∀ k, n ≤ k → (t k).buf = [] := fun k hk =>
        Classical.byContradiction fun h => hb ⟨k, hk, h⟩
      obtain ⟨k, h1, h2⟩ := hfr n (fun j hj => wrdr_possible (hx j).1 (hb j hj) (hen j hj))
      refine ⟨3 * k, by omega, ?_⟩
      rw [slotAct_0]
      exact ((hx k).2.1.other _ h2).resolve_right (fun h => h.2 (hb (k + 1) (by omega)))
  · intro n a hn
    obtain ⟨i, rfl | rfl | rfl⟩ := slot_cases n
    · rw [slotAct_0] at hn
      exact ((hx i).2.1.act a hn).imp id fun h => ⟨i, rfl, h⟩
    · rw [slotAct_1] at hn; exact .inl ((hx i).2.1.rdr1 a hn)
    · rw [slotAct_2] at hn; exact .inl ((hx i).2.1.rdr2 a hn)
  · intro i
    rw [slotState_0]; exact (hx i).1
  · intro n
    obtain ⟨i, rfl | rfl | rfl⟩ := slot_cases n
    · exact ⟨i, by omega, .inl rfl⟩
    · refine ⟨i + 1, by omega, ?_⟩
      rw [slotState_1, slotState_0, (hx i).2.2]
      exact (hx i).2.1.mid1
    · refine ⟨i + 1, by omega, ?_⟩
      rw [slotState_2, slotState_0, (hx i).2.2]
      exact (hx i).2.1.mid2
  · intro i a ha hne
    rw [slotAct_0]
    exact ((hx i).2.1.other a ha).resolve_right (fun h => hne h.1)

/-! ### What a history shows of the one that follows it -/

theorem WSim.returned {t : WSys S} {s : Sys S} (h : WSim t s) {q : RdrPc} (hq : q = .idle ∨ q = .panicked)
    (hs : s.rpc = q) : t.sys.rpc = q := by
  obtain ⟨-, p, q', k, hp, hb, rfl⟩ := h
  have hs : q' = q := hs
  subst hs
  cases hb with
  | here => rfl
  | load n r => rcases hq with h | h <;> cases h
  | notify n r => rcases hq with h | h <;> cases h
  | wait n r => rcases hq with h | h <;> cases h
  | woken n r => rcases hq with h | h <;> cases h
  | send r => rcases hq with h | h <;> cases h
  | sent r => rcases hq with h | h <;> cases h

theorem WSim.inCall {t : WSys S} {s : Sys S} (h : WSim t s) (hc : t.sys.rpc.inCall = true) :
    s.rpc.inCall = true := by
  obtain ⟨-, p, q, k, hp, hb, rfl⟩ := h
  show q.inCall = true
  cases hb with
  | here => exact hc
  | load n r => rfl
  | notify n r => rfl
  | wait n r => rfl
  | woken n r => rfl
  | send r => rfl
  | sent r => rfl

theorem MidwayQ.sys {s s' : Sys S} (h : MidwayQ s s') : s.log = s'.log ∧ s.spc = s'.spc := by
  rcases h with rfl | ⟨⟨p, q, k, rfl⟩, -⟩ <;> exact ⟨rfl, rfl⟩

variable {t : Nat → WSys S} {ta : Nat → Option WAct} {r : Nat → Sys S} {act : Nat → Option Act}

theorem FollowsW.sys (h : FollowsW t ta r act) (n : Nat) :
    ∃ i, n ≤ 3 * i ∧ (r n).log = (t i).sys.log ∧ (r n).spc = (t i).sys.spc := by
  obtain ⟨i, h1, h2⟩ := h.mid n
  exact ⟨i, h1, h2.sys.1.trans (h.sim i).sys.1, h2.sys.2.trans (h.sim i).sys.2⟩

theorem FollowsW.returned (h : FollowsW t ta r act) {n : Nat} {q : RdrPc} (hq : q = .idle ∨ q = .panicked)
    (hn : (r n).rpc = q) :
    ∃ i, n ≤ 3 * i ∧ (r n).log = (t i).sys.log ∧ (t i).sys.rpc = q := by
  obtain ⟨i, h1, h2⟩ := h.mid n
  rcases h2 with h2 | ⟨-, h3, h4⟩
  · exact ⟨i, h1, by rw [h2]; exact (h.sim i).sys.1, (h.sim i).returned hq (by rw [← h2]; exact hn)⟩
  · rcases hq with rfl | rfl
    · exact absurd hn h3
    · exact absurd hn h4

theorem FollowsW.guard {G : Sys S → Act → Prop} (h : FollowsW t ta r act) (hG : Outer G)
    (ht : ∀ i a, ta i = some (.act a) → G (t i).sys a) : ∀ n a, act n = some a → G (r n) a := by
  intro n a ha
  rcases h.only n a ha with rfl | ⟨i, rfl, h1⟩
  · exact hG.rdr _
  · obtain ⟨p, q, k, e⟩ := (h.sim i).place
    rw [e]
    exact hG.blind _ _ _ _ _ (ht i a h1)

theorem FollowsW.working (h : FollowsW t ta r act) {progress : Nat → Prop} {done : Nat → Prop}
    (hp : Working (fun i => (t i).sys) progress) (hd : ∀ i, progress i → done (3 * i)) :
    (∀ i, ∃ j, i ≤ j ∧ (r j).spc.awaits = true) → ∀ i, ∃ j, i ≤ j ∧ done j := by
  intro hw i
  obtain ⟨j, h1, h2⟩ := hp (fun i => by
    obtain ⟨j, h1, h2⟩ := hw (3 * i)
    obtain ⟨k, h3, -, h4⟩ := h.sys j
    exact ⟨k, by omega, by dsimp only; rw [← h4]; exact h2⟩) i
  exact ⟨3 * j, by omega, hd j h2⟩

theorem wrun_reach {c : Cfg} {G : Sys S → Act → Prop} {t0 : WSys S} (hr : Run (wstep c) t0 t ta)
    (hG : ∀ i a, ta i = some (.act a) → G (t i).sys a) (i : Nat) : WReach c G t0 (t i) := by
  induction i with
  | zero => rw [hr.start]; exact .refl
  | succ i ih =>
    cases ha : ta i with
    | none => rw [hr.pause i ha]; exact ih
    | some a =>
      cases a with
      | act a => exact .act ih (hG i a ha) (hr.next i _ ha)
      | drain => exact .drain ih (hr.next i _ ha)

end SD
