import Verif.Proof.Wild
import Verif.Spec.AnySource

/-!
# Any source is a transport of the system

What `Proof/Wild` says of HTTP servers, for every implementation of `SourceStream`.
-/

namespace SD

variable {S : Storage} {R : Source}

/-- What arrives with an action. -/
def arrives (w : XSys R S) : XAct R → List Byte
  | .poll e => match (R.poll w.src e).1 with
    | .chunk bs => bs
    | _ => []
  | _ => []

/-- Where the tape is after an action. -/
def xtapeNext (w : XSys R S) (t : Nat) : XAct R → Nat
  | .sys _ => t
  | .poll e => t + (arrives w (.poll e)).length
  | .seekRange e =>
    match w.sys.spc with
    | .seeking start stop =>
      match (R.seekRange w.src e start stop).1, S.wseek w.sys.st start with
      | .ok _, .ok _ => t + start + 1
      | _, _ => t
    | _ => t
  | .reconnect e =>
    match w.sys.spc with
    | .reconn p =>
      match (R.reconnect w.src e p).1 with
      | .ok _ => t + 1
      | _ => t
    | _ => t

/-- What the system sees of an action. -/
inductive XAct.Seen (w : XSys R S) : XAct R → Act → Prop
  | sys (a : Act) : a.ofSource = false → XAct.Seen w (.sys a) a
  | chunk (e : R.PollEnv) (bs : List Byte) : (R.poll w.src e).1 = .chunk bs → XAct.Seen w (.poll e) (.chunk bs.length)
  | chunkErr (e : R.PollEnv) : (R.poll w.src e).1 = .err → XAct.Seen w (.poll e) .chunkErr
  | eof (e : R.PollEnv) : (R.poll w.src e).1 = .done → XAct.Seen w (.poll e) .eof
  | seekOk (e : R.SeekEnv) (p : Nat) : XAct.Seen w (.seekRange e) (.seekOk p)
  | seekFail (e : R.SeekEnv) (k : Kind) : XAct.Seen w (.seekRange e) (.seekFail k)
  | reconnOk (e : R.SeekEnv) (p : Nat) : XAct.Seen w (.reconnect e) (.reconnOk p)
  | reconnFail (e : R.SeekEnv) : XAct.Seen w (.reconnect e) .reconnFail

theorem ofTransport_of_source {a : Act} (h : a.ofSource = false) : a.ofTransport = false := by
  cases a <;> first | rfl | simp [Act.ofSource] at h

/-- One action, seen by the system with the tape. -/
theorem xstep_tape {c : Cfg} {w w' : XSys R S} {a : XAct R} {ρ : Nat → Byte} {t : Nat} (hp : Polite w a)
    (h : xstep R c w a = some w') (hρ : slice ρ t (arrives w a).length = arrives w a) :
    ∃ x, a.Seen w x ∧ step (c.tape ρ) (w.sys.tape t) x = some (w'.sys.tape (xtapeNext w t a)) := by
  cases a with
  | sys a =>
    simp only [xstep] at h
    split at h
    · cases h
    · next ha =>
      have ha : a.ofSource = false := by simpa using ha
      split at h
      · next s e =>
        cases h
        exact ⟨a, .sys a ha, by rw [tape_step ρ (ofTransport_of_source ha), e]; rfl⟩
      · cases h
  | poll e =>
    simp only [xstep] at h
    split at h
    · next hsel =>
      split at h
      · next bs src' hr =>
        cases h
        have hr' : (R.poll w.src e).1 = .chunk bs := by rw [hr]
        obtain ⟨h1, h2⟩ := hp bs hr'
        refine ⟨.chunk bs.length, .chunk e bs hr', ?_⟩
        have ha : arrives w (.poll e) = bs := by simp [arrives, hr']
        rw [ha] at hρ
        simp only [step]
        rw [if_pos ⟨hsel, h2, rfl, rfl⟩]
        refine congrArg some ?_
        simp only [show (c.tape ρ).remote = ρ from rfl, show (w.sys.tape t).tpos = t from rfl, hρ, xtapeNext, ha]
        exact tape_handleChunk { w.sys with tpos := w.sys.tpos + bs.length, log := _ } _ (t + bs.length)
      · next src' hr =>
        cases h
        have hr' : (R.poll w.src e).1 = .err := by rw [hr]
        refine ⟨.chunkErr, .chunkErr e hr', ?_⟩
        simp only [step]
        rw [if_pos (show (w.sys.tape t).spc = .sel from hsel)]
        simp only [xtapeNext, arrives, hr']
        rfl
      · next src' hr =>
        cases h
        have hr' : (R.poll w.src e).1 = .done := by rw [hr]
        refine ⟨.eof, .eof e hr', ?_⟩
        simp only [step]
        rw [if_pos (show (w.sys.tape t).spc = .sel from hsel)]
        simp only [xtapeNext, arrives, hr', List.length_nil, Nat.add_zero]
        exact congrArg some (tape_handleEof { w.sys with tend := true, log := _ } t)
    · cases h
  | seekRange e =>
    simp only [xstep] at h
    split at h
    · next start stop hsp =>
      have hnp := hp start stop hsp
      split at h
      · next hr =>
        have hr' : (R.seekRange w.src e start stop).1 = .ok () := by rw [hr]
        split at h
        · next s e1 =>
          cases h
          refine ⟨.seekOk (t + start + 1), .seekOk e _, ?_⟩
          simp only [step, hsp] at e1
          simp only [step, show (w.sys.tape t).spc = w.sys.spc from rfl, show (w.sys.tape t).st = w.sys.st from rfl, hsp,
            xtapeNext, hr']
          cases hw : S.wseek w.sys.st start with
          | ok st' =>
            rw [hw] at e1
            cases e1
            simp only [Sys.tape, if_neg (show ¬ t + start + 1 = start by omega)]
          | err k =>
            rw [hw] at e1
            cases e1
            rfl
          | panic =>
            rw [hw] at e1
            cases e1
            rfl
        · cases h
      · next k _ hr =>
        have hr' : (R.seekRange w.src e start stop).1 = .err k := by rw [hr]
        split at h
        · next s e1 =>
          cases h
          refine ⟨.seekFail k, .seekFail e k, ?_⟩
          simp only [step, hsp] at e1
          cases e1
          simp only [step, show (w.sys.tape t).spc = w.sys.spc from rfl, hsp, xtapeNext, hr']
          rfl
        · cases h
      · next hr => exact absurd (by rw [hr]) hnp
    · cases h
  | reconnect e =>
    simp only [xstep] at h
    split at h
    · next p hsp =>
      have hnp := hp p hsp
      split at h
      · next hr =>
        have hr' : (R.reconnect w.src e p).1 = .ok () := by rw [hr]
        split at h
        · next s e1 =>
          cases h
          refine ⟨.reconnOk (t + 1), .reconnOk e _, ?_⟩
          simp only [step, hsp] at e1
          cases e1
          simp only [step, show (w.sys.tape t).spc = w.sys.spc from rfl, hsp, xtapeNext, hr']
          rfl
        · cases h
      · next k _ hr =>
        have hr' : (R.reconnect w.src e p).1 = .err k := by rw [hr]
        split at h
        · next s e1 =>
          cases h
          refine ⟨.reconnFail, .reconnFail e, ?_⟩
          simp only [step, hsp] at e1
          cases e1
          simp only [step, show (w.sys.tape t).spc = w.sys.spc from rfl, hsp, xtapeNext, hr']
          rfl
        · cases h
      · next hr => exact absurd (by rw [hr]) hnp
    · cases h

/-- Where the tape is at each time of a history. -/
def xtapeAt (r : Nat → XSys R S) (act : Nat → Option (XAct R)) : Nat → Nat
  | 0 => 0
  | i + 1 =>
    match act i with
    | none => xtapeAt r act i
    | some a => xtapeNext (r i) (xtapeAt r act i) a

theorem xtapeNext_le (w : XSys R S) (t : Nat) (a : XAct R) : t + (arrives w a).length ≤ xtapeNext w t a := by
  cases a <;> simp only [xtapeNext, arrives, List.length_nil, Nat.add_zero]
  · exact Nat.le_refl _
  · exact Nat.le_refl _
  · split
    · split <;> omega
    · omega
  · split
    · split <;> omega
    · omega

theorem xtapeAt_mono (r : Nat → XSys R S) (act : Nat → Option (XAct R)) {i j : Nat} (h : i ≤ j) :
    xtapeAt r act i ≤ xtapeAt r act j := by
  induction h with
  | refl => exact Nat.le_refl _
  | @step m _ ih =>
    refine Nat.le_trans ih ?_
    simp only [xtapeAt]
    split
    · exact Nat.le_refl _
    · next a _ => have := xtapeNext_le (r m) (xtapeAt r act m) a; omega

open Classical in
/-- The tape: what arrives at each time. -/
noncomputable def theXTape (r : Nat → XSys R S) (act : Nat → Option (XAct R)) (p : Nat) : Byte :=
  if h : ∃ i a, act i = some a ∧ xtapeAt r act i ≤ p ∧ p < xtapeAt r act i + (arrives (r i) a).length then
    (arrives (r h.choose) h.choose_spec.choose).getD (p - xtapeAt r act h.choose) 0
  else 0

theorem theXTape_arrives {r : Nat → XSys R S} {act : Nat → Option (XAct R)} {i : Nat} {a : XAct R} (ha : act i = some a) :
    slice (theXTape r act) (xtapeAt r act i) (arrives (r i) a).length = arrives (r i) a := by
  apply List.ext_getElem
  · simp [slice]
  · intro k h1 h2
    have hex : ∃ i' a', act i' = some a' ∧ xtapeAt r act i' ≤ xtapeAt r act i + k ∧
        xtapeAt r act i + k < xtapeAt r act i' + (arrives (r i') a').length := ⟨i, a, ha, by omega, by omega⟩
    have e : theXTape r act (xtapeAt r act i + k) = (arrives (r i) a).getD k 0 := by
      unfold theXTape
      rw [dif_pos hex]
      have hj := hex.choose_spec.choose_spec
      generalize hex.choose_spec.choose = b at hj
      generalize hex.choose = j at hj
      obtain ⟨e1, e2, e3⟩ := hj
      have s1 : xtapeAt r act i + (arrives (r i) a).length ≤ xtapeAt r act (i + 1) := by
        simp only [xtapeAt, ha]; exact xtapeNext_le _ _ _
      have s2 : xtapeAt r act j + (arrives (r j) b).length ≤ xtapeAt r act (j + 1) := by
        simp only [xtapeAt, e1]; exact xtapeNext_le _ _ _
      have hi : j = i := by
        rcases Nat.lt_trichotomy i j with h | h | h
        · have := xtapeAt_mono r act (show i + 1 ≤ j from h); omega
        · exact h.symm
        · have := xtapeAt_mono r act (show j + 1 ≤ i from h); omega
      subst hi
      rw [ha] at e1
      cases e1
      rw [Nat.add_sub_cancel_left]
    simp only [slice, List.getElem_map, List.getElem_range, e]
    rw [List.getD_eq_getElem?_getD, List.getElem?_eq_getElem (by omega)]
    rfl

/-- A history with any source is a history of the system with the tape. -/
theorem any_source {c : Cfg} {w0 : XSys R S} {r : Nat → XSys R S} {act : Nat → Option (XAct R)}
    (hr : Run (xstep R c) w0 r act) (hp : ∀ i a, act i = some a → Polite (r i) a) :
    ∃ (ρ : Nat → Byte) (act' : Nat → Option Act) (t : Nat → Nat),
      Exec (c.tape ρ) (w0.sys.tape 0) (fun i => (r i).sys.tape (t i)) act' ∧
      (∀ i x, act' i = some x → ∃ a, act i = some a ∧ a.Seen (r i) x) ∧
      ∀ i a, act i = some a → ∃ x, act' i = some x ∧ a.Seen (r i) x := by
  let f : XSys R S × Nat → XAct R → Option (XSys R S × Nat) := fun v a =>
    (xstep R c v.1 a).map fun w' => (w', xtapeNext v.1 v.2 a)
  have hrun : Run f (w0, 0) (fun i => (r i, xtapeAt r act i)) act := by
    refine ⟨by simp [hr.start, xtapeAt], fun i hi => ?_, fun i a ha => ?_⟩
    · simp [hr.pause i hi, xtapeAt, hi]
    · simp [f, hr.next i a ha, xtapeAt, ha]
  obtain ⟨act', h1, h2, h3⟩ := lift_exec (c := c.tape (theXTape r act)) (fun v : XSys R S × Nat => v.1.sys.tape v.2)
    (Q := fun i a x => a.Seen (r i) x) hrun (fun i a ha => by
      obtain ⟨x, k1, k2⟩ := xstep_tape (ρ := theXTape r act) (t := xtapeAt r act i) (hp i a ha) (hr.next i a ha)
        (theXTape_arrives ha)
      refine ⟨x, k1, ?_⟩
      rw [k2]
      simp [xtapeAt, ha])
  exact ⟨_, act', _, h1, h2, h3⟩

end SD
