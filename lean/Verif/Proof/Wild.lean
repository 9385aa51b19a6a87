import Verif.Proof.LiveSystem

/-!
# Any HTTP server is a transport of the system

The system leaves it open where a transport resumes.  So a server that sends anything at all is a
transport for some resource: the tape of everything that it sends, in the order in which it arrives,
where each new connection goes on at a fresh place of the tape.
-/

namespace SD

variable {S : Storage}

/-- The configuration for a resource without end that consists of the bytes of `ρ`. -/
def Cfg.tape (c : Cfg) (ρ : Nat → Byte) : Cfg := { c with remote := ρ, remoteLen := none }

/-- The state with the transport at position `t` of the tape. -/
def Sys.tape (s : Sys S) (t : Nat) : Sys S := { s with tpos := t, tlim := none }

theorem tape_handleSeek (c : Cfg) (ρ : Nat → Byte) (s : Sys S) (x t : Nat) :
    handleSeek (c.tape ρ) (s.tape t) x = (handleSeek c s x).tape t := by
  simp only [handleSeek, show (s.tape t).st = s.st from rfl, show (s.tape t).dl = s.dl from rfl,
    show (s.tape t).pfDone = s.pfDone from rfl, show (c.tape ρ).supportsSeek = c.supportsSeek from rfl,
    show (c.tape ρ).contentLength = c.contentLength from rfl]
  generalize hb : (!if (!c.supportsSeek) = true then false else
    match s.dl.get x with
    | some (a, b) => !(decide (a ≤ S.wtell s.st) && decide (S.wtell s.st < b))
    | none => true) = b
  cases b <;> cases h1 : s.pfDone <;> cases h2 : c.contentLength <;>
    simp only [Bool.false_eq_true, if_false, if_true, Sys.tape] <;> split <;> rfl

theorem tape_startWrite (s : Sys S) (bs : List Byte) (t : Nat) :
    startWrite (s.tape t) bs = (startWrite s bs).tape t := by
  simp only [startWrite, Sys.tape]; split <;> rfl

theorem tape_handleChunk (s : Sys S) (bs : List Byte) (t : Nat) :
    handleChunk (s.tape t) bs = (handleChunk s bs).tape t := by
  simp only [handleChunk, show (s.tape t).pfDone = s.pfDone from rfl, show (s.tape t).rem = s.rem from rfl]
  cases s.pfDone
  · rfl
  · cases s.rem
    · exact tape_startWrite s _ t
    · exact tape_startWrite { s with rem := none, pfDone := true } _ t

theorem tape_handleEof (s : Sys S) (t : Nat) : handleEof (s.tape t) = (handleEof s).tape t := by
  simp only [handleEof, show (s.tape t).pfDone = s.pfDone from rfl, show (s.tape t).rem = s.rem from rfl]
  cases s.pfDone
  · rfl
  · cases s.rem
    · rfl
    · exact tape_startWrite { s with rem := none, pfDone := true } _ t

theorem tape_nextRound (s : Sys S) (pos0 len : Nat) (todo : List Byte) (bw t : Nat) :
    nextRound (s.tape t) pos0 len todo bw = (nextRound s pos0 len todo bw).tape t := by
  simp only [nextRound, Sys.tape]
  split
  · rfl
  · split <;> rfl

theorem tape_srcStep {c : Cfg} (ρ : Nat → Byte) {s : Sys S} (t : Nat) :
    srcStep (c.tape ρ) (s.tape t) = (srcStep c s).map (·.tape t) := by
  cases h : s.spc <;> simp only [srcStep, h, show (s.tape t).spc = s.spc from rfl, Option.map_some, Option.map_none]
  case wWait =>
    cases h1 : s.permit <;> simp [Sys.tape, h1]
  case seekMsg x => exact congrArg some (tape_handleSeek c ρ s x t)
  case pfWrite =>
    simp only [Sys.tape, Cfg.tape]
    split <;> rfl
  case wWrite =>
    simp only [Sys.tape, Cfg.tape]
    split <;> rfl
  case pfPost len todo =>
    by_cases h1 : todo = [] <;> by_cases h2 : s.pfStart + c.prefetchBytes ≤ S.wtell s.st <;>
      simp [Sys.tape, Cfg.tape, h1, h2]
  case wChk =>
    simp only [show (s.tape t).req = s.req from rfl, show (s.tape t).st = s.st from rfl, tape_nextRound]
    split
    · split <;> rfl
    · rfl
  case wNtf => exact congrArg some (tape_nextRound { s with reached := true, log := _ } _ _ _ _ t)
  case wRep =>
    by_cases h1 : S.wtell s.st = 0
    · simp [Sys.tape, h1]
    · cases h2 : RSet.get s.dl (S.wtell s.st - 1) <;> simp [Sys.tape, h1, h2]
  case fin =>
    simp only [Sys.tape, Cfg.tape]
    split
    · split <;> rfl
    · rfl
  case onFin =>
    simp only [Sys.tape, Cfg.tape]
    split <;> rfl
  all_goals rfl

theorem tape_rdrStep {c : Cfg} (ρ : Nat → Byte) {s : Sys S} (t : Nat) :
    rdrStep (c.tape ρ) (s.tape t) = (rdrStep c s).map (·.tape t) := by
  cases h : s.rpc <;> simp only [rdrStep, h, show (s.tape t).rpc = s.rpc from rfl, Option.map_some, Option.map_none]
  case rDecide n =>
    simp only [Sys.tape, show (c.tape ρ).normalize = c.normalize from rfl]
    split
    · rfl
    · split
      · split <;> rfl
      · rfl
  case rWait =>
    by_cases h1 : s.done = true <;> by_cases h2 : s.reached = true <;> simp [Sys.tape, h1, h2]
  case sWait =>
    by_cases h1 : s.done = true <;> by_cases h2 : s.reached = true <;> simp [Sys.tape, h1, h2]
  case rCheck => by_cases h1 : s.failed = true <;> simp [Sys.tape, h1]
  case sCheck => by_cases h1 : s.failed = true <;> simp [Sys.tape, h1]
  all_goals first
    | (simp only [Sys.tape]; done)
    | (simp only [Sys.tape]; rfl)
    | (simp only [Sys.tape]; split <;> rfl)

/-- What does not concern the transport does not depend on the tape. -/
theorem tape_step {c : Cfg} (ρ : Nat → Byte) {s : Sys S} {a : Act} (ha : a.ofTransport = false) (t : Nat) :
    step (c.tape ρ) (s.tape t) a = (step c s a).map (·.tape t) := by
  cases a <;> simp only [Act.ofTransport] at ha <;> try cases ha
  case src => exact tape_srcStep ρ t
  case rdr => exact tape_rdrStep ρ t
  case eof =>
    by_cases h1 : s.spc = .sel
    · simp only [step]
      rw [if_pos (show (s.tape t).spc = .sel from h1), if_pos h1]
      exact congrArg some (tape_handleEof { s with tend := true, log := _ } t)
    · simp only [step]
      rw [if_neg (show ¬ ((s.tape t).spc = .sel) from h1), if_neg h1]
      rfl
  case chunkErr =>
    by_cases h1 : s.spc = .sel <;> simp [step, Sys.tape, h1]
  case timeout =>
    by_cases h1 : s.spc = .sel <;> simp [step, Sys.tape, h1]
  case seeCancel =>
    by_cases h1 : s.spc = .sel ∧ s.cancelled = true <;> simp [step, Sys.tape, h1]
  case read n =>
    by_cases h1 : s.rpc = .idle
    · simp only [step]
      rw [if_pos (show (s.tape t).rpc = .idle from h1), if_pos h1, Option.map_some]
      refine congrArg some ?_
      simp only [callRead, Sys.tape, show (c.tape ρ).excessiveRead = c.excessiveRead from rfl]
      split
      · rfl
      · split <;> rfl
    · simp only [step]
      rw [if_neg (show ¬ ((s.tape t).rpc = .idle) from h1), if_neg h1]
      rfl
  case seek f =>
    by_cases h1 : s.rpc = .idle ∧ f.valid = true
    · simp only [step]
      rw [if_pos (show (s.tape t).rpc = .idle ∧ f.valid = true from h1), if_pos h1, Option.map_some]
      refine congrArg some ?_
      simp only [callSeek, Sys.tape, show (c.tape ρ).absolute = c.absolute from rfl,
        show (c.tape ρ).normalize = c.normalize from rfl, show (c.tape ρ).excessiveSeek = c.excessiveSeek from rfl]
      split
      · rfl
      · split
        · rfl
        · rfl
        · split <;> rfl
    · simp only [step]
      rw [if_neg (show ¬ ((s.tape t).rpc = .idle ∧ f.valid = true) from h1), if_neg h1]
      rfl
  case drop =>
    by_cases h1 : s.rpc = .idle <;> simp [step, Sys.tape, Cfg.tape, h1]
  all_goals
    simp only [step, Sys.tape]
    first | rfl | (split <;> rfl)

/-- Where the tape is after an action. -/
def tapeNext (w : HSys S) (t : Nat) : HAct → Nat
  | .sys _ => t
  | .chunk n => t + n
  | .seekRange answer =>
    match w.sys.spc with
    | .seeking start stop =>
      match (w.http.seekRange answer start stop).res, S.wseek w.sys.st start with
      | .ok _, .ok _ => t + start + 1
      | _, _ => t
    | _ => t
  | .reconnect answer =>
    match w.sys.spc with
    | .reconn p =>
      match (w.http.reconnect answer p).res with
      | .ok _ => t + 1
      | _ => t
    | _ => t

/-- The task never asks for a range that ends at 0. -/
def NoZero (s : Sys S) : Prop := ∀ start, s.spc ≠ .seeking start (some 0)

theorem nextGap_pos {s : RSet} {lo hi x y : Nat} (h : RSet.nextGap s lo hi = some (x, y)) : 0 < y := by
  induction s generalizing lo with
  | nil => simp only [RSet.nextGap] at h; grind
  | cons r s ih => simp only [RSet.nextGap] at h; grind

theorem NoZero.step {c : Cfg} {s s' : Sys S} {a : Act} (h : NoZero s) (hs : step c s a = some s') : NoZero s' := by
  intro start e
  have ht := tr_of_step hs
  have := h start
  cases ht <;> grind [roundPc, startPc, → nextGap_pos]

theorem NoZero.hstep {c : Cfg} {w w' : HSys S} {a : HAct} (h : NoZero w.sys) (hs : hstep c w a = some w') :
    NoZero w'.sys := by
  cases a with
  | sys a =>
    simp only [SD.hstep] at hs
    split at hs
    · cases hs
    · split at hs
      · next s e => cases hs; exact h.step e
      · cases hs
  | chunk n =>
    simp only [SD.hstep] at hs
    split at hs
    · next e =>
      cases hs
      intro start
      simp only [handleChunk, startWrite]
      split
      · simp
      · split <;> split <;> simp
    · cases hs
  | seekRange answer =>
    simp only [SD.hstep] at hs
    split at hs
    · split at hs
      · split at hs
        · next e => cases hs; exact h.step e
        · cases hs
      · split at hs
        · next e => cases hs; exact h.step e
        · cases hs
      · cases hs; intro start; simp
    · cases hs
  | reconnect answer =>
    simp only [SD.hstep] at hs
    split at hs
    · split at hs
      · split at hs
        · next e => cases hs; exact h.step e
        · cases hs
      · split at hs
        · next e => cases hs; exact h.step e
        · cases hs
      · cases hs; intro start; simp
    · cases hs

theorem seekRange_no_panic {h : HttpStream} {answer : Answer} {start : Nat} {stop : Option Nat} (hs : stop ≠ some 0) :
    (h.seekRange answer start stop).res ≠ .panic := by
  unfold HttpStream.seekRange
  split
  · simp
  · simp only [hs, if_false]
    split
    · simp
    · split <;> simp

theorem reconnect_no_panic {h : HttpStream} {answer : Answer} {pos : Nat} :
    (h.reconnect answer pos).res ≠ .panic := by
  unfold HttpStream.reconnect
  split
  · exact seekRange_no_panic nofun
  · split <;> simp

/-- One action, seen by the system with the tape. -/
theorem hstep_tape {c : Cfg} {w w' : HSys S} {a : HAct} {ρ : Nat → Byte} {t : Nat} (hz : NoZero w.sys)
    (h : hstep c w a = some w') (hρ : ∀ n, a = .chunk n → slice ρ t n = w.http.stream.take n) :
    ∃ x, a.Is x ∧ step (c.tape ρ) (w.sys.tape t) x = some (w'.sys.tape (tapeNext w t a)) := by
  cases a with
  | sys a =>
    simp only [hstep] at h
    split at h
    · cases h
    · next ha =>
      have ha : a.ofTransport = false := by simpa using ha
      split at h
      · next s e =>
        cases h
        exact ⟨a, .sys a ha, by rw [tape_step ρ ha, e]; rfl⟩
      · cases h
  | chunk n =>
    simp only [hstep] at h
    split at h
    · next e =>
      cases h
      refine ⟨.chunk n, .chunk n, ?_⟩
      simp only [step]
      rw [if_pos ⟨e.1, e.2.1, rfl, rfl⟩]
      refine congrArg some ?_
      have := hρ n rfl
      simp only [show (c.tape ρ).remote = ρ from rfl, show (w.sys.tape t).tpos = t from rfl, this]
      exact tape_handleChunk { w.sys with tpos := w.sys.tpos + n, log := _ } _ (t + n)
    · cases h
  | seekRange answer =>
    simp only [hstep] at h
    split at h
    · next start stop hsp =>
      split at h
      · next hr =>
        split at h
        · next s e =>
          cases h
          refine ⟨.seekOk (t + start + 1), .seekOk answer _, ?_⟩
          simp only [step, hsp] at e
          simp only [step, show (w.sys.tape t).spc = w.sys.spc from rfl, show (w.sys.tape t).st = w.sys.st from rfl, hsp,
            tapeNext, hr]
          cases hw : S.wseek w.sys.st start with
          | ok st' =>
            rw [hw] at e
            cases e
            simp only [Sys.tape, if_neg (show ¬ t + start + 1 = start by omega)]
          | err k =>
            rw [hw] at e
            cases e
            rfl
          | panic =>
            rw [hw] at e
            cases e
            rfl
        · cases h
      · next k hr =>
        split at h
        · next s e =>
          cases h
          refine ⟨.seekFail k, .seekFail answer k, ?_⟩
          simp only [step, hsp] at e
          cases e
          simp only [step, show (w.sys.tape t).spc = w.sys.spc from rfl, hsp, tapeNext, hr]
          rfl
        · cases h
      · next hr =>
        exact absurd hr (seekRange_no_panic (fun e => hz start (by rw [hsp, e])))
    · cases h
  | reconnect answer =>
    simp only [hstep] at h
    split at h
    · next p hsp =>
      split at h
      · next hr =>
        split at h
        · next s e =>
          cases h
          refine ⟨.reconnOk (t + 1), .reconnOk answer _, ?_⟩
          simp only [step, hsp] at e
          cases e
          simp only [step, show (w.sys.tape t).spc = w.sys.spc from rfl, hsp, tapeNext, hr]
          rfl
        · cases h
      · next k hr =>
        split at h
        · next s e =>
          cases h
          refine ⟨.reconnFail, .reconnFail answer, ?_⟩
          simp only [step, hsp] at e
          cases e
          simp only [step, show (w.sys.tape t).spc = w.sys.spc from rfl, hsp, tapeNext, hr]
          rfl
        · cases h
      · next hr => exact absurd hr reconnect_no_panic
    · cases h

/-- Where the tape is at each time of a history. -/
def tapeAt (r : Nat → HSys S) (act : Nat → Option HAct) : Nat → Nat
  | 0 => 0
  | i + 1 =>
    match act i with
    | none => tapeAt r act i
    | some a => tapeNext (r i) (tapeAt r act i) a

theorem tapeNext_le (w : HSys S) (t : Nat) (a : HAct) : t ≤ tapeNext w t a := by
  cases a <;> simp only [tapeNext]
  · exact Nat.le_refl _
  · omega
  · split
    · split <;> omega
    · omega
  · split
    · split <;> omega
    · omega

theorem tapeAt_le (r : Nat → HSys S) (act : Nat → Option HAct) (i : Nat) : tapeAt r act i ≤ tapeAt r act (i + 1) := by
  simp only [tapeAt]
  split
  · exact Nat.le_refl _
  · exact tapeNext_le _ _ _

theorem tapeAt_mono (r : Nat → HSys S) (act : Nat → Option HAct) {i j : Nat} (h : i ≤ j) :
    tapeAt r act i ≤ tapeAt r act j := by
  induction h with
  | refl => exact Nat.le_refl _
  | step _ ih => exact Nat.le_trans ih (tapeAt_le r act _)

open Classical in
/-- The tape: what arrives at each time. -/
noncomputable def theTape (r : Nat → HSys S) (act : Nat → Option HAct) (p : Nat) : Byte :=
  if h : ∃ i n, act i = some (.chunk n) ∧ tapeAt r act i ≤ p ∧ p < tapeAt r act i + n then
    (r h.choose).http.stream.getD (p - tapeAt r act h.choose) 0
  else 0

theorem theTape_chunk {r : Nat → HSys S} {act : Nat → Option HAct} {i n : Nat} (ha : act i = some (.chunk n))
    (hn : n ≤ (r i).http.stream.length) : slice (theTape r act) (tapeAt r act i) n = (r i).http.stream.take n := by
  apply List.ext_getElem
  · simp [slice]; omega
  · intro k h1 h2
    have hk : k < n := by simpa [slice] using h1
    have hex : ∃ i' n', act i' = some (.chunk n') ∧ tapeAt r act i' ≤ tapeAt r act i + k ∧
        tapeAt r act i + k < tapeAt r act i' + n' := ⟨i, n, ha, by omega, by omega⟩
    have hi : hex.choose = i := by
      obtain ⟨n', e1, e2, e3⟩ := hex.choose_spec
      generalize hex.choose = j at e1 e2 e3
      have s1 : tapeAt r act (i + 1) = tapeAt r act i + n := by simp [tapeAt, ha, tapeNext]
      have s2 : tapeAt r act (j + 1) = tapeAt r act j + n' := by simp [tapeAt, e1, tapeNext]
      rcases Nat.lt_trichotomy i j with h | h | h
      · have := tapeAt_mono r act (show i + 1 ≤ j from h); omega
      · exact h.symm
      · have := tapeAt_mono r act (show j + 1 ≤ i from h); omega
    have e : theTape r act (tapeAt r act i + k) = (r i).http.stream.getD k 0 := by
      unfold theTape
      rw [dif_pos hex, hi, Nat.add_sub_cancel_left]
    simp only [slice, List.getElem_map, List.getElem_range, e, List.getElem_take]
    rw [List.getD_eq_getElem?_getD, List.getElem?_eq_getElem (by omega)]
    rfl

/-- A history with any server is a history of the system with the tape. -/
theorem any_server {c : Cfg} {w0 : HSys S} {r : Nat → HSys S} {act : Nat → Option HAct} (hz : NoZero w0.sys)
    (hr : Run (hstep c) w0 r act) :
    ∃ (ρ : Nat → Byte) (act' : Nat → Option Act) (t : Nat → Nat), Exec (c.tape ρ) (w0.sys.tape 0) (fun i => (r i).sys.tape (t i)) act' ∧
      (∀ i x, act' i = some x → ∃ a, act i = some a ∧ a.Is x) ∧
      ∀ i a, act i = some a → ∃ x, act' i = some x ∧ a.Is x := by
  have hz' : ∀ i, NoZero (r i).sys := by
    intro i
    induction i with
    | zero => rw [hr.start]; exact hz
    | succ i ih =>
      cases ha : act i with
      | none => rw [hr.pause i ha]; exact ih
      | some a => exact ih.hstep (hr.next i a ha)
  let f : HSys S × Nat → HAct → Option (HSys S × Nat) := fun v a =>
    (hstep c v.1 a).map fun w' => (w', tapeNext v.1 v.2 a)
  have hrun : Run f (w0, 0) (fun i => (r i, tapeAt r act i)) act := by
    refine ⟨by simp [hr.start, tapeAt], fun i hi => ?_, fun i a ha => ?_⟩
    · simp [hr.pause i hi, tapeAt, hi]
    · simp [f, hr.next i a ha, tapeAt, ha]
  obtain ⟨act', h1, h2, h3⟩ := lift_exec (c := c.tape (theTape r act)) (fun v : HSys S × Nat => v.1.sys.tape v.2)
    (Q := fun _ a x => a.Is x) hrun (fun i a ha => by
      obtain ⟨x, k1, k2⟩ := hstep_tape (ρ := theTape r act) (t := tapeAt r act i) (hz' i) (hr.next i a ha)
        (fun n e => by
          subst e
          have := hr.next i _ ha
          simp only [hstep] at this
          split at this
          · next e => exact theTape_chunk ha e.2.2.2
          · cases this)
      refine ⟨x, k1, ?_⟩
      rw [k2]
      simp [tapeAt, ha])
  exact ⟨_, act', _, h1, h2, h3⟩

end SD
