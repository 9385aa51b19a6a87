import Verif.Spec.Tso
import Verif.Proof.Sys.Trans

/-! # What delayed stores can change -/

namespace SD

variable {S : Storage}

/-- An action that is not one of the consumer. -/
def Act.other : Act → Bool
  | .rdr | .read _ | .seek _ | .drop => false
  | _ => true

/-- Another stored wake-up, the consumer somewhere else. -/
def Sys.re (s : Sys S) (p : Bool) (q : RdrPc) : Sys S := { s with permit := p, rpc := q }

theorem re_handleSeek (c : Cfg) (s : Sys S) (x : Nat) (p : Bool) (q : RdrPc) :
    handleSeek c (s.re p q) x = (handleSeek c s x).re p q := by
  simp only [handleSeek, show (s.re p q).st = s.st from rfl, show (s.re p q).dl = s.dl from rfl,
    show (s.re p q).pfDone = s.pfDone from rfl]
  generalize hb : (!if (!c.supportsSeek) = true then false else
    match s.dl.get x with
    | some (a, b) => !(decide (a ≤ S.wtell s.st) && decide (S.wtell s.st < b))
    | none => true) = b
  cases b <;> cases h1 : s.pfDone <;> cases h2 : c.contentLength <;>
    simp only [Bool.false_eq_true, if_false, if_true, Sys.re] <;> split <;> rfl

theorem re_startWrite (s : Sys S) (bs : List Byte) (p : Bool) (q : RdrPc) :
    startWrite (s.re p q) bs = (startWrite s bs).re p q := by
  simp only [startWrite, Sys.re]
  split <;> rfl

theorem re_handleChunk (s : Sys S) (bs : List Byte) (p : Bool) (q : RdrPc) :
    handleChunk (s.re p q) bs = (handleChunk s bs).re p q := by
  simp only [handleChunk, show (s.re p q).pfDone = s.pfDone from rfl, show (s.re p q).rem = s.rem from rfl]
  cases s.pfDone
  · rfl
  · cases s.rem
    · exact re_startWrite s _ p q
    · exact re_startWrite { s with rem := none, pfDone := true } _ p q

theorem re_handleEof (s : Sys S) (p : Bool) (q : RdrPc) :
    handleEof (s.re p q) = (handleEof s).re p q := by
  simp only [handleEof, show (s.re p q).pfDone = s.pfDone from rfl, show (s.re p q).rem = s.rem from rfl]
  cases s.pfDone
  · rfl
  · cases s.rem
    · rfl
    · exact re_startWrite { s with rem := none, pfDone := true } _ p q

theorem re_nextRound (s : Sys S) (pos0 len : Nat) (todo : List Byte) (bw : Nat) (p : Bool) (q : RdrPc) :
    nextRound (s.re p q) pos0 len todo bw = (nextRound s pos0 len todo bw).re p q := by
  simp only [nextRound, Sys.re]
  split
  · rfl
  · split <;> rfl

theorem re_srcStep {c : Cfg} {s : Sys S} (hs : ∀ a b t, s.spc ≠ .wWait a b t) (p : Bool) (q : RdrPc) :
    srcStep c (s.re p q) = (srcStep c s).map (·.re p q) := by
  cases h : s.spc <;> simp only [srcStep, h, show (s.re p q).spc = s.spc from rfl, Option.map_some, Option.map_none]
  case wWait => exact absurd h (hs _ _ _)
  case seekMsg x => exact congrArg some (re_handleSeek c s x p q)
  case pfWrite =>
    simp only [Sys.re]
    split <;> rfl
  case wWrite =>
    simp only [Sys.re]
    split <;> rfl
  case pfPost len todo =>
    by_cases h1 : todo = [] <;> by_cases h2 : s.pfStart + c.prefetchBytes ≤ S.wtell s.st <;> simp [Sys.re, h1, h2]
  case wChk =>
    simp only [show (s.re p q).req = s.req from rfl, show (s.re p q).st = s.st from rfl, re_nextRound]
    split
    · split <;> rfl
    · rfl
  case wNtf => exact congrArg some (re_nextRound { s with reached := true, log := _ } _ _ _ _ p q)
  case wRep =>
    by_cases h1 : S.wtell s.st = 0
    · simp [Sys.re, h1]
    · cases h2 : RSet.get s.dl (S.wtell s.st - 1) <;> simp [Sys.re, h1, h2]
  case fin =>
    simp only [Sys.re]
    split
    · split <;> rfl
    · rfl
  case onFin =>
    simp only [Sys.re]
    split <;> rfl
  all_goals rfl

theorem re_step {c : Cfg} {s : Sys S} {a : Act} (ha : a.other = true) (hs : ∀ a b t, s.spc ≠ .wWait a b t)
    (p : Bool) (q : RdrPc) : step c (s.re p q) a = (step c s a).map (·.re p q) := by
  cases a <;> simp only [Act.other] at ha <;> try cases ha
  case src => exact re_srcStep hs p q
  case chunk n =>
    by_cases h1 : s.spc = .sel ∧ s.tend = false ∧ leOpt (s.tpos + n) s.tlim ∧ leOpt (s.tpos + n) c.remoteLen
    · simp only [step]
      rw [if_pos (show (s.re p q).spc = .sel ∧ (s.re p q).tend = false ∧
        leOpt ((s.re p q).tpos + n) (s.re p q).tlim ∧ leOpt ((s.re p q).tpos + n) c.remoteLen from h1), if_pos h1]
      exact congrArg some (re_handleChunk { s with tpos := s.tpos + n, log := _ } _ p q)
    · simp only [step]
      rw [if_neg (show ¬ ((s.re p q).spc = .sel ∧ (s.re p q).tend = false ∧
        leOpt ((s.re p q).tpos + n) (s.re p q).tlim ∧ leOpt ((s.re p q).tpos + n) c.remoteLen) from h1), if_neg h1]
      rfl
  case eof =>
    by_cases h1 : s.spc = .sel
    · simp only [step]
      rw [if_pos (show (s.re p q).spc = .sel from h1), if_pos h1]
      exact congrArg some (re_handleEof { s with tend := true, log := _ } p q)
    · simp only [step]
      rw [if_neg (show ¬ ((s.re p q).spc = .sel) from h1), if_neg h1]
      rfl
  case chunkErr =>
    by_cases h1 : s.spc = .sel <;> simp [step, Sys.re, h1]
  case timeout =>
    by_cases h1 : s.spc = .sel <;> simp [step, Sys.re, h1]
  case seeCancel =>
    by_cases h1 : s.spc = .sel ∧ s.cancelled = true <;> simp [step, Sys.re, h1]
  case seekOk x =>
    simp only [step, Sys.re]
    split
    · split <;> rfl
    · rfl
  all_goals
    simp only [step, Sys.re]
    first | rfl | (split <;> rfl)

/-- What a step does to the stored wake-up of the task. -/
theorem permit_src {c : Cfg} {s s' : Sys S} {a : Act} (h : step c s a = some s') (ha : a ≠ .rdr) :
    s'.permit = s.permit ∨ (∃ x y z, s.spc = .wWait x y z) ∧ a = .src ∧ s.permit = true ∧ s'.permit = false := by
  have ht := tr_of_step h
  cases ht <;> first | exact .inl rfl | grind

/-- A step of the task or the environment is possible with the consumer somewhere else and
with more wake-ups stored. -/
theorem sim_other {c : Cfg} {s s' : Sys S} {a : Act} (ha : a.other = true) (h : step c s a = some s') {p : Bool}
    (hp : s.permit = true → p = true) (q : RdrPc) :
    s'.rpc = s.rpc ∧
      ∃ p', (s'.permit = true → p' = true) ∧ step c (s.re p q) a = some (s'.re p' q) := by
  have hr : s'.rpc = s.rpc := by
    have ht := tr_of_step h
    cases ht <;> first | rfl | cases ha
  refine ⟨hr, ?_⟩
  by_cases hw : a = .src ∧ ∃ x y z, s.spc = .wWait x y z
  · obtain ⟨rfl, x, y, z, e⟩ := hw
    simp only [step, srcStep, e] at h
    split at h
    · next e2 =>
      simp only [Option.some.injEq] at h
      subst h
      exact ⟨false, nofun, by simp [step, srcStep, Sys.re, e, hp e2]⟩
    · cases h
  · refine ⟨p, ?_, ?_⟩
    · rcases permit_src h (by rintro rfl; cases ha) with e | ⟨e1, e2, -⟩
      · rw [e]; exact hp
      · exact absurd ⟨e2, e1⟩ hw
    · have : step c (s.re p q) a = (step c s a).map (·.re p q) := by
        by_cases hs : ∀ a b t, s.spc ≠ .wWait a b t
        · exact re_step ha hs p q
        · simp only [Classical.not_forall, Classical.not_not] at hs
          obtain ⟨x, y, z, e⟩ := hs
          have hn : a ≠ .src := fun e2 => hw ⟨e2, x, y, z, e⟩
          cases a <;> simp only [Act.other] at ha <;> try cases ha
          all_goals first | exact absurd rfl hn | skip
          all_goals simp [step, e, Sys.re]
      rw [this, h]; rfl


/-- Another stored wake-up. -/
def Sys.pe (s : Sys S) (p : Bool) : Sys S := { s with permit := p }

theorem pe_rdrStep {c : Cfg} {s : Sys S} (h1 : ∀ n r, s.rpc ≠ .rNotify n r) (h2 : s.rpc ≠ .rWake) (p : Bool) :
    rdrStep c (s.pe p) = (rdrStep c s).map (·.pe p) := by
  cases h : s.rpc <;> simp only [rdrStep, h, show (s.pe p).rpc = s.rpc from rfl, Option.map_some, Option.map_none]
  case rNotify => exact absurd h (h1 _ _)
  case rWake => exact absurd h h2
  case rDecide n =>
    by_cases e1 : two64 ≤ (S.tell s.st).1 + n
    · simp [Sys.pe, e1]
    · cases e2 : RSet.get s.dl (S.tell s.st).1 with
      | none => simp [Sys.pe, e1, e2]
      | some r => by_cases e3 : c.normalize ((S.tell s.st).1 + n) ≤ r.2 <;> simp [Sys.pe, e1, e2, e3]
  case rWait =>
    cases e1 : s.done <;> cases e2 : s.reached <;> simp [Sys.pe, e1, e2]
  case sWait =>
    cases e1 : s.done <;> cases e2 : s.reached <;> simp [Sys.pe, e1, e2]
  case rCheck =>
    cases e1 : s.failed <;> simp [Sys.pe, e1]
  case sCheck =>
    cases e1 : s.failed <;> simp [Sys.pe, e1]
  case rRead n f =>
    cases e1 : S.read s.st n <;> simp [Sys.pe, e1]
  case sDecide n =>
    cases e1 : RSet.get s.dl n <;> simp [Sys.pe, e1]
  case sSeek n =>
    cases e1 : S.rseek s.st n <;> simp [Sys.pe, e1]
  all_goals rfl

theorem pe_callRead (c : Cfg) (s : Sys S) (n : Nat) (p : Bool) : callRead c (s.pe p) n = (callRead c s n).pe p := by
  cases e1 : s.failed <;> cases e2 : c.excessiveRead n <;> simp [callRead, Sys.pe, e1, e2]

theorem pe_callSeek (c : Cfg) (s : Sys S) (f : SeekFrom) (p : Bool) :
    callSeek c (s.pe p) f = (callSeek c s f).pe p := by
  cases e1 : s.failed with
  | true => simp [callSeek, Sys.pe, e1]
  | false =>
    cases e2 : c.absolute (S.tell s.st).1 f with
    | ok x =>
      cases e3 : c.excessiveSeek (S.tell s.st).1 (c.normalize x) <;> simp [callSeek, Sys.pe, e1, e2, e3]
    | err k => simp [callSeek, Sys.pe, e1, e2]
    | panic => simp [callSeek, Sys.pe, e1, e2]

/-- A step of the consumer is possible with more wake-ups stored. -/
theorem sim_consumer {c : Cfg} {s s' : Sys S} {a : Act} (ha : a.other = false) (h : step c s a = some s') {p : Bool}
    (hp : s.permit = true → p = true) :
    ∃ p', (s'.permit = true → p' = true) ∧ step c (s.pe p) a = some (s'.pe p') := by
  have key : (∃ n r, s.rpc = .rNotify n r) ∧ a = .rdr ∨ s.rpc = .rWake ∧ a = .rdr ∨
      s'.permit = s.permit ∧ step c (s.pe p) a = (step c s a).map (·.pe p) := by
    cases a <;> simp only [Act.other] at ha <;> try cases ha
    case rdr =>
      by_cases h1 : ∃ n r, s.rpc = .rNotify n r
      · exact .inl ⟨h1, rfl⟩
      · by_cases h2 : s.rpc = .rWake
        · exact .inr (.inl ⟨h2, rfl⟩)
        · refine .inr (.inr ⟨?_, pe_rdrStep (fun n r e => h1 ⟨n, r, e⟩) h2 p⟩)
          have ht := tr_of_step h
          generalize e : Act.rdr = a at ht
          cases ht <;> first | rfl | grind
    case read n =>
      refine .inr (.inr ⟨?_, ?_⟩)
      · have ht := tr_of_step h
        generalize e : Act.read n = a at ht
        cases ht <;> first | rfl | cases e
      · by_cases e : s.rpc = .idle
        · simp only [step]
          rw [if_pos (show (s.pe p).rpc = .idle from e), if_pos e]
          exact congrArg some (pe_callRead c s n p)
        · simp only [step]
          rw [if_neg (show ¬ (s.pe p).rpc = .idle from e), if_neg e]
          rfl
    case seek f =>
      refine .inr (.inr ⟨?_, ?_⟩)
      · have ht := tr_of_step h
        generalize e : Act.seek f = a at ht
        cases ht <;> first | rfl | cases e
      · by_cases e : s.rpc = .idle ∧ f.valid
        · simp only [step]
          rw [if_pos (show (s.pe p).rpc = .idle ∧ f.valid from e), if_pos e]
          exact congrArg some (pe_callSeek c s f p)
        · simp only [step]
          rw [if_neg (show ¬ ((s.pe p).rpc = .idle ∧ f.valid) from e), if_neg e]
          rfl
    case drop =>
      refine .inr (.inr ⟨?_, ?_⟩)
      · have ht := tr_of_step h
        generalize e : Act.drop = a at ht
        cases ht <;> first | rfl | cases e
      · by_cases e : s.rpc = .idle <;> simp [step, Sys.pe, e]
  rcases key with ⟨⟨n, r, e⟩, rfl⟩ | ⟨e, rfl⟩ | ⟨e1, e2⟩
  · simp only [step, rdrStep, e, Option.some.injEq] at h
    subst h
    exact ⟨true, fun _ => rfl, by simp [step, rdrStep, Sys.pe, e]⟩
  · simp only [step, rdrStep, e, Option.some.injEq] at h
    subst h
    exact ⟨true, fun _ => rfl, by simp [step, rdrStep, Sys.pe, e]⟩
  · exact ⟨p, by rw [e1]; exact hp, by rw [e2, h]; rfl⟩

/-- Where the system without a store buffer is when the consumer is at `q` with `b` in its
store buffer: its store has not happened yet. -/
def behind (w : Bool) : Option Nat → RdrPc → Option RdrPc
  | none, q => some q
  | some r, .rLoad n r' => if r' = r then some (.rSet n r) else none
  | some r, .rWait n r' => if r' = r then some (.rSet n r) else none
  | some r, .rNotify n r' => if r' = r ∧ w = true then some (.rSet n r) else none
  | some r, .sSend r' => if r' = r then some (.sSet r) else none
  | some _, _ => none

/-- The simulation. -/
def TSim (t : TSys S) (s : Sys S) : Prop :=
  ∃ p q, (t.sys.permit = true → p = true) ∧ behind t.sys.writeReq t.buf t.sys.rpc = some q ∧ s = t.sys.re p q

theorem TSim.place {t : TSys S} {s : Sys S} (h : TSim t s) : SameButPlace t.sys s := by
  obtain ⟨p, q, -, -, rfl⟩ := h
  exact ⟨p, q, rfl⟩

theorem writeReq_other {c : Cfg} {s s' : Sys S} {a : Act} (ha : a.other = true) (h : step c s a = some s') :
    s.writeReq = true → s'.writeReq = true := by
  intro e
  have ht := tr_of_step h
  cases ht <;> first | exact e | rfl | cases ha

theorem tstep_empty {c : Cfg} {t t' : TSys S} {a : Act} (ha : a.other = false) (hbuf : t.buf = none)
    (h1 : ¬ (a = .rdr ∧ ((∃ n r, t.sys.rpc = .rSet n r) ∨ ∃ r, t.sys.rpc = .sSet r)))
    (h : tstep c t (.act a) = some t') : ∃ s1, step c t.sys a = some s1 ∧ t' = { t with sys := s1 } := by
  cases a <;> simp only [Act.other] at ha <;> try cases ha
  all_goals simp only [tstep] at h
  case rdr =>
    split at h
    · next e => exact absurd ⟨rfl, .inl ⟨_, _, e⟩⟩ h1
    · next e => exact absurd ⟨rfl, .inr ⟨_, e⟩⟩ h1
    · split at h
      · next s1 e => exact ⟨s1, e, by simpa using h.symm⟩
      · cases h
    · rw [if_pos hbuf] at h
      split at h
      · next s1 e => exact ⟨s1, e, by simpa using h.symm⟩
      · cases h
  all_goals
    split at h
    · next s1 e => exact ⟨s1, e, by simpa using h.symm⟩
    · cases h

theorem tstep_full {c : Cfg} {t t' : TSys S} {a : Act} {r : Nat} {q : RdrPc} (ha : a.other = false)
    (hbuf : t.buf = some r) (hb : behind t.sys.writeReq (some r) t.sys.rpc = some q)
    (h : tstep c t (.act a) = some t') :
    ∃ n, t.sys.rpc = .rLoad n r ∧ q = .rSet n r ∧
      t' = { t with sys := { t.sys with rpc := if t.sys.writeReq then .rNotify n r else .rWait n r } } := by
  have hi : t.sys.rpc ≠ .idle := by
    intro e; rw [e] at hb; cases hb
  cases a <;> simp only [Act.other] at ha <;> try cases ha
  case rdr =>
    cases hq : t.sys.rpc <;> rw [hq] at hb <;> simp only [behind, reduceCtorEq] at hb <;>
      simp only [tstep, hq, hbuf, reduceCtorEq, if_false] at h
    case rLoad n r' =>
      simp only [step, rdrStep, hq, Option.some.injEq] at h
      split at hb
      · next e =>
        simp only [Option.some.injEq] at hb
        subst e
        exact ⟨n, rfl, hb.symm, by rw [← h, hbuf]⟩
      · cases hb
  all_goals simp [tstep, step, hi] at h

/-- One step of the system without a store buffer, or none. -/
def Opt (c : Cfg) (s : Sys S) : Option Act → Sys S → Prop
  | none, s' => s' = s
  | some a, s' => step c s a = some s'

theorem Opt.reach {c : Cfg} {G : Sys S → Act → Prop} {s0 s s' : Sys S} {o : Option Act} (h : Opt c s o s')
    (hr : Reach c G s0 s) (hg : ∀ a, o = some a → G s a) : Reach c G s0 s' := by
  cases o with
  | none => cases h; exact hr
  | some a => exact hr.step (hg a rfl) h

/-- What the system without a store buffer does during one step of the system with one: at
most three steps. -/
structure Slots (S : Storage) where
  s : Sys S
  s1 : Sys S
  s2 : Sys S
  s3 : Sys S
  a0 : Option Act
  a1 : Option Act
  a2 : Option Act

/-- On the way to the state `s'`. -/
def Midway (s s' : Sys S) : Prop :=
  s = s' ∨ (SameButPlace s' s ∧ s.rpc ≠ .idle ∧ s.rpc ≠ .panicked)

/-- The slots hold a history that corresponds to what happens in the system with a store
buffer. -/
structure Slots.Fits (x : Slots S) (c : Cfg) (t : TSys S) (o : Option TAct) (t' : TSys S) : Prop where
  sim : TSim t' x.s3
  step0 : Opt c x.s x.a0 x.s1
  step1 : Opt c x.s1 x.a1 x.s2
  step2 : Opt c x.s2 x.a2 x.s3
  mid1 : Midway x.s1 x.s3
  mid2 : Midway x.s2 x.s3
  rdr1 : ∀ a, x.a1 = some a → a = .rdr
  rdr2 : ∀ a, x.a2 = some a → a = .rdr
  other : ∀ a, o = some (.act a) → x.a0 = some a ∨ (a = .rdr ∧ t'.buf ≠ none)
  act : ∀ a, x.a0 = some a → a = .rdr ∨ o = some (.act a)
  drain : o = some .drain → x.a0 = some .rdr
  full : t.buf ≠ none → o ≠ some .drain → t'.buf ≠ none

/-- Nothing happens. -/
theorem fits_stay {c : Cfg} {s : Sys S} {t t' : TSys S} {o : Option TAct} (h : TSim t' s)
    (ho : ∀ a, o = some (.act a) → a = .rdr ∧ t'.buf ≠ none) (hd : o ≠ some .drain)
    (hf : t.buf ≠ none → t'.buf ≠ none) :
    Slots.Fits ⟨s, s, s, s, none, none, none⟩ c t o t' where
  sim := h
  step0 := rfl
  step1 := rfl
  step2 := rfl
  mid1 := .inl rfl
  mid2 := .inl rfl
  rdr1 _ h := nomatch h
  rdr2 _ h := nomatch h
  other a h := .inr (ho a h)
  act _ h := nomatch h
  drain h := absurd h hd
  full h _ := hf h

/-- The same happens. -/
theorem fits_same {c : Cfg} {s s' : Sys S} {t t' : TSys S} {a : Act} (h : TSim t' s') (hs : step c s a = some s')
    (hf : t.buf ≠ none → t'.buf ≠ none) :
    Slots.Fits ⟨s, s', s', s', some a, none, none⟩ c t (some (.act a)) t' where
  sim := h
  step0 := hs
  step1 := rfl
  step2 := rfl
  mid1 := .inl rfl
  mid2 := .inl rfl
  rdr1 _ h := nomatch h
  rdr2 _ h := nomatch h
  other b h := .inl (by simpa using h)
  act b h := .inr (by simpa using h)
  drain h := nomatch h
  full h _ := hf h

theorem tsim_step {c : Cfg} {s : Sys S} {t t' : TSys S} {a : Act} (hs : TSim t s)
    (h : tstep c t (.act a) = some t') : ∃ x : Slots S, x.s = s ∧ x.Fits c t (some (.act a)) t' := by
  obtain ⟨p, q, hp, hb, rfl⟩ := hs
  cases ha : a.other with
  | true =>
    obtain ⟨s1, e1, e2⟩ : ∃ s1, step c t.sys a = some s1 ∧ t' = { t with sys := s1 } := by
      cases a <;> simp only [Act.other] at ha <;> try cases ha
      all_goals
        simp only [tstep] at h
        split at h
        · next s1 e => exact ⟨s1, e, by simpa using h.symm⟩
        · cases h
    subst e2
    obtain ⟨e3, p', h1, h2⟩ := sim_other ha e1 hp q
    refine ⟨_, rfl, fits_same (s := t.sys.re p q) ⟨p', q, h1, ?_, rfl⟩ h2 (fun h => h)⟩
    dsimp only
    rw [e3]
    cases hbuf : t.buf with
    | none => rw [hbuf] at hb; exact hb
    | some r =>
      rw [hbuf] at hb
      cases hq : t.sys.rpc <;> rw [hq] at hb <;> simp only [behind] at hb ⊢ <;> try exact hb
      split at hb
      · next e => rw [if_pos ⟨e.1, writeReq_other ha e1 e.2⟩]; exact hb
      · cases hb
  | false =>
    cases hbuf : t.buf with
    | none =>
      rw [hbuf] at hb
      simp only [behind, Option.some.injEq] at hb
      subst hb
      by_cases h1 : a = .rdr ∧ ((∃ n r, t.sys.rpc = .rSet n r) ∨ ∃ r, t.sys.rpc = .sSet r)
      · obtain ⟨rfl, ⟨n, r, e⟩ | ⟨r, e⟩⟩ := h1
        · simp only [tstep, e, Option.some.injEq] at h
          subst h
          exact ⟨_, rfl, fits_stay ⟨p, .rSet n r, hp, by simp [behind], by rw [e]; rfl⟩
            (fun a ha => ⟨by simpa using ha.symm, by simp⟩) (by simp) (by simp)⟩
        · simp only [tstep, e, Option.some.injEq] at h
          subst h
          exact ⟨_, rfl, fits_stay ⟨p, .sSet r, hp, by simp [behind], by rw [e]; rfl⟩
            (fun a ha => ⟨by simpa using ha.symm, by simp⟩) (by simp) (by simp)⟩
      · obtain ⟨s1, e1, rfl⟩ := tstep_empty ha hbuf h1 h
        obtain ⟨p', h1, h2⟩ := sim_consumer ha e1 hp
        exact ⟨_, rfl, fits_same ⟨p', s1.rpc, h1, by simp [behind, hbuf], rfl⟩ h2 (fun h => h)⟩
    | some r =>
      rw [hbuf] at hb
      obtain ⟨n, e1, rfl, rfl⟩ := tstep_full ha hbuf hb h
      have ha' : a = .rdr := by
        cases a <;> simp only [Act.other] at ha <;> try cases ha
        case rdr => rfl
        all_goals simp [tstep, step, e1] at h
      subst ha'
      refine ⟨_, rfl, fits_stay ⟨p, .rSet n r, hp, ?_, rfl⟩
        (fun a ha => ⟨by simpa using ha.symm, by simp [hbuf]⟩) (by simp) (by simp)⟩
      rw [hbuf]
      rcases Bool.eq_false_or_eq_true t.sys.writeReq with e | e <;> simp [behind, e]

/-- The buffer is emptied: the system without a buffer makes the store, and catches up. -/
theorem fits_drain {c : Cfg} {s s1 s2 s3 : Sys S} {t t' : TSys S} {a1 a2 : Option Act} (h : TSim t' s3)
    (h0 : step c s .rdr = some s1) (h1 : Opt c s1 a1 s2) (h2 : Opt c s2 a2 s3) (m1 : Midway s1 s3)
    (m2 : Midway s2 s3) (r1 : ∀ a, a1 = some a → a = .rdr) (r2 : ∀ a, a2 = some a → a = .rdr) :
    Slots.Fits ⟨s, s1, s2, s3, some .rdr, a1, a2⟩ c t (some .drain) t' where
  sim := h
  step0 := h0
  step1 := h1
  step2 := h2
  mid1 := m1
  mid2 := m2
  rdr1 := r1
  rdr2 := r2
  other _ h := nomatch h
  act b h := .inl (by simpa using h.symm)
  drain _ := rfl
  full _ h := absurd rfl h

theorem tsim_drain {c : Cfg} {s : Sys S} {t t' : TSys S} (hs : TSim t s) (h : tstep c t .drain = some t') :
    ∃ x : Slots S, x.s = s ∧ x.Fits c t (some .drain) t' := by
  obtain ⟨p, q, hp, hb, rfl⟩ := hs
  simp only [tstep] at h
  split at h
  · next r hbuf =>
    simp only [Option.some.injEq] at h
    subst h
    rw [hbuf] at hb
    cases hq : t.sys.rpc <;> rw [hq] at hb <;> simp only [behind, reduceCtorEq] at hb
    case rLoad n r' =>
      split at hb <;> simp only [Option.some.injEq, reduceCtorEq] at hb
      next e =>
      subst e; subst hb
      refine ⟨_, rfl, fits_drain (a1 := none) (a2 := none) ⟨p, .rLoad n r', hp, by simp [behind], rfl⟩ ?_ rfl rfl
        (.inl rfl) (.inl rfl) (fun _ h => nomatch h) (fun _ h => nomatch h)⟩
      simp [step, rdrStep, Sys.re]
    case rNotify n r' =>
      split at hb <;> simp only [Option.some.injEq, reduceCtorEq] at hb
      next e =>
      obtain ⟨rfl, e⟩ := e
      subst hb
      refine ⟨_, rfl, fits_drain (a1 := some .rdr) (a2 := none) ⟨p, .rNotify n r', hp, by simp [behind], rfl⟩ rfl
        ?_ rfl (.inr ⟨⟨p, .rLoad n r', rfl⟩, by simp [Sys.re], by simp [Sys.re]⟩) (.inl rfl)
        (fun _ h => by simpa using h.symm) (fun _ h => nomatch h)⟩
      simp [Opt, step, rdrStep, Sys.re, e]
    case rWait n r' =>
      split at hb <;> simp only [Option.some.injEq, reduceCtorEq] at hb
      next e =>
      subst e; subst hb
      rcases Bool.eq_false_or_eq_true t.sys.writeReq with e | e
      rotate_left
      · refine ⟨_, rfl, fits_drain (a1 := some .rdr) (a2 := none) ⟨p, .rWait n r', hp, by simp [behind], rfl⟩ rfl
          ?_ rfl (.inr ⟨⟨p, .rLoad n r', rfl⟩, by simp [Sys.re], by simp [Sys.re]⟩) (.inl rfl)
          (fun _ h => by simpa using h.symm) (fun _ h => nomatch h)⟩
        simp [Opt, step, rdrStep, Sys.re, e]
      · refine ⟨_, rfl, fits_drain (a1 := some .rdr) (a2 := some .rdr)
          (s2 := { t.sys.re p (.rNotify n r') with req := storeReq r', log := .request r' :: t.sys.log })
          ⟨true, .rWait n r', fun _ => rfl, by simp [behind], rfl⟩ rfl
          ?_ rfl (.inr ⟨⟨p, .rLoad n r', rfl⟩, by simp [Sys.re], by simp [Sys.re]⟩)
          (.inr ⟨⟨p, .rNotify n r', rfl⟩, by simp [Sys.re], by simp [Sys.re]⟩)
          (fun _ h => by simpa using h.symm) (fun _ h => by simpa using h.symm)⟩
        simp [Opt, step, rdrStep, Sys.re, e]
    case sSend r' =>
      split at hb <;> simp only [Option.some.injEq, reduceCtorEq] at hb
      next e =>
      subst e; subst hb
      refine ⟨_, rfl, fits_drain (a1 := none) (a2 := none) ⟨p, .sSend r', hp, by simp [behind], rfl⟩ ?_ rfl rfl
        (.inl rfl) (.inl rfl) (fun _ h => nomatch h) (fun _ h => nomatch h)⟩
      simp [step, rdrStep, Sys.re]
  · cases h

theorem Slots.Fits.reach {c : Cfg} {G : Sys S → Act → Prop} (hG : Outside G) {s0 : Sys S} {t t' : TSys S}
    {o : Option TAct} {x : Slots S} (hx : x.Fits c t o t') (hs : TSim t x.s) (hr : Reach c G s0 x.s)
    (hg : ∀ a, o = some (.act a) → G t.sys a) : Reach c G s0 x.s3 := by
  obtain ⟨p, q, hp, hb, e⟩ := hs
  refine hx.step2.reach (hx.step1.reach (hx.step0.reach hr ?_) ?_) ?_
  · intro a ha
    rcases hx.act a ha with rfl | h
    · exact hG.rdr _
    · rw [e]; exact hG.blind _ _ p q (hg a h)
  · intro a ha
    rw [hx.rdr1 a ha]; exact hG.rdr _
  · intro a ha
    rw [hx.rdr2 a ha]; exact hG.rdr _

theorem treach_sim {c : Cfg} {G : Sys S → Act → Prop} (hG : Outside G) {s0 : Sys S} {t : TSys S}
    (h : TReach c G { sys := s0, buf := none } t) : ∃ s, TSim t s ∧ Reach c G s0 s := by
  induction h with
  | refl => exact ⟨s0, ⟨s0.permit, s0.rpc, id, rfl, rfl⟩, .refl⟩
  | act _ hg hs ih =>
    obtain ⟨s, h1, h2⟩ := ih
    obtain ⟨x, rfl, hx⟩ := tsim_step h1 hs
    exact ⟨x.s3, hx.sim, hx.reach hG h1 h2 (fun a ha => by cases ha; exact hg)⟩
  | drain _ hs ih =>
    obtain ⟨s, h1, h2⟩ := ih
    obtain ⟨x, rfl, hx⟩ := tsim_drain h1 hs
    exact ⟨x.s3, hx.sim, hx.reach hG h1 h2 (fun a ha => nomatch ha)⟩

end SD
