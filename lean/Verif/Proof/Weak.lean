import Verif.Spec.Weak
import Verif.Proof.Tso
import Verif.Proof.Sys.Wake

/-! # What weakly ordered memory can change -/

namespace SD

variable {S : Storage}

/-- Another queue of requests for seeks. -/
def Sys.sq (s : Sys S) (k : Option Nat) : Sys S := { s with seekQ := k }

theorem sq_handleSeek (c : Cfg) (s : Sys S) (x : Nat) (k : Option Nat) :
    handleSeek c (s.sq k) x = (handleSeek c s x).sq k := by
  simp only [handleSeek, show (s.sq k).st = s.st from rfl, show (s.sq k).dl = s.dl from rfl,
    show (s.sq k).pfDone = s.pfDone from rfl]
  generalize hb : (!if (!c.supportsSeek) = true then false else
    match s.dl.get x with
    | some (a, b) => !(decide (a ≤ S.wtell s.st) && decide (S.wtell s.st < b))
    | none => true) = b
  cases b <;> cases h1 : s.pfDone <;> cases h2 : c.contentLength <;>
    simp only [Bool.false_eq_true, if_false, if_true, Sys.sq] <;> split <;> rfl

theorem sq_startWrite (s : Sys S) (bs : List Byte) (k : Option Nat) :
    startWrite (s.sq k) bs = (startWrite s bs).sq k := by
  simp only [startWrite, Sys.sq]
  split <;> rfl

theorem sq_handleChunk (s : Sys S) (bs : List Byte) (k : Option Nat) :
    handleChunk (s.sq k) bs = (handleChunk s bs).sq k := by
  simp only [handleChunk, show (s.sq k).pfDone = s.pfDone from rfl, show (s.sq k).rem = s.rem from rfl]
  cases s.pfDone
  · rfl
  · cases s.rem
    · exact sq_startWrite s _ k
    · exact sq_startWrite { s with rem := none, pfDone := true } _ k

theorem sq_handleEof (s : Sys S) (k : Option Nat) :
    handleEof (s.sq k) = (handleEof s).sq k := by
  simp only [handleEof, show (s.sq k).pfDone = s.pfDone from rfl, show (s.sq k).rem = s.rem from rfl]
  cases s.pfDone
  · rfl
  · cases s.rem
    · rfl
    · exact sq_startWrite { s with rem := none, pfDone := true } _ k

theorem sq_nextRound (s : Sys S) (pos0 len : Nat) (todo : List Byte) (bw : Nat) (k : Option Nat) :
    nextRound (s.sq k) pos0 len todo bw = (nextRound s pos0 len todo bw).sq k := by
  simp only [nextRound, Sys.sq]
  split
  · rfl
  · split <;> rfl

theorem sq_srcStep {c : Cfg} {s : Sys S} (k : Option Nat) :
    srcStep c (s.sq k) = (srcStep c s).map (·.sq k) := by
  cases h : s.spc <;> simp only [srcStep, h, show (s.sq k).spc = s.spc from rfl, Option.map_some, Option.map_none]
  case wWait =>
    cases h1 : s.permit <;> simp [Sys.sq, h1]
  case seekMsg x => exact congrArg some (sq_handleSeek c s x k)
  case pfWrite =>
    simp only [Sys.sq]
    split <;> rfl
  case wWrite =>
    simp only [Sys.sq]
    split <;> rfl
  case pfPost len todo =>
    by_cases h1 : todo = [] <;> by_cases h2 : s.pfStart + c.prefetchBytes ≤ S.wtell s.st <;> simp [Sys.sq, h1, h2]
  case wChk =>
    simp only [show (s.sq k).req = s.req from rfl, show (s.sq k).st = s.st from rfl, sq_nextRound]
    split
    · split <;> rfl
    · rfl
  case wNtf => exact congrArg some (sq_nextRound { s with reached := true, log := _ } _ _ _ _ k)
  case wRep =>
    by_cases h1 : S.wtell s.st = 0
    · simp [Sys.sq, h1]
    · cases h2 : RSet.get s.dl (S.wtell s.st - 1) <;> simp [Sys.sq, h1, h2]
  case fin =>
    simp only [Sys.sq]
    split
    · split <;> rfl
    · rfl
  case onFin =>
    simp only [Sys.sq]
    split <;> rfl
  all_goals rfl

theorem sq_step {c : Cfg} {s : Sys S} {a : Act} (ha : a.other = true) (hs : a ≠ .recvSeek)
    (k : Option Nat) : step c (s.sq k) a = (step c s a).map (·.sq k) := by
  cases a <;> simp only [Act.other] at ha <;> try cases ha
  case recvSeek => exact absurd rfl hs
  case src => exact sq_srcStep k
  case chunk n =>
    by_cases h1 : s.spc = .sel ∧ s.tend = false ∧ leOpt (s.tpos + n) s.tlim ∧ leOpt (s.tpos + n) c.remoteLen
    · simp only [step]
      rw [if_pos (show (s.sq k).spc = .sel ∧ (s.sq k).tend = false ∧
        leOpt ((s.sq k).tpos + n) (s.sq k).tlim ∧ leOpt ((s.sq k).tpos + n) c.remoteLen from h1), if_pos h1]
      exact congrArg some (sq_handleChunk { s with tpos := s.tpos + n, log := _ } _ k)
    · simp only [step]
      rw [if_neg (show ¬ ((s.sq k).spc = .sel ∧ (s.sq k).tend = false ∧
        leOpt ((s.sq k).tpos + n) (s.sq k).tlim ∧ leOpt ((s.sq k).tpos + n) c.remoteLen) from h1), if_neg h1]
      rfl
  case eof =>
    by_cases h1 : s.spc = .sel
    · simp only [step]
      rw [if_pos (show (s.sq k).spc = .sel from h1), if_pos h1]
      exact congrArg some (sq_handleEof { s with tend := true, log := _ } k)
    · simp only [step]
      rw [if_neg (show ¬ ((s.sq k).spc = .sel) from h1), if_neg h1]
      rfl
  case chunkErr =>
    by_cases h1 : s.spc = .sel <;> simp [step, Sys.sq, h1]
  case timeout =>
    by_cases h1 : s.spc = .sel <;> simp [step, Sys.sq, h1]
  case seeCancel =>
    by_cases h1 : s.spc = .sel ∧ s.cancelled = true <;> simp [step, Sys.sq, h1]
  case seekOk x =>
    simp only [step, Sys.sq]
    split
    · split <;> rfl
    · rfl
  all_goals
    simp only [step, Sys.sq]
    first | rfl | (split <;> rfl)

/-- The task and the environment do not fill the queue. -/
theorem seekQ_other {c : Cfg} {s s' : Sys S} {a : Act} (ha : a.other = true) (hs : a ≠ .recvSeek)
    (h : step c s a = some s') : s'.seekQ = s.seekQ := by
  have ht := tr_of_step h
  cases ht <;> first | rfl | exact absurd rfl hs | cases ha

theorem rpc_other {c : Cfg} {s s' : Sys S} {a : Act} (ha : a.other = true) (h : step c s a = some s') :
    s'.rpc = s.rpc := by
  have ht := tr_of_step h
  cases ht <;> first | rfl | cases ha

/-- A step of the task or the environment that takes no stored wake-up is possible with any. -/
theorem sim_other_any {c : Cfg} {s s' : Sys S} {a : Act} (ha : a.other = true) (h : step c s a = some s')
    (hw : ¬ (a = .src ∧ ∃ x y z, s.spc = .wWait x y z)) (p : Bool) (q : RdrPc) :
    s'.permit = s.permit ∧ step c (s.re p q) a = some (s'.re p q) := by
  refine ⟨?_, ?_⟩
  · rcases permit_src h (by rintro rfl; cases ha) with e | ⟨e1, e2, -⟩
    · exact e
    · exact absurd ⟨e2, e1⟩ hw
  · have : step c (s.re p q) a = (step c s a).map (·.re p q) := by
      by_cases hs : ∀ a b t, s.spc ≠ .wWait a b t
      · exact re_step ha hs p q
      · simp only [Classical.not_forall, Classical.not_not] at hs
        obtain ⟨x, y, z, e⟩ := hs
        have hn : a ≠ .src := fun e2 => hw ⟨e2, x, y, z, e⟩
        cases a <;> simp only [Act.other] at ha <;> try cases ha
        all_goals first | exact absurd rfl hn | skip
        all_goals simp [step, e, Sys.re]
    rw [this, h]; rfl

/-- Another stored wake-up, the consumer somewhere else, another queue. -/
def Sys.rq (s : Sys S) (p : Bool) (q : RdrPc) (k : Option Nat) : Sys S :=
  { s with permit := p, rpc := q, seekQ := k }

/-- Where the system without delays is, and what is in its queue: a store that is not visible
has not happened yet. -/
inductive Lags (t : WSys S) : RdrPc → Option Nat → Prop
  | here : t.buf = [] → t.sync = 0 → t.sent = 0 → Lags t t.sys.rpc t.sys.seekQ
  | load (n r : Nat) : t.buf = [r] → t.sync = 0 → t.sent = 0 → t.sys.rpc = .rLoad n r →
      Lags t (.rSet n r) t.sys.seekQ
  | notify (n r : Nat) : t.buf = [r] → t.sync = 0 → t.sent = 0 → t.sys.rpc = .rNotify n r →
      t.sys.writeReq = true → Lags t (.rSet n r) t.sys.seekQ
  | wait (n r : Nat) : t.buf = [r] → t.sync = 0 → t.sent = 0 → t.sys.rpc = .rWait n r →
      Lags t (.rSet n r) t.sys.seekQ
  | woken (n r : Nat) : t.buf = [r] → t.sync = 1 → t.sent = 0 → t.sys.rpc = .rWait n r →
      t.sys.writeReq = true → Lags t (.rSet n r) t.sys.seekQ
  | send (r : Nat) : t.buf = [r] → t.sync = 0 → t.sent = 0 → t.sys.rpc = .sSend r →
      Lags t (.sSet r) t.sys.seekQ
  | sent (r : Nat) : t.buf = [r] → t.sync = 0 → t.sent = 1 → t.sys.rpc = .sWait r →
      t.sys.seekQ = some r → Lags t (.sSet r) none

/-- The simulation. -/
def WSim (t : WSys S) (s : Sys S) : Prop :=
  Tok s ∧ ∃ p q k, (t.sys.permit = true → t.sync = 0 → p = true) ∧ Lags t q k ∧ s = t.sys.rq p q k

theorem WSim.place {t : WSys S} {s : Sys S} (h : WSim t s) : SameButPlaceQ t.sys s := by
  obtain ⟨-, p, q, k, -, -, rfl⟩ := h
  exact ⟨p, q, k, rfl⟩

theorem WSim.sys {t : WSys S} {s : Sys S} (h : WSim t s) : s.log = t.sys.log ∧ s.spc = t.sys.spc := by
  obtain ⟨-, p, q, k, -, -, rfl⟩ := h
  exact ⟨rfl, rfl⟩

theorem Opt.tok {c : Cfg} {s s' : Sys S} {o : Option Act} (h : Opt c s o s') (hs : Tok s) : Tok s' := by
  cases o with
  | none => cases h; exact hs
  | some a => exact hs.step (tr_of_step h)

/-- On the way to the state `s'`. -/
def MidwayQ (s s' : Sys S) : Prop :=
  s = s' ∨ (SameButPlaceQ s' s ∧ s.rpc ≠ .idle ∧ s.rpc ≠ .panicked)

/-- The slots hold a history that corresponds to what happens with weakly ordered memory. -/
structure Slots.FitsW (x : Slots S) (c : Cfg) (t : WSys S) (o : Option WAct) (t' : WSys S) : Prop where
  sim : WSim t' x.s3
  step0 : Opt c x.s x.a0 x.s1
  step1 : Opt c x.s1 x.a1 x.s2
  step2 : Opt c x.s2 x.a2 x.s3
  mid1 : MidwayQ x.s1 x.s3
  mid2 : MidwayQ x.s2 x.s3
  rdr1 : ∀ a, x.a1 = some a → a = .rdr
  rdr2 : ∀ a, x.a2 = some a → a = .rdr
  other : ∀ a, o = some (.act a) → x.a0 = some a ∨ (a = .rdr ∧ t'.buf ≠ [])
  act : ∀ a, x.a0 = some a → a = .rdr ∨ o = some (.act a)
  drain : o = some .drain → x.a0 = some .rdr
  full : t.buf ≠ [] → o ≠ some .drain → t'.buf ≠ []

/-- Nothing happens. -/
theorem fitsW_stay {c : Cfg} {s : Sys S} {t t' : WSys S} {o : Option WAct} (h : WSim t' s)
    (ho : ∀ a, o = some (.act a) → a = .rdr ∧ t'.buf ≠ []) (hd : o ≠ some .drain)
    (hf : t.buf ≠ [] → t'.buf ≠ []) :
    Slots.FitsW ⟨s, s, s, s, none, none, none⟩ c t o t' where
  sim := h
  step0 := rfl
  step1 := rfl
  step2 := rfl
  mid1 := .inl rfl
  mid2 := .inl rfl
  rdr1 _ h := nomatch h
  rdr2 _ h := nomatch h
  other a h := .inr (ho a h)
  act _ h := nomatch h
  drain h := absurd h hd
  full h _ := hf h

/-- The same happens. -/
theorem fitsW_same {c : Cfg} {s s' : Sys S} {t t' : WSys S} {a : Act} (h : WSim t' s') (hs : step c s a = some s')
    (hf : t.buf ≠ [] → t'.buf ≠ []) :
    Slots.FitsW ⟨s, s', s', s', some a, none, none⟩ c t (some (.act a)) t' where
  sim := h
  step0 := hs
  step1 := rfl
  step2 := rfl
  mid1 := .inl rfl
  mid2 := .inl rfl
  rdr1 _ h := nomatch h
  rdr2 _ h := nomatch h
  other b h := .inl (by simpa using h)
  act b h := .inr (by simpa using h)
  drain h := nomatch h
  full h _ := hf h

/-- A store becomes visible: the system without delays makes the store, and catches up. -/
theorem fitsW_drain {c : Cfg} {s s1 s2 s3 : Sys S} {t t' : WSys S} {a1 a2 : Option Act} (h : WSim t' s3)
    (h0 : step c s .rdr = some s1) (h1 : Opt c s1 a1 s2) (h2 : Opt c s2 a2 s3) (m1 : MidwayQ s1 s3)
    (m2 : MidwayQ s2 s3) (r1 : ∀ a, a1 = some a → a = .rdr) (r2 : ∀ a, a2 = some a → a = .rdr) :
    Slots.FitsW ⟨s, s1, s2, s3, some .rdr, a1, a2⟩ c t (some .drain) t' where
  sim := h
  step0 := h0
  step1 := h1
  step2 := h2
  mid1 := m1
  mid2 := m2
  rdr1 := r1
  rdr2 := r2
  other _ h := nomatch h
  act b h := .inl (by simpa using h.symm)
  drain _ := rfl
  full _ h := absurd rfl h

/-- What a step of the task or the environment is. -/
theorem wstep_other {c : Cfg} {t t' : WSys S} {a : Act} (ha : a.other = true) (h : wstep c t (.act a) = some t') :
    (∃ s1, step c t.sys a = some s1 ∧ t' = { t with sys := s1 }) ∧
      (a = .recvSeek → t.sent = 0) ∧ (a = .src → (∃ x y z, t.sys.spc = .wWait x y z) → t.sync = 0) := by
  cases a <;> simp only [Act.other] at ha <;> try cases ha
  case src =>
    simp only [wstep] at h
    split at h
    · next e =>
      split at h
      · next e0 =>
        split at h
        · next s1 e1 => exact ⟨⟨s1, e1, by simpa using h.symm⟩, nofun, fun _ _ => e0⟩
        · cases h
      · cases h
    · next hn =>
      split at h
      · next s1 e1 =>
        exact ⟨⟨s1, e1, by simpa using h.symm⟩, nofun, fun _ ⟨x, y, z, e⟩ => absurd e (hn x y z)⟩
      · cases h
  case recvSeek =>
    simp only [wstep] at h
    split at h
    · next e0 =>
      split at h
      · next s1 e1 => exact ⟨⟨s1, e1, by simpa using h.symm⟩, fun _ => e0, nofun⟩
      · cases h
    · cases h
  all_goals
    simp only [wstep] at h
    split at h
    · next s1 e1 => exact ⟨⟨s1, e1, by simpa using h.symm⟩, nofun, nofun⟩
    · cases h

/-- The consumer stays where it is, what it did stays true. -/
theorem Lags.other {c : Cfg} {t : WSys S} {s1 : Sys S} {a : Act} {q : RdrPc} {k : Option Nat} (ha : a.other = true)
    (hb : Lags t q k) (h : step c t.sys a = some s1) (hs : a = .recvSeek → t.sent = 0) :
    ∃ k', Lags { t with sys := s1 } q k' ∧ (a = .recvSeek → k = t.sys.seekQ ∧ k' = s1.seekQ) ∧
      (a ≠ .recvSeek → k' = k) := by
  have e1 := rpc_other ha h
  have e2 := writeReq_other ha h
  have e3 : a ≠ .recvSeek → s1.seekQ = t.sys.seekQ := fun hn => seekQ_other ha hn h
  cases hb with
  | here h1 h2 h3 =>
    exact ⟨s1.seekQ, by rw [← e1]; exact .here (t := { t with sys := s1 }) h1 h2 h3, fun _ => ⟨rfl, rfl⟩, e3⟩
  | load n r h1 h2 h3 h4 =>
    exact ⟨s1.seekQ, .load (t := { t with sys := s1 }) n r h1 h2 h3 (e1.trans h4), fun _ => ⟨rfl, rfl⟩, e3⟩
  | notify n r h1 h2 h3 h4 h5 =>
    exact ⟨s1.seekQ, .notify (t := { t with sys := s1 }) n r h1 h2 h3 (e1.trans h4) (e2 h5), fun _ => ⟨rfl, rfl⟩, e3⟩
  | wait n r h1 h2 h3 h4 =>
    exact ⟨s1.seekQ, .wait (t := { t with sys := s1 }) n r h1 h2 h3 (e1.trans h4), fun _ => ⟨rfl, rfl⟩, e3⟩
  | woken n r h1 h2 h3 h4 h5 =>
    exact ⟨s1.seekQ, .woken (t := { t with sys := s1 }) n r h1 h2 h3 (e1.trans h4) (e2 h5), fun _ => ⟨rfl, rfl⟩, e3⟩
  | send r h1 h2 h3 h4 =>
    exact ⟨s1.seekQ, .send (t := { t with sys := s1 }) r h1 h2 h3 (e1.trans h4), fun _ => ⟨rfl, rfl⟩, e3⟩
  | sent r h1 h2 h3 h4 h5 =>
    have hn : a ≠ .recvSeek := by intro e; have := hs e; omega
    exact ⟨none, .sent (t := { t with sys := s1 }) r h1 h2 h3 (e1.trans h4) ((e3 hn).trans h5),
      fun e => absurd e hn, fun _ => rfl⟩

/-- Only a consumer that waits has a permit that the task may not take yet. -/
theorem Lags.sync {t : WSys S} {q : RdrPc} {k : Option Nat} (hb : Lags t q k) : t.sync = 0 ∨ t.sync = 1 := by
  cases hb <;> simp_all

theorem wsim_other {c : Cfg} {s : Sys S} {t t' : WSys S} {a : Act} (hs : WSim t s) (ha : a.other = true)
    (h : wstep c t (.act a) = some t') : ∃ x : Slots S, x.s = s ∧ x.FitsW c t (some (.act a)) t' := by
  obtain ⟨hT, p, q, k, hp, hb, rfl⟩ := hs
  obtain ⟨⟨s1, e1, rfl⟩, h2, h3⟩ := wstep_other ha h
  obtain ⟨k', hb', h4, h5⟩ := hb.other ha e1 h2
  have key : ∃ p', (s1.permit = true → t.sync = 0 → p' = true) ∧ step c (t.sys.re p q) a = some (s1.re p' q) := by
    by_cases hy : t.sync = 0
    · obtain ⟨-, p', g1, g2⟩ := sim_other ha e1 (fun e => hp e hy) q
      exact ⟨p', fun e _ => g1 e, g2⟩
    · obtain ⟨g1, g2⟩ := sim_other_any ha e1 (fun ⟨e, e'⟩ => hy (h3 e e')) p q
      exact ⟨p, fun _ e => absurd e hy, g2⟩
  obtain ⟨p', g1, g2⟩ := key
  have hstep : step c (t.sys.rq p q k) a = some (s1.rq p' q k') := by
    by_cases hr : a = .recvSeek
    · obtain ⟨rfl, rfl⟩ := h4 hr
      exact g2
    · have := sq_step (c := c) (s := t.sys.re p q) ha hr k
      rw [g2] at this
      rw [h5 hr]
      exact this
  exact ⟨_, rfl, fitsW_same (s := t.sys.rq p q k) ⟨hT.step (tr_of_step hstep), p', q, k', g1, hb', rfl⟩ hstep
    (fun h => h)⟩

/-- What a step of the consumer is if all its stores are visible. -/
theorem wstep_empty {c : Cfg} {t t' : WSys S} {a : Act} (ha : a.other = false) (hbuf : t.buf = []) (hsy : t.sync = 0)
    (hse : t.sent = 0) (h1 : ¬ (a = .rdr ∧ ((∃ n r, t.sys.rpc = .rSet n r) ∨ ∃ r, t.sys.rpc = .sSet r)))
    (h : wstep c t (.act a) = some t') : ∃ s1, step c t.sys a = some s1 ∧ t' = { t with sys := s1 } := by
  obtain ⟨sys, buf, sync, sent⟩ := t
  dsimp only at hbuf hsy hse
  subst hbuf hsy hse
  cases a <;> simp only [Act.other] at ha <;> try cases ha
  all_goals simp only [wstep] at h
  case rdr =>
    split at h
    · next e => exact absurd ⟨rfl, .inl ⟨_, _, e⟩⟩ h1
    · next e => exact absurd ⟨rfl, .inr ⟨_, e⟩⟩ h1
    all_goals (try simp only [ne_eq, not_true_eq_false, and_false, if_false, List.length_nil, ite_self] at h)
    all_goals
      split at h
      · next s1 e => exact ⟨s1, e, by simpa using h.symm⟩
      · cases h
  all_goals
    split at h
    · next s1 e => exact ⟨s1, e, by simpa using h.symm⟩
    · cases h

theorem wait_stuck {c : Cfg} {t t' : WSys S} {p : Bool} {q : RdrPc} {k : Option Nat} (hT : Tok (t.sys.rq p q k))
    (hq : q.waiting = none) (hbuf : t.buf ≠ []) (hw : (∃ n r, t.sys.rpc = .rWait n r) ∨ ∃ r, t.sys.rpc = .sWait r)
    (h : wstep c t (.act .rdr) = some t') : False := by
  have hd := (hT.free hq).2
  have hd : t.sys.done = false → t.sys.reached = false := fun e => (hd e).2.1
  rcases hw with ⟨n, r, e⟩ | ⟨r, e⟩
  all_goals
    rcases Bool.eq_false_or_eq_true t.sys.done with e1 | e1
    · simp [wstep, e, e1, hbuf] at h
    · have e2 := hd e1
      simp [wstep, e, e1, step, rdrStep, e2] at h

theorem wsim_consumer {c : Cfg} {s : Sys S} {t t' : WSys S} {a : Act} (hs : WSim t s) (ha : a.other = false)
    (hse : Sends t.sys a) (h : wstep c t (.act a) = some t') :
    ∃ x : Slots S, x.s = s ∧ x.FitsW c t (some (.act a)) t' := by
  obtain ⟨hT, p, q, k, hp, hb, rfl⟩ := hs
  have hcall : a ≠ .rdr → t.sys.rpc = .idle := by
    intro hn
    cases a <;> simp only [Act.other] at ha <;> try cases ha
    case rdr => exact absurd rfl hn
    all_goals
      simp only [wstep, step] at h
      split at h
      · next e => split at e <;> simp_all
      · cases h
  have hrdr : t.sys.rpc ≠ .idle → a = .rdr := fun hn => Classical.byContradiction fun e => hn (hcall e)
  have stay : ∀ {t1 : WSys S}, WSim t1 (t.sys.rq p q k) → t1.buf ≠ [] → a = .rdr →
      ∃ x : Slots S, x.s = t.sys.rq p q k ∧ x.FitsW c t (some (.act a)) t1 := fun g1 g2 g3 =>
    ⟨_, rfl, fitsW_stay g1 (fun b e => ⟨by simp at e; rw [← e, g3], g2⟩) (by simp) (fun _ => g2)⟩
  cases hb with
  | here h1 h2 h3 =>
    by_cases hset : a = .rdr ∧ ((∃ n r, t.sys.rpc = .rSet n r) ∨ ∃ r, t.sys.rpc = .sSet r)
    · obtain ⟨rfl, ⟨n, r, e⟩ | ⟨r, e⟩⟩ := hset
      · simp only [wstep, e, Option.some.injEq] at h
        subst h
        refine stay ⟨hT, p, _, _, hp, .load n r (by simp [h1]) h2 h3 rfl, ?_⟩ (by simp) rfl
        rw [e]; rfl
      · simp only [wstep, e, Option.some.injEq] at h
        subst h
        refine stay ⟨hT, p, _, _, hp, .send r (by simp [h1]) h2 h3 rfl, ?_⟩ (by simp) rfl
        rw [e]; rfl
    · obtain ⟨s1, e1, rfl⟩ := wstep_empty ha h1 h2 h3 hset h
      obtain ⟨p', g1, g2⟩ := sim_consumer ha e1 (fun e => hp e h2)
      exact ⟨_, rfl, fitsW_same (s := t.sys.rq p t.sys.rpc t.sys.seekQ)
        ⟨hT.step (tr_of_step g2), p', s1.rpc, s1.seekQ, fun e _ => g1 e,
          .here (t := { t with sys := s1 }) h1 h2 h3, rfl⟩ g2 (fun h => h)⟩
  | load n r h1 h2 h3 h4 =>
    obtain rfl := hrdr (by rw [h4]; simp)
    simp only [wstep, h4, step, rdrStep, Option.some.injEq] at h
    subst h
    rcases Bool.eq_false_or_eq_true t.sys.writeReq with e | e
    · refine stay ⟨hT, p, _, _, hp, .notify n r h1 h2 h3 (by simp [e]) e, rfl⟩ (by simp [h1]) rfl
    · refine stay ⟨hT, p, _, _, hp, .wait n r h1 h2 h3 (by simp [e]), rfl⟩ (by simp [h1]) rfl
  | notify n r h1 h2 h3 h4 h5 =>
    obtain rfl := hrdr (by rw [h4]; simp)
    simp only [wstep, h4, step, rdrStep, Option.some.injEq] at h
    subst h
    refine stay ⟨hT, p, _, _, fun _ e => by simp [h1] at e, .woken n r h1 (by simp [h1]) h3 rfl h5, rfl⟩
      (by simp [h1]) rfl
  | wait n r h1 h2 h3 h4 =>
    obtain rfl := hrdr (by rw [h4]; simp)
    exact (wait_stuck hT rfl (by simp [h1]) (.inl ⟨_, _, h4⟩) h).elim
  | woken n r h1 h2 h3 h4 h5 =>
    obtain rfl := hrdr (by rw [h4]; simp)
    exact (wait_stuck hT rfl (by simp [h1]) (.inl ⟨_, _, h4⟩) h).elim
  | send r h1 h2 h3 h4 =>
    obtain rfl := hrdr (by rw [h4]; simp)
    have hq := hse rfl r h4
    simp only [wstep, h4, step, rdrStep, Option.some.injEq, hq, Option.isSome_none, Bool.false_eq_true, if_false] at h
    subst h
    rw [hq] at hT ⊢
    refine ⟨_, rfl, fitsW_stay ⟨hT, p, _, none, hp, .sent r h1 h2 (by simp [h1]) rfl rfl, rfl⟩
      (fun b e => ⟨by simpa using e.symm, by simp [h1]⟩) (by simp) (fun _ => by simp [h1])⟩
  | sent r h1 h2 h3 h4 h5 =>
    obtain rfl := hrdr (by rw [h4]; simp)
    exact (wait_stuck hT rfl (by simp [h1]) (.inr ⟨_, h4⟩) h).elim

theorem wsim_step {c : Cfg} {s : Sys S} {t t' : WSys S} {a : Act} (hs : WSim t s) (hse : Sends t.sys a)
    (h : wstep c t (.act a) = some t') : ∃ x : Slots S, x.s = s ∧ x.FitsW c t (some (.act a)) t' := by
  cases ha : a.other with
  | true => exact wsim_other hs ha h
  | false => exact wsim_consumer hs ha hse h

theorem wsim_drain {c : Cfg} {s : Sys S} {t t' : WSys S} (hs : WSim t s) (h : wstep c t .drain = some t') :
    ∃ x : Slots S, x.s = s ∧ x.FitsW c t (some .drain) t' := by
  obtain ⟨hT, p, q, k, hp, hb, rfl⟩ := hs
  obtain ⟨r0, rest, e0⟩ : ∃ r rest, t.buf = r :: rest := by
    cases e : t.buf with
    | nil => simp [wstep, e] at h
    | cons r rest => exact ⟨r, rest, rfl⟩
  simp only [wstep, e0, Option.some.injEq] at h
  subst h
  have one : ∀ {s s1 : Sys S}, Tok s → step c s .rdr = some s1 → Tok s1 := fun h1 h2 => h1.step (tr_of_step h2)
  cases hb with
  | here h1 h2 h3 => rw [h1] at e0; cases e0
  | load n r h1 h2 h3 h4 =>
    rw [h1] at e0; injection e0 with e0 e0'; subst e0; subst e0'
    have st : step c (t.sys.rq p (.rSet n r) t.sys.seekQ) .rdr =
        some { t.sys.rq p (.rLoad n r) t.sys.seekQ with req := storeReq r, log := .request r :: t.sys.log } := rfl
    refine ⟨_, rfl, fitsW_drain (a1 := none) (a2 := none) (s3 := _)
      ⟨one hT st, p, .rLoad n r, t.sys.seekQ, fun e _ => hp e h2, ?_, rfl⟩ st rfl rfl
      (.inl rfl) (.inl rfl) (fun _ h => nomatch h) (fun _ h => nomatch h)⟩
    rw [← h4]
    exact .here rfl (by simp [h2]) (by simp [h3])
  | notify n r h1 h2 h3 h4 h5 =>
    rw [h1] at e0; injection e0 with e0 e0'; subst e0; subst e0'
    have st : step c (t.sys.rq p (.rSet n r) t.sys.seekQ) .rdr =
        some { t.sys.rq p (.rLoad n r) t.sys.seekQ with req := storeReq r, log := .request r :: t.sys.log } := rfl
    have st2 : step c { t.sys.rq p (.rLoad n r) t.sys.seekQ with req := storeReq r, log := .request r :: t.sys.log } .rdr =
        some { t.sys.rq p (.rNotify n r) t.sys.seekQ with req := storeReq r, log := .request r :: t.sys.log } := by
      simp [step, rdrStep, Sys.rq, h5]
    refine ⟨_, rfl, fitsW_drain (a1 := some .rdr) (a2 := none) (s3 := _)
      ⟨one (one hT st) st2, p, .rNotify n r, t.sys.seekQ, fun e _ => hp e h2, ?_, rfl⟩ st st2 rfl
      (.inr ⟨⟨p, .rLoad n r, t.sys.seekQ, rfl⟩, by simp [Sys.rq], by simp [Sys.rq]⟩) (.inl rfl)
      (fun _ h => by simpa using h.symm) (fun _ h => nomatch h)⟩
    rw [← h4]
    exact .here rfl (by simp [h2]) (by simp [h3])
  | wait n r h1 h2 h3 h4 =>
    rw [h1] at e0; injection e0 with e0 e0'; subst e0; subst e0'
    have st : step c (t.sys.rq p (.rSet n r) t.sys.seekQ) .rdr =
        some { t.sys.rq p (.rLoad n r) t.sys.seekQ with req := storeReq r, log := .request r :: t.sys.log } := rfl
    rcases Bool.eq_false_or_eq_true t.sys.writeReq with e | e
    · have st2 : step c { t.sys.rq p (.rLoad n r) t.sys.seekQ with req := storeReq r, log := .request r :: t.sys.log } .rdr =
          some { t.sys.rq p (.rNotify n r) t.sys.seekQ with req := storeReq r, log := .request r :: t.sys.log } := by
        simp [step, rdrStep, Sys.rq, e]
      have st3 : step c { t.sys.rq p (.rNotify n r) t.sys.seekQ with req := storeReq r, log := .request r :: t.sys.log } .rdr =
          some { t.sys.rq true (.rWait n r) t.sys.seekQ with req := storeReq r, log := .request r :: t.sys.log } := rfl
      refine ⟨_, rfl, fitsW_drain (a1 := some .rdr) (a2 := some .rdr) (s3 := _)
        ⟨one (one (one hT st) st2) st3, true, .rWait n r, t.sys.seekQ, fun _ _ => rfl, ?_, rfl⟩ st st2 st3
        (.inr ⟨⟨p, .rLoad n r, t.sys.seekQ, rfl⟩, by simp [Sys.rq], by simp [Sys.rq]⟩)
        (.inr ⟨⟨p, .rNotify n r, t.sys.seekQ, rfl⟩, by simp [Sys.rq], by simp [Sys.rq]⟩)
        (fun _ h => by simpa using h.symm) (fun _ h => by simpa using h.symm)⟩
      rw [← h4]
      exact .here rfl (by simp [h2]) (by simp [h3])
    · have st2 : step c { t.sys.rq p (.rLoad n r) t.sys.seekQ with req := storeReq r, log := .request r :: t.sys.log } .rdr =
          some { t.sys.rq p (.rWait n r) t.sys.seekQ with req := storeReq r, log := .request r :: t.sys.log } := by
        simp [step, rdrStep, Sys.rq, e]
      refine ⟨_, rfl, fitsW_drain (a1 := some .rdr) (a2 := none) (s3 := _)
        ⟨one (one hT st) st2, p, .rWait n r, t.sys.seekQ, fun e _ => hp e h2, ?_, rfl⟩ st st2 rfl
        (.inr ⟨⟨p, .rLoad n r, t.sys.seekQ, rfl⟩, by simp [Sys.rq], by simp [Sys.rq]⟩) (.inl rfl)
        (fun _ h => by simpa using h.symm) (fun _ h => nomatch h)⟩
      rw [← h4]
      exact .here rfl (by simp [h2]) (by simp [h3])
  | woken n r h1 h2 h3 h4 h5 =>
    rw [h1] at e0; injection e0 with e0 e0'; subst e0; subst e0'
    have st : step c (t.sys.rq p (.rSet n r) t.sys.seekQ) .rdr =
        some { t.sys.rq p (.rLoad n r) t.sys.seekQ with req := storeReq r, log := .request r :: t.sys.log } := rfl
    have st2 : step c { t.sys.rq p (.rLoad n r) t.sys.seekQ with req := storeReq r, log := .request r :: t.sys.log } .rdr =
        some { t.sys.rq p (.rNotify n r) t.sys.seekQ with req := storeReq r, log := .request r :: t.sys.log } := by
      simp [step, rdrStep, Sys.rq, h5]
    have st3 : step c { t.sys.rq p (.rNotify n r) t.sys.seekQ with req := storeReq r, log := .request r :: t.sys.log } .rdr =
        some { t.sys.rq true (.rWait n r) t.sys.seekQ with req := storeReq r, log := .request r :: t.sys.log } := rfl
    refine ⟨_, rfl, fitsW_drain (a1 := some .rdr) (a2 := some .rdr) (s3 := _)
      ⟨one (one (one hT st) st2) st3, true, .rWait n r, t.sys.seekQ, fun _ _ => rfl, ?_, rfl⟩ st st2 st3
      (.inr ⟨⟨p, .rLoad n r, t.sys.seekQ, rfl⟩, by simp [Sys.rq], by simp [Sys.rq]⟩)
      (.inr ⟨⟨p, .rNotify n r, t.sys.seekQ, rfl⟩, by simp [Sys.rq], by simp [Sys.rq]⟩)
      (fun _ h => by simpa using h.symm) (fun _ h => by simpa using h.symm)⟩
    rw [← h4]
    exact .here rfl (by simp [h2]) (by simp [h3])
  | send r h1 h2 h3 h4 =>
    rw [h1] at e0; injection e0 with e0 e0'; subst e0; subst e0'
    have st : step c (t.sys.rq p (.sSet r) t.sys.seekQ) .rdr =
        some { t.sys.rq p (.sSend r) t.sys.seekQ with req := storeReq r, log := .request r :: t.sys.log } := rfl
    refine ⟨_, rfl, fitsW_drain (a1 := none) (a2 := none) (s3 := _)
      ⟨one hT st, p, .sSend r, t.sys.seekQ, fun e _ => hp e h2, ?_, rfl⟩ st rfl rfl
      (.inl rfl) (.inl rfl) (fun _ h => nomatch h) (fun _ h => nomatch h)⟩
    rw [← h4]
    exact .here rfl (by simp [h2]) (by simp [h3])
  | sent r h1 h2 h3 h4 h5 =>
    rw [h1] at e0; injection e0 with e0 e0'; subst e0; subst e0'
    have st : step c (t.sys.rq p (.sSet r) none) .rdr =
        some { t.sys.rq p (.sSend r) none with req := storeReq r, log := .request r :: t.sys.log } := rfl
    have st2 : step c { t.sys.rq p (.sSend r) none with req := storeReq r, log := .request r :: t.sys.log } .rdr =
        some { t.sys.rq p (.sWait r) t.sys.seekQ with req := storeReq r, log := .request r :: t.sys.log } := by
      simp [step, rdrStep, Sys.rq, h5]
    refine ⟨_, rfl, fitsW_drain (a1 := some .rdr) (a2 := none) (s3 := _)
      ⟨one (one hT st) st2, p, .sWait r, t.sys.seekQ, fun e _ => hp e h2, ?_, rfl⟩ st st2 rfl
      (.inr ⟨⟨p, .sSend r, none, rfl⟩, by simp [Sys.rq], by simp [Sys.rq]⟩) (.inl rfl)
      (fun _ h => by simpa using h.symm) (fun _ h => nomatch h)⟩
    rw [← h4]
    exact .here rfl (by simp [h2]) (by simp [h3])

theorem Slots.FitsW.reach {c : Cfg} {G : Sys S → Act → Prop} (hG : Outer G) {s0 : Sys S} {t t' : WSys S}
    {o : Option WAct} {x : Slots S} (hx : x.FitsW c t o t') (hs : WSim t x.s) (hr : Reach c G s0 x.s)
    (hg : ∀ a, o = some (.act a) → G t.sys a) : Reach c G s0 x.s3 := by
  obtain ⟨p, q, k, e⟩ := hs.place
  refine hx.step2.reach (hx.step1.reach (hx.step0.reach hr ?_) ?_) ?_
  · intro a ha
    rcases hx.act a ha with rfl | h
    · exact hG.rdr _
    · rw [e]; exact hG.blind _ _ p q k (hg a h)
  · intro a ha
    rw [hx.rdr1 a ha]; exact hG.rdr _
  · intro a ha
    rw [hx.rdr2 a ha]; exact hG.rdr _

theorem wsim_start {s0 : Sys S} (h0 : Tok s0) : WSim (WSys.of s0) s0 :=
  ⟨h0, s0.permit, s0.rpc, s0.seekQ, fun h _ => h, .here (t := WSys.of s0) rfl rfl rfl, rfl⟩

theorem wreach_sim {c : Cfg} {G : Sys S → Act → Prop} (hG : Outer G) {s0 : Sys S} (h0 : Tok s0) {t : WSys S}
    (h : WReach c (fun s a => G s a ∧ Sends s a) (WSys.of s0) t) : ∃ s, WSim t s ∧ Reach c G s0 s := by
  induction h with
  | refl => exact ⟨s0, wsim_start h0, .refl⟩
  | act _ hg hs ih =>
    obtain ⟨hg, hse⟩ := hg
    obtain ⟨s, h1, h2⟩ := ih
    obtain ⟨x, rfl, hx⟩ := wsim_step h1 hse hs
    exact ⟨x.s3, hx.sim, hx.reach hG h1 h2 (fun a ha => by cases ha; exact hg)⟩
  | drain _ hs ih =>
    obtain ⟨s, h1, h2⟩ := ih
    obtain ⟨x, rfl, hx⟩ := wsim_drain h1 hs
    exact ⟨x.s3, hx.sim, hx.reach hG h1 h2 (fun a ha => nomatch ha)⟩

/-! ### What a step does to memory -/

theorem wstep_sys {c : Cfg} {t t' : WSys S} {o : WAct} (h : wstep c t o = some t') :
    (∃ a, o = .act a ∧ step c t.sys a = some t'.sys) ∨
    (o = .act .rdr ∧ ∃ n r, t.sys.rpc = .rSet n r ∧ t'.sys = { t.sys with rpc := .rLoad n r }) ∨
    (o = .act .rdr ∧ ∃ p, t.sys.rpc = .sSet p ∧ t'.sys = { t.sys with rpc := .sSend p }) ∨
    (o = .drain ∧ ∃ r, t'.sys = { t.sys with req := storeReq r, log := .request r :: t.sys.log }) := by
  cases o with
  | drain =>
    simp only [wstep] at h
    split at h
    · cases h; exact .inr (.inr (.inr ⟨rfl, _, rfl⟩))
    · cases h
  | act a =>
    by_cases ha : a.other = true
    · obtain ⟨⟨s1, e, rfl⟩, -⟩ := wstep_other ha h
      exact .inl ⟨a, rfl, e⟩
    · cases a <;> simp only [Act.other, not_true_eq_false] at ha
      all_goals simp only [wstep] at h
      case rdr =>
        split at h
        · next e => cases h; exact .inr (.inl ⟨rfl, _, _, e, rfl⟩)
        · next e => cases h; exact .inr (.inr (.inl ⟨rfl, _, e, rfl⟩))
        all_goals
          first
          | (split at h
             · next e => cases h; exact .inl ⟨_, rfl, e⟩
             · cases h)
          | (split at h
             · cases h
             · split at h
               · next e => cases h; exact .inl ⟨_, rfl, e⟩
               · cases h)
      all_goals
        split at h
        · next e => cases h; exact .inl ⟨_, rfl, e⟩
        · cases h

theorem WReach.mono {c : Cfg} {G G' : Sys S → Act → Prop} {t0 t : WSys S} (h : WReach c G t0 t)
    (hG : ∀ s a, G s a → G' s a) : WReach c G' t0 t := by
  induction h with
  | refl => exact .refl
  | act _ hg hs ih => exact .act ih (hG _ _ hg) hs
  | drain _ hs ih => exact .drain ih hs

/-- Invariants that do not depend on the requested position and the log. -/
theorem WReach.inv {c : Cfg} {G : Sys S → Act → Prop} {t0 t : WSys S} {J : Sys S → Prop} (h : WReach c G t0 t)
    (h0 : J t0.sys) (hstep : ∀ s s' a, J s → G s a → Tr c s a s' → J s')
    (hset : ∀ s n r, J s → s.rpc = .rSet n r → J { s with rpc := .rLoad n r })
    (hseek : ∀ s p, J s → s.rpc = .sSet p → J { s with rpc := .sSend p })
    (hreq : ∀ s req log, J s → J { s with req := req, log := log }) : J t.sys := by
  induction h with
  | refl => exact h0
  | act _ hg hs ih =>
    rcases wstep_sys hs with ⟨a, e, h⟩ | ⟨-, n, r, e, h⟩ | ⟨-, p, e, h⟩ | ⟨e, -⟩
    · cases e; exact hstep _ _ _ ih hg (tr_of_step h)
    · rw [h]; exact hset _ _ _ ih e
    · rw [h]; exact hseek _ _ ih e
    · cases e
  | drain _ hs ih =>
    rcases wstep_sys hs with ⟨a, e, h⟩ | ⟨e, -⟩ | ⟨e, -⟩ | ⟨-, r, h⟩
    · cases e
    · cases e
    · cases e
    · rw [h]; exact hreq _ _ _ ih

/-- Without seeks the consumer is never inside one. -/
theorem weak_noSeek {c : Cfg} {G : Sys S → Act → Prop} (hG : ∀ s a, G s a → NoSeek s a) {t0 t : WSys S}
    (h : WReach c G t0 t) (h0 : t0.sys.rpc.inSeek = false) : t.sys.rpc.inSeek = false :=
  h.inv (J := fun s => s.rpc.inSeek = false) h0
    (fun s s' a h1 hg ht => by
      have := hG s a hg
      cases ht
      all_goals grind [RdrPc.inSeek, NoSeek])
    (fun s n r h1 e => rfl) (fun s p h1 e => by rw [e] at h1; cases h1) (fun s req log h1 => h1)

theorem sends_of_out {s : Sys S} (h : s.rpc.inSeek = false) (a : Act) : Sends s a := by
  intro _ p e; rw [e] at h; cases h

/-- Without seeks no request for a seek is lost. -/
theorem weak_sends {c : Cfg} {G : Sys S → Act → Prop} (hG : ∀ s a, G s a → NoSeek s a) {t0 t : WSys S}
    (h : WReach c G t0 t) (h0 : t0.sys.rpc.inSeek = false) : WReach c (fun s a => G s a ∧ Sends s a) t0 t := by
  induction h with
  | refl => exact .refl
  | act hr hg hs ih => exact .act ih ⟨hg, sends_of_out (weak_noSeek hG hr h0) _⟩ hs
  | drain _ hs ih => exact .drain ih hs

end SD
