import Verif.Proof.Providers
import Verif.Proof.BoundedTotal
import Verif.Proof.Sys.Panic
import Verif.Spec.Calm

/-! # Storage that does not fail for a consumer that only reads -/

namespace SD

/-- Storage that does not fail in a set of states that only a seek of the reader can leave. -/
structure Calm (S : Storage) (full : Bool) (fits : Nat → Prop) where
  Ok : S.σ → Prop
  tell : ∀ {s}, Ok s → Ok (S.tell s).2
  read : ∀ {s n}, Ok s → fits n → ∃ bs s', S.read s n = .ok (bs, s') ∧ Ok s'
  write : ∀ {s bs}, Ok s → ∃ k s', S.write s bs = .ok (k, s') ∧ Ok s'
  wseek : ∀ {s p}, Ok s → (full = true ∨ p = S.wtell s) → ∃ s', S.wseek s p = .ok s' ∧ Ok s'

structure CalmProvider (P : Provider) (cl : Option Nat) (full : Bool) (fits : Nat → Prop) where
  calm : Calm P.S full fits
  create : ∀ {s}, P.create cl = .ok s → calm.Ok s

theorem splice_length_le (xs : List Byte) (p : Nat) (ys : List Byte) : xs.length ≤ (splice xs p ys).length := by
  unfold splice
  simp
  omega

def memCalm (fits : Nat → Prop) : Calm memStorage true fits where
  Ok s := s.rp ≤ s.buf.length
  tell h := h
  read {s n} h _ := by
    refine ⟨_, _, if_neg (by omega), ?_⟩
    show s.rp + _ ≤ s.buf.length
    omega
  write {s bs} h := ⟨_, _, rfl, Nat.le_trans h (splice_length_le _ _ _)⟩
  wseek h _ := ⟨_, rfl, h⟩

def tmpCalm (fits : Nat → Prop) : Calm tmpStorage true fits where
  Ok _ := True
  tell _ := trivial
  read {s n} _ _ := by
    show ∃ bs s', Tmp.read s n = .ok (bs, s') ∧ True
    unfold Tmp.read
    split
    · split <;> exact ⟨_, _, rfl, trivial⟩
    · exact ⟨_, _, rfl, trivial⟩
  write {s bs} _ := by
    show ∃ k s', Tmp.write s bs = .ok (k, s') ∧ True
    unfold Tmp.write
    split <;> exact ⟨_, _, rfl, trivial⟩
  wseek _ _ := ⟨_, rfl, trivial⟩

def adpCalm (checks : Bool) {F V : Storage} {fits : Nat → Prop} (CF : Calm F true fits) (CV : Calm V true fits) :
    Calm (adpStorage checks F V) true fits where
  Ok
    | .bounded _ => False
    | .fixed s => CF.Ok s
    | .variable s => CV.Ok s
  tell {s} h := by
    cases s with
    | bounded s => exact h
    | fixed s => exact CF.tell h
    | «variable» s => exact CV.tell h
  read {s n} h hn := by
    cases s with
    | bounded s => exact h.elim
    | fixed s =>
      obtain ⟨bs, s', h1, h2⟩ := CF.read h hn
      exact ⟨bs, .fixed s', by simp [h1, Res.map], h2⟩
    | «variable» s =>
      obtain ⟨bs, s', h1, h2⟩ := CV.read h hn
      exact ⟨bs, .variable s', by simp [h1, Res.map], h2⟩
  write {s bs} h := by
    cases s with
    | bounded s => exact h.elim
    | fixed s =>
      obtain ⟨k, s', h1, h2⟩ := CF.write (bs := bs) h
      exact ⟨k, .fixed s', by simp [h1, Res.map], h2⟩
    | «variable» s =>
      obtain ⟨k, s', h1, h2⟩ := CV.write (bs := bs) h
      exact ⟨k, .variable s', by simp [h1, Res.map], h2⟩
  wseek {s p} h _ := by
    cases s with
    | bounded s => exact h.elim
    | fixed s =>
      obtain ⟨s', h1, h2⟩ := CF.wseek (p := p) h (Or.inl rfl)
      exact ⟨.fixed s', by simp [h1, Res.map], h2⟩
    | «variable» s =>
      obtain ⟨s', h1, h2⟩ := CV.wseek (p := p) h (Or.inl rfl)
      exact ⟨.variable s', by simp [h1, Res.map], h2⟩

def slowCalm {S : Storage} (C : Calm S true fun _ => True) : Calm (slow S) true fun _ => True where
  Ok s := C.Ok s.st
  tell h := C.tell h
  read {s n} h hn := by
    obtain ⟨bs, st, h1, h2⟩ := C.read h hn
    exact ⟨bs, { s with st := st }, by show (S.read s.st n).bind _ = _; rw [h1]; rfl, h2⟩
  write {s bs} h := by
    obtain ⟨k, st, h1, h2⟩ := C.write (bs := bs.take (s.takes s.writes + 1)) h
    exact ⟨k, { s with st := st, writes := s.writes + 1 }, by
      show (S.write s.st _).bind _ = _; rw [h1]; rfl, h2⟩
  wseek {s p} h hp := by
    obtain ⟨st, h1, h2⟩ := C.wseek h hp
    exact ⟨{ s with st := st }, by show (S.wseek s.st p).bind _ = _; rw [h1]; rfl, h2⟩

def shortCalm {S : Storage} (C : Calm S true fun _ => True) : Calm (short S) true fun _ => True where
  Ok s := C.Ok s.st
  tell h := C.tell h
  read {s n} h _ := by
    obtain ⟨bs, st, h1, h2⟩ := C.read (n := min n (s.gives s.reads + 1)) h trivial
    exact ⟨bs, { s with st := st, reads := s.reads + 1 }, by
      show (S.read s.st _).bind _ = _; rw [h1]; rfl, h2⟩
  write {s bs} h := by
    obtain ⟨k, st, h1, h2⟩ := C.write (bs := bs) h
    exact ⟨k, { s with st := st }, by show (S.write s.st _).bind _ = _; rw [h1]; rfl, h2⟩
  wseek {s p} h hp := by
    obtain ⟨st, h1, h2⟩ := C.wseek h hp
    exact ⟨{ s with st := st }, by show (S.wseek s.st p).bind _ = _; rw [h1]; rfl, h2⟩

theorem keeps_calm {eager blank : Bool} {cl : Option Nat} {P : Provider} (h : Keeps eager blank cl P) :
    Nonempty (CalmProvider P cl true fun _ => True) := by
  induction h with
  | memory cl hb =>
    refine ⟨⟨memCalm _, ?_⟩⟩
    intro s h
    have h : Mem.mk? cl = .ok s := h
    simp only [Mem.mk?, Res.ok.injEq] at h
    subst h
    exact Nat.zero_le _
  | temp cl => exact ⟨⟨tmpCalm _, fun _ => trivial⟩⟩
  | adaptive checks F V bufferSize n _ _ ihF ihV =>
    obtain ⟨CF⟩ := ihF
    obtain ⟨CV⟩ := ihV
    refine ⟨⟨adpCalm checks CF.calm CV.calm, ?_⟩⟩
    intro s h
    simp only [Adp.mk?] at h
    split at h
    · split at h <;> try (simp at h; done)
      next t ht =>
      simp only [Res.ok.injEq] at h; subst h
      exact CF.create ht
    · split at h <;> try (simp at h; done)
      next t ht =>
      simp only [Res.ok.injEq] at h; subst h
      exact CV.create ht
  | slow cl takes P _ ih =>
    obtain ⟨C⟩ := ih
    refine ⟨⟨slowCalm C.calm, ?_⟩⟩
    intro s h
    obtain ⟨st, h1, rfl⟩ := slow_create h
    exact C.create h1
  | short cl gives P _ _ ih =>
    obtain ⟨C⟩ := ih
    refine ⟨⟨shortCalm C.calm, ?_⟩⟩
    intro s h
    obtain ⟨st, h1, rfl⟩ := short_create h
    exact C.create h1

/-- Bounded storage, for buffers that fit. -/
def bndCalm (checks : Bool) {I : Storage} {L : Lawful I true} (T : Total L) (size : Nat) :
    Calm (bndStorage checks I) false (fun n => n ≤ size) where
  Ok s := Bnd.Rep L s ∧ s.size = size ∧ s.wp ≤ s.rp + s.size
  tell h := h
  read {s n} h hn := by
    obtain ⟨h1, h2, h3⟩ := h
    obtain ⟨⟨bs, s'⟩, hr⟩ := Bnd.readOp_total (checks := checks) (n := n) T h1 (by omega) h3
    obtain ⟨-, -, a3, a4, a5, a6, -⟩ := Bnd.readOp_ok L h1 hr
    exact ⟨bs, s', hr, a3, by omega, by omega⟩
  write {s bs} h := by
    obtain ⟨h1, h2, h3⟩ := h
    obtain ⟨⟨k, s'⟩, hw⟩ := Bnd.writeOp_total (checks := checks) (bs := bs) T h1
    obtain ⟨a1, a2, a3, a4, a5, -⟩ := Bnd.writeOp_ok L h1 hw
    exact ⟨k, s', hw, a2, by omega, by omega⟩
  wseek {s p} h hp := by
    rcases hp with hp | hp
    · cases hp
    · have hp : p = s.wp := hp
      subst hp
      refine ⟨s, ?_, h⟩
      simp [Bnd.wseek, Bnd.subCnt_zero]

theorem bounded_calm {F : Provider} {cl : Option Nat} {bufferSize : Nat} (checks : Bool)
    (hF : Sparing (some (Bnd.sizeFor bufferSize cl)) F) :
    Nonempty (CalmProvider (bndProvider checks F bufferSize) cl false fun n => n ≤ Bnd.sizeFor bufferSize cl) := by
  obtain ⟨LF, TF, -⟩ := keeps_lawful hF
  refine ⟨⟨bndCalm checks TF _, ?_⟩⟩
  intro s h
  have := Bnd.Sim.init LF h
  exact ⟨this.rep, this.size, by rw [this.wp]; simp [Tape.empty]⟩

/-- Adaptive storage that has chosen the bounded one. -/
def adpBndCalm (checks : Bool) {F V : Storage} {fits : Nat → Prop} (C : Calm (bndStorage checks F) false fits) :
    Calm (adpStorage checks F V) false fits where
  Ok
    | .bounded s => C.Ok s
    | _ => False
  tell {s} h := by
    cases s with
    | bounded s => exact C.tell h
    | fixed s => exact h
    | «variable» s => exact h
  read {s n} h hn := by
    cases s with
    | bounded s =>
      obtain ⟨bs, s', h1, h2⟩ := C.read h hn
      exact ⟨bs, .bounded s', congrArg (Res.map _) h1, h2⟩
    | fixed s => exact h.elim
    | «variable» s => exact h.elim
  write {s bs} h := by
    cases s with
    | bounded s =>
      obtain ⟨k, s', h1, h2⟩ := C.write (bs := bs) h
      exact ⟨k, .bounded s', congrArg (Res.map _) h1, h2⟩
    | fixed s => exact h.elim
    | «variable» s => exact h.elim
  wseek {s p} h hp := by
    cases s with
    | bounded s =>
      obtain ⟨s', h1, h2⟩ := C.wseek (p := p) h hp
      exact ⟨.bounded s', congrArg (Res.map _) h1, h2⟩
    | fixed s => exact h.elim
    | «variable» s => exact h.elim

theorem adaptive_calm {F V : Provider} {bufferSize : Nat} (checks : Bool) (hF : Sparing (some bufferSize) F) :
    Nonempty (CalmProvider (adpProvider checks F V bufferSize) none false fun n => n ≤ bufferSize) := by
  obtain ⟨⟨C, hC⟩⟩ := bounded_calm (cl := none) (bufferSize := bufferSize) checks hF
  refine ⟨⟨adpBndCalm checks C, ?_⟩⟩
  intro s h
  simp only [Adp.mk?] at h
  split at h <;> try (simp at h; done)
  next t ht =>
  simp only [Res.ok.injEq] at h; subst h
  exact hC ht

/-- The task has not failed and is not about to. -/
def SrcPc.fine : SrcPc → Bool
  | .setFail => false
  | .onFin (some _) _ => false
  | .onFin none .cancelled => false
  | _ => true

structure CalmInv {S : Storage} {full : Bool} {fits : Nat → Prop} (C : Calm S full fits) (s : Sys S) : Prop where
  ok : C.Ok s.st
  notFailed : s.failed = false
  fine : s.spc.fine = true
  token : s.cancelled = true → s.spc = .ended
  log : ∀ e ∈ s.log, e.failedRead = false
  buf : ∀ n, s.rpc.buf = some n → fits n
  target : s.rpc.target = none

set_option maxHeartbeats 1000000 in
theorem CalmInv.step {S : Storage} {c : Cfg} {full : Bool} {fits : Nat → Prop} {C : Calm S full fits}
    (hfin : c.onFinish none .completed = none) (hfit : ∀ n, fits n → c.excessiveRead n = false)
    {s s' : Sys S} {a : Act} (h : CalmInv C s) (hu : Undisturbed s a) (hns : NoSeek s a)
    (hb : ∀ n, a = .read n → fits n) (hnd : a ≠ .drop)
    (hsk : ∀ p l, s.spc = .seeking p l → full = true ∨ p = S.wtell s.st) (ht : Tr c s a s') : CalmInv C s' := by
  obtain ⟨h1, h2, h3, h4, h5, h6, h7⟩ := h
  obtain ⟨g1, g2⟩ := hu
  unfold NoSeek at hns
  have hw : (∀ bs k st, S.write s.st bs = .ok (k, st) → C.Ok st) ∧ (∀ bs k, S.write s.st bs ≠ .err k) ∧
      ∀ bs, S.write s.st bs ≠ .panic := by
    refine ⟨fun bs k st e => ?_, fun bs k e => ?_, fun bs e => ?_⟩ <;>
      obtain ⟨k', st', e', h⟩ := C.write (bs := bs) h1 <;> rw [e'] at e <;> cases e
    exact h
  have hr : (∀ n bs st, fits n → S.read s.st n = .ok (bs, st) → C.Ok st) ∧
      (∀ n k, fits n → S.read s.st n ≠ .err k) ∧ ∀ n, fits n → S.read s.st n ≠ .panic := by
    refine ⟨fun n bs st hn e => ?_, fun n k hn e => ?_, fun n hn e => ?_⟩ <;>
      obtain ⟨k', st', e', h⟩ := C.read h1 hn <;> rw [e'] at e <;> cases e
    exact h
  have hs : ∀ p l, s.spc = .seeking p l → (∀ st, S.wseek s.st p = .ok st → C.Ok st) ∧
      (∀ k, S.wseek s.st p ≠ .err k) ∧ S.wseek s.st p ≠ .panic := by
    intro p l hp
    obtain ⟨st', e', h⟩ := C.wseek h1 (hsk p l hp)
    refine ⟨fun st e => ?_, fun k e => ?_, fun e => ?_⟩ <;> rw [e'] at e <;> cases e
    exact h
  have ho : ∀ r o, s.spc = .onFin r o → r = none ∧ o = .completed := by
    intro r o e
    rw [e] at h3
    cases r <;> cases o <;> simp_all [SrcPc.fine]
  have htl := C.tell h1
  clear hsk
  cases ht <;> constructor <;>
    first
      | assumption
      | grind [SrcPc.fine, RdrPc.buf, RdrPc.target, Ev.failedRead, roundPc, startPc]

theorem calm_reach {P : Provider} {c : Cfg} {full : Bool} {fits : Nat → Prop}
    (CP : CalmProvider P c.contentLength full fits) (hfin : c.onFinish none .completed = none)
    (hfit : ∀ n, fits n → c.excessiveRead n = false) {G : Sys P.S → Act → Prop}
    (hG : ∀ s a, G s a → Undisturbed s a ∧ NoSeek s a ∧ ∀ n, a = .read n → fits n)
    {s0 s : Sys P.S} (h0 : Starts P c s0) (h : Reach c G s0 s)
    (hsk : ∀ s p l, Reach c G s0 s → s.spc = .seeking p l → full = true ∨ p = P.S.wtell s.st) :
    CalmInv CP.calm s ∨ s.rpc = .dropped ∧ ∀ e ∈ s.log, e.failedRead = false := by
  induction h with
  | refl =>
    obtain ⟨-, st, hc, rfl⟩ := h0
    exact Or.inl ⟨CP.create hc, rfl, rfl, by simp [init], by simp [init], by simp [init, RdrPc.buf], rfl⟩
  | @step s s' a hr hg hs ih =>
    have ht := tr_of_step hs
    obtain ⟨g1, g2, g3⟩ := hG _ _ hg
    rcases ih with ih | ⟨ih1, ih2⟩
    · by_cases hd : a = .drop
      · subst hd
        cases ht
        exact Or.inr ⟨rfl, ih.log⟩
      · exact Or.inl (ih.step hfin hfit g1 g2 g3 hd (fun p l => hsk _ p l hr) ht)
    · refine Or.inr ?_
      clear hsk hr hs hfin hfit hG
      cases ht <;> grind [Ev.failedRead]

theorem calm_log {P : Provider} {c : Cfg} {full : Bool} {fits : Nat → Prop}
    (CP : CalmProvider P c.contentLength full fits) (hfin : c.onFinish none .completed = none)
    (hfit : ∀ n, fits n → c.excessiveRead n = false) {G : Sys P.S → Act → Prop}
    (hG : ∀ s a, G s a → Undisturbed s a ∧ NoSeek s a ∧ ∀ n, a = .read n → fits n)
    {s0 s : Sys P.S} (h0 : Starts P c s0) (h : Reach c G s0 s)
    (hsk : ∀ s p l, Reach c G s0 s → s.spc = .seeking p l → full = true ∨ p = P.S.wtell s.st) :
    ¬ ReadFailed s.log := by
  rintro ⟨e, h1, h2⟩
  rcases calm_reach CP hfin hfit hG h0 h hsk with h | ⟨-, h⟩
  · rw [h.log e h1] at h2; cases h2
  · rw [h e h1] at h2; cases h2

end SD
