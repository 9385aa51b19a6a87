import Verif.Proof.Sys.Panic
import Verif.Proof.Sys.Token

/-!
# Back-pressure: the paused task and the consumer
-/

set_option linter.unusedSimpArgs false
set_option linter.unusedVariables false

namespace SD

variable {S : Storage} {b : Bool}

/-- The task has asked to be woken. -/
def SrcPc.inRound : SrcPc → Bool
  | .wWrite _ _ _ _ | .wAdd _ _ _ _ | .wChk _ _ _ _ | .wClr _ _ _ _ | .wNtf _ _ _ _ | .wWait _ _ _ => true
  | _ => false

/-- The task is about to pause, or has paused. -/
def SrcPc.zero : SrcPc → Bool
  | .wAdd _ _ _ bw | .wChk _ _ _ bw | .wClr _ _ _ bw | .wNtf _ _ _ bw => bw == 0
  | .wWait _ _ _ => true
  | _ => false

/-- What is left to be written in this round, if nothing was yet. -/
def SrcPc.zeroTodo : SrcPc → Option (List Byte)
  | .wWrite _ _ t bw | .wAdd _ _ t bw | .wChk _ _ t bw | .wClr _ _ t bw | .wNtf _ _ t bw =>
    if bw = 0 then some t else none
  | .wReq _ _ t | .wWait _ _ t => some t
  | _ => none

/-- The read that is being made, with the position it waits for. -/
def RdrPc.reading : RdrPc → Option (Nat × Nat)
  | .rSet n r | .rLoad n r | .rNotify n r | .rWait n r => some (n, r)
  | _ => none

theorem Asked.step {c : Cfg} {s s' : Sys S} {a : Act}
    (h : s.spc.inRound = true → s.writeReq = true ∨ s.permit = true ∨ s.rpc = .rWake)
    (ht : Tr c s a s') :
    s'.spc.inRound = true → s'.writeReq = true ∨ s'.permit = true ∨ s'.rpc = .rWake := by
  cases ht
  all_goals grind [SrcPc.inRound, roundPc, startPc]

structure Wake (R : Ring S b) (c : Cfg) (s : Sys S) : Prop where
  asked : s.spc.inRound = true → s.writeReq = true ∨ s.permit = true ∨ s.rpc = .rWake
  todo : ∀ t, s.spc.zeroTodo = some t → t ≠ []
  dec : ∀ n, s.rpc = .rDecide n → c.excessiveRead n = false
  rd : ∀ n r, s.rpc.reading = some (n, r) →
    r = c.normalize (R.rp s.st + n) ∧ c.excessiveRead n = false
  zero : s.spc.zero = true → R.size s.st ≤ S.wtell s.st - R.rp s.st ∨ s.permit = true ∨ s.rpc = .rWake ∨
    (s.writeReq = true ∧ ∀ n r, s.rpc ≠ .rWait n r)
  req : ∀ r, s.rpc.waiting = some r → r ≠ two64 - 1 → s.done = false → s.reached = false →
    s.spc.telling = false → s.req = some r
  last : ∀ n r p l t, s.rpc = .rWait n r → s.spc = .wWait p l t → s.permit = false → s.reached = false →
    s.done = false → r ≠ two64 - 1 → S.wtell s.st < r

theorem zero_inRound {p : SrcPc} (h : p.zero = true) : p.inRound = true := by
  revert h; cases p <;> simp [SrcPc.zero, SrcPc.inRound]

theorem storeReq_of {r : Nat} (h : r ≠ two64 - 1) : storeReq r = some r := by
  unfold storeReq; simp [h]

set_option maxHeartbeats 4000000 in
theorem Wake.step {R : Ring S b} {c : Cfg} (hb : c.batchSize ≠ 0) {s s' : Sys S} {a : Act}
    (hok : R.Ok s.st) (h : Wake R c s) (ht : Tr c s a s') : Wake R c s' := by
  obtain ⟨h1, h2, h3, h4, h5, h6, h7⟩ := h
  obtain ⟨t1, -, t3, t4, t5⟩ := R.tell hok
  have hw : ∀ bs k st', S.write s.st bs = .ok (k, st') →
      S.wtell st' = S.wtell s.st + k ∧ R.rp st' = R.rp s.st ∧ R.size st' = R.size s.st := by
    intro bs k st' h
    obtain ⟨-, -, e1, e2, e3⟩ := R.write hok h
    exact ⟨e2, e1, e3⟩
  have hz : ∀ t st', S.write s.st (batch c t) = .ok (0, st') → t ≠ [] →
      R.size st' ≤ S.wtell st' - R.rp st' := by
    intro t st' h ht
    obtain ⟨-, e0, e1, e2, e3⟩ := R.write hok h
    have : (batch c t).length ≠ 0 := by
      have : t.length ≠ 0 := by simpa using ht
      simp only [batch, List.length_take]; omega
    rw [e1, e2, e3]; omega
  have hr : ∀ n bs st', S.read s.st n = .ok (bs, st') →
      S.wtell st' = S.wtell s.st ∧ R.size st' = R.size s.st := by
    intro n bs st' h
    obtain ⟨-, -, e1, e2⟩ := R.read hok h
    exact ⟨e1, e2⟩
  have hs : ∀ p st', S.rseek s.st p = .ok st' →
      S.wtell st' = S.wtell s.st ∧ R.size st' = R.size s.st := by
    intro n st' h
    obtain ⟨-, -, e1, e2⟩ := R.rseek hok h
    exact ⟨e1, e2⟩
  have hzr := zero_inRound (p := s.spc)
  have hws : ∀ p st', S.wseek s.st p = .ok st' → R.rp st' = R.rp s.st := by
    intro n st' h
    exact (R.wseek hok h).2.1
  cases ht
  all_goals constructor
  all_goals grind [SrcPc.inRound, SrcPc.zero, SrcPc.zeroTodo, RdrPc.reading, RdrPc.waiting, SrcPc.telling,
    storeReq_of, roundPc, startPc]

theorem Wake.reach {c : Cfg} (hb : c.batchSize ≠ 0) {P : Provider}
    (RP : RingProvider P c.contentLength b) {G : Sys P.S → Act → Prop} {s0 s : Sys P.S}
    (h0 : Starts P c s0) (h : Reach c G s0 s) :
    (RP.ring.Ok s.st ∧ RP.ring.size s.st = Bnd.sizeFor RP.bufferSize c.contentLength) ∧
      Wake RP.ring c s := by
  refine Reach.inv (P := fun s => (RP.ring.Ok s.st ∧
    RP.ring.size s.st = Bnd.sizeFor RP.bufferSize c.contentLength) ∧ Wake RP.ring c s) h ?_ ?_
  · refine ⟨ring_reach RP h0 (G := G) .refl, ?_⟩
    obtain ⟨-, st, hc, rfl⟩ := h0
    constructor <;> simp [SD.init, SrcPc.inRound, SrcPc.zeroTodo, RdrPc.reading, SrcPc.zero, RdrPc.waiting]
  · rintro s s' a ⟨⟨h1, h2⟩, h3⟩ - ht
    obtain ⟨h4, h5⟩ := ring_step h1 ht
    exact ⟨⟨h4, h5.trans h2⟩, h3.step hb h1 ht⟩

theorem asked_reach {c : Cfg} {G : Sys S → Act → Prop} {st : S.σ} {s : Sys S}
    (h : Reach c G (SD.init c st) s) :
    s.spc.inRound = true → s.writeReq = true ∨ s.permit = true ∨ s.rpc = .rWake := by
  refine Reach.inv (P := fun s : Sys S =>
    s.spc.inRound = true → s.writeReq = true ∨ s.permit = true ∨ s.rpc = .rWake) h ?_ ?_
  · simp [SD.init, SrcPc.inRound]
  · rintro s s' a h1 - ht
    exact Asked.step h1 ht

/-! ### Without seeks, a pause that has not been ended means a full buffer -/

/-- The task pauses, or has paused, on a full buffer, or it is about to be woken. -/
def FullPause (R : Ring S b) (s : Sys S) : Prop :=
  s.spc.zero = true → R.size s.st ≤ S.wtell s.st - R.rp s.st ∨ s.permit = true ∨ s.rpc = .rWake ∨
    (s.rpc = .rSwap ∧ s.writeReq = true)

def RdrPc.inSeek : RdrPc → Bool
  | .sDecide _ | .sSet _ | .sSend _ | .sWait _ | .sCheck _ | .sSeek _ => true
  | _ => false

set_option maxHeartbeats 4000000 in
theorem FullPause.step {R : Ring S b} {c : Cfg} (hb : c.batchSize ≠ 0) {s s' : Sys S} {a : Act}
    (hok : R.Ok s.st) (h1 : s.spc.inRound = true → s.writeReq = true ∨ s.permit = true ∨ s.rpc = .rWake)
    (h2 : ∀ t, s.spc.zeroTodo = some t → t ≠ []) (hg : NoSeek s a) (hns : s.rpc.inSeek = false)
    (h : FullPause R s) (ht : Tr c s a s') : FullPause R s' ∧ s'.rpc.inSeek = false := by
  obtain ⟨t1, -, t3, t4, t5⟩ := R.tell hok
  have hw : ∀ bs k st', S.write s.st bs = .ok (k, st') →
      S.wtell st' = S.wtell s.st + k ∧ R.rp st' = R.rp s.st ∧ R.size st' = R.size s.st := by
    intro bs k st' h
    obtain ⟨-, -, e1, e2, e3⟩ := R.write hok h
    exact ⟨e2, e1, e3⟩
  have hz : ∀ t st', S.write s.st (batch c t) = .ok (0, st') → t ≠ [] →
      R.size st' ≤ S.wtell st' - R.rp st' := by
    intro t st' h ht
    obtain ⟨-, e0, e1, e2, e3⟩ := R.write hok h
    have : (batch c t).length ≠ 0 := by
      have : t.length ≠ 0 := by simpa using ht
      simp only [batch, List.length_take]; omega
    rw [e1, e2, e3]; omega
  have hzr := zero_inRound (p := s.spc)
  have hng : ∀ f, a ≠ .seek f := hg
  unfold FullPause at *
  cases ht
  all_goals constructor
  all_goals grind [SrcPc.inRound, SrcPc.zero, SrcPc.zeroTodo, RdrPc.inSeek, roundPc, startPc]

theorem FullPause.reach {c : Cfg} (hb : c.batchSize ≠ 0) {P : Provider}
    (RP : RingProvider P c.contentLength b) {s0 s : Sys P.S}
    (h0 : Starts P c s0) (h : Reach c NoSeek s0 s) : FullPause RP.ring s := by
  have : (RP.ring.Ok s.st ∧ Wake RP.ring c s) ∧ FullPause RP.ring s ∧ s.rpc.inSeek = false := by
    refine Reach.inv (P := fun s => (RP.ring.Ok s.st ∧ Wake RP.ring c s) ∧ FullPause RP.ring s ∧
      s.rpc.inSeek = false) h ?_ ?_
    · refine ⟨⟨(ring_reach RP h0 (G := NoSeek) .refl).1, (Wake.reach hb RP h0 (G := NoSeek) .refl).2⟩, ?_⟩
      obtain ⟨-, st, hc, rfl⟩ := h0
      simp [FullPause, SD.init, SrcPc.zero, RdrPc.inSeek]
    · rintro s s' a ⟨⟨h1, h2⟩, h3, h4⟩ hg ht
      exact ⟨⟨(ring_step h1 ht).1, h2.step hb h1 ht⟩, h3.step hb h1 h2.asked h2.todo hg h4 ht⟩
  exact this.2.1

/-! ### Two parties that wait for each other do so forever -/

/-- The consumer is inside a call, or gone, and waits for the task; the task waits
for the consumer. -/
structure Deadlock (s : Sys S) : Prop where
  src : ∃ p l t, s.spc = .wWait p l t
  permit : s.permit = false
  rdr : s.rpc = .dropped ∨ ((∃ n r, s.rpc = .rWait n r) ∨ ∃ p, s.rpc = .sWait p) ∧
    s.reached = false ∧ s.done = false

theorem Deadlock.step {c : Cfg} {s s' : Sys S} {a : Act} (h : Deadlock s) (ht : Tr c s a s') :
    Deadlock s' ∧ s'.spc = s.spc ∧ s'.rpc = s.rpc ∧ s'.log = s.log := by
  obtain ⟨⟨p, l, t, h1⟩, h2, h3⟩ := h
  cases ht
  case cancel => exact ⟨⟨⟨p, l, t, h1⟩, h2, h3⟩, rfl, rfl, rfl⟩
  all_goals (exfalso; grind)

theorem Deadlock.forever {c : Cfg} {G : Sys S → Act → Prop} {s s' : Sys S} (h : Deadlock s)
    (hr : Reach c G s s') : s'.spc = s.spc ∧ s'.rpc = s.rpc ∧ s'.log = s.log := by
  have : Deadlock s' ∧ s'.spc = s.spc ∧ s'.rpc = s.rpc ∧ s'.log = s.log := by
    refine Reach.inv (P := fun s' => Deadlock s' ∧ s'.spc = s.spc ∧ s'.rpc = s.rpc ∧ s'.log = s.log)
      hr ⟨h, rfl, rfl, rfl⟩ ?_
    rintro s1 s2 a ⟨h1, h2, h3, h4⟩ - ht
    obtain ⟨h5, h6, h7, h8⟩ := h1.step ht
    exact ⟨h5, h6.trans h2, h7.trans h3, h8.trans h4⟩
  exact this.2

end SD
