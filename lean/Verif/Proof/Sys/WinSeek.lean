import Verif.Proof.RingCells
import Verif.Proof.Sys.Windowed

/-!
# What a windowed storage holds when the consumer seeks forward

`WinFlow` records that the bytes in flight belong to the writer's position, `WinSeek` that
everything between the consumer and the writer is a byte of the resource.
-/

set_option linter.unusedSimpArgs false
set_option linter.unusedVariables false

namespace SD

variable {S : Storage}

/-- The target of the seek for which the task was already told. -/
def RdrPc.settled : RdrPc → Option Nat
  | .sWait p | .sCheck p | .sSeek p => some p
  | _ => none

/-- The lowest position that the consumer can still read from. -/
def loPos (R : Ring S false) (s : Sys S) : Nat := s.rpc.settled.getD (R.rp s.st)

/-- The consumer cannot read any more. -/
def noMore (s : Sys S) : Prop :=
  (s.failed = true ∧ (s.rpc = .idle ∨ s.rpc = .dropped)) ∨ s.rpc = .panicked

/-- The guard for forward seeks on windowed storage. -/
def FwdWin (c : Cfg) (s : Sys S) (a : Act) : Prop :=
  Honest s a ∧ CleanReconnect s a ∧ (a = .recvSeek → s.rem = none) ∧ Forward c s a

structure WinFlow (c : Cfg) (R : Ring S false) (s : Sys S) : Prop where
  ok : R.Ok s.st
  tgt : ∀ p, s.rpc.target = some p → R.rp s.st ≤ p
  wle : ∀ p, s.spc.wpos = some p → p ≤ S.wtell s.st ∧ s.pfDone = true ∧ s.rem = none
  inPf : s.spc.inPf = true → s.pfDone = false
  remPf : s.pfDone = false → s.rem = none
  msg : ∀ p, s.spc = .seekMsg p → s.rem = none
  fin : s.spc = .fin → s.pfDone = true ∧ s.rem = none
  seek : ∀ a b, s.spc = .seeking a b → s.rem = none
  recon : ∀ p, s.spc = .reconn p → p = S.wtell s.st
  flow : s.spc.live = true → IsSlice c.remote (S.wtell s.st) (inFlight s) ∧
    s.tpos = S.wtell s.st + (inFlight s).length

set_option maxHeartbeats 4000000 in
theorem noMore.step {c : Cfg} {s s' : Sys S} {a : Act} (h : noMore s) (ht : Tr c s a s') : noMore s' := by
  unfold noMore at *
  cases ht <;> grind

/-- What one write of the task does to the bytes in flight. -/
theorem WinFlow.write {c : Cfg} {R : Ring S false} {s : Sys S} {st' : S.σ}
    {todo : List Byte} {k : Nat} (h : WinFlow c R s) (hl : s.spc.live = true)
    (hp : s.spc.pend = todo) (hrem : s.rem = none)
    (hw : S.write s.st (batch c todo) = .ok (k, st')) :
    IsSlice c.remote (S.wtell st') (todo.drop k) ∧
    s.tpos = S.wtell st' + (todo.drop k).length := by
  obtain ⟨f1, f2⟩ := h.flow hl
  rw [inFlight, hp, hrem, Option.getD_none, List.append_nil] at f1 f2
  obtain ⟨h1, h2, h3, h4, h5⟩ := R.write h.ok hw
  have hbl := batch_length c todo
  refine ⟨?_, ?_⟩
  · rw [h4]; exact f1.drop k
  · rw [h4, f2, List.length_drop]; omega

set_option maxHeartbeats 4000000 in
theorem WinFlow.shape {c : Cfg} {R : Ring S false} {s s' : Sys S} {a : Act}
    (hG : FwdWin c s a) (h : WinFlow c R s) (ht : Tr c s a s') :
    R.Ok s'.st ∧ (∀ p, s'.rpc.target = some p → R.rp s'.st ≤ p) ∧
    (∀ p, s'.spc.wpos = some p → p ≤ S.wtell s'.st ∧ s'.pfDone = true ∧ s'.rem = none) ∧
    (s'.spc.inPf = true → s'.pfDone = false) ∧ (s'.pfDone = false → s'.rem = none) ∧
    (∀ p, s'.spc = .seekMsg p → s'.rem = none) ∧ (s'.spc = .fin → s'.pfDone = true ∧ s'.rem = none) ∧
    (∀ a b, s'.spc = .seeking a b → s'.rem = none) ∧
    (∀ p, s'.spc = .reconn p → p = S.wtell s'.st) := by
  obtain ⟨h1, h2, h3, h4, h5, h6, h7, h8, h9, -⟩ := h
  obtain ⟨t1, t2, t3, t4, -⟩ := R.tell h1
  have hw := fun bs k st' hw => R.write (bs := bs) (k := k) (s' := st') h1 hw
  have hws := fun p st' hw => R.wseek (p := p) (s' := st') h1 hw
  have hrs := fun p st' hr => R.rseek (p := p) (s' := st') h1 hr
  have hrd := fun n bs st' hr => R.read (n := n) (bs := bs) (s' := st') h1 hr
  obtain ⟨-, -, g3, g4⟩ := hG
  unfold Forward at g4
  cases ht
  all_goals refine ⟨?_, ?_, ?_, ?_, ?_, ?_, ?_, ?_, ?_⟩
  all_goals grind [SrcPc.wpos, SrcPc.inPf, RdrPc.target, roundPc, startPc]

theorem WinFlow.step {c : Cfg} {R : Ring S false} {s s' : Sys S} {a : Act}
    (hG : FwdWin c s a) (h : WinFlow c R s) (ht : Tr c s a s') : WinFlow c R s' := by
  obtain ⟨s1, s2, s3, s4, s5, s6, s7, s8, s9⟩ := h.shape hG ht
  refine ⟨s1, s2, s3, s4, s5, s6, s7, s8, s9, ?_⟩
  obtain ⟨⟨hon1, hon2⟩, hcr, -, -⟩ := hG
  obtain ⟨t1, t2, t3, t4, -⟩ := R.tell h.ok
  have halt : s'.spc.live = false → (s'.spc.live = true →
      IsSlice c.remote (S.wtell s'.st) (inFlight s') ∧ s'.tpos = S.wtell s'.st + (inFlight s').length) := by
    intro hl; simp [hl]
  have move : S.wtell s'.st = S.wtell s.st → (s'.spc.live = true → s.spc.live = true) →
      inFlight s' = inFlight s → s'.tpos = s.tpos → (s'.spc.live = true →
      IsSlice c.remote (S.wtell s'.st) (inFlight s') ∧ s'.tpos = S.wtell s'.st + (inFlight s').length) := by
    intro he hl hi htp hl'
    rw [he, hi, htp]; exact h.flow (hl hl')
  clear s1 s2 s3 s4 s5 s6 s7 s8 s9
  cases ht
  case pfWriteMore len todo k st' heq hw hk =>
    have hrem := h.remPf (h.inPf (by simp [heq, SrcPc.inPf]))
    have := h.write (by simp [heq, SrcPc.live]) (by simp [heq, SrcPc.pend]) hrem hw
    intro _
    simp only [inFlight, SrcPc.pend, hrem, Option.getD_none, List.append_nil]; exact this
  case pfWriteEnd len todo st' heq hw =>
    have hrem := h.remPf (h.inPf (by simp [heq, SrcPc.inPf]))
    have := h.write (by simp [heq, SrcPc.live]) (by simp [heq, SrcPc.pend]) hrem hw
    intro _
    simp only [inFlight, SrcPc.pend, hrem, Option.getD_none, List.append_nil]; exact this
  case wWriteMore pos0 len todo bw k st' heq hw hk =>
    have hrem := (h.wle pos0 (by simp [heq, SrcPc.wpos])).2.2
    have := h.write (by simp [heq, SrcPc.live]) (by simp [heq, SrcPc.pend]) hrem hw
    intro _
    simp only [inFlight, SrcPc.pend, hrem, Option.getD_none, List.append_nil]; exact this
  case wWriteEnd pos0 len todo bw st' heq hw =>
    have hrem := (h.wle pos0 (by simp [heq, SrcPc.wpos])).2.2
    have := h.write (by simp [heq, SrcPc.live]) (by simp [heq, SrcPc.pend]) hrem hw
    intro _
    simp only [inFlight, SrcPc.pend, hrem, Option.getD_none, List.append_nil]; exact this
  case seekOk start stp pos st' heq hw =>
    have e2 := h.seek start stp heq
    obtain ⟨k1, k2, k3, k4⟩ := R.wseek h.ok hw
    have hpos := hon1 _ stp pos heq rfl
    intro _
    simp only [inFlight, SrcPc.pend, e2, Option.getD_none, List.append_nil, List.length_nil, k3, hpos]
    exact ⟨isSlice_nil _ _, rfl⟩
  case chunkPf n heq _ _ _ hpf =>
    have hrem := h.remPf hpf
    obtain ⟨f1, f2⟩ := h.flow (by simp [heq, SrcPc.live])
    simp only [inFlight, heq, SrcPc.pend, hrem, Option.getD_none, List.append_nil, List.length_nil, Nat.add_zero] at f2
    intro _
    simp only [inFlight, SrcPc.pend, hrem, Option.getD_none, List.append_nil, slice_length, f2]
    exact ⟨isSlice_slice _ _ _, trivial⟩
  case chunkRem n r heq _ _ _ hpf hrem =>
    obtain ⟨f1, f2⟩ := h.flow (by simp [heq, SrcPc.live])
    simp only [inFlight, heq, SrcPc.pend, hrem, Option.getD_some, List.nil_append] at f1 f2
    intro _
    simp only [inFlight, startPc_pend, Option.getD_none, List.append_nil, List.length_append, slice_length]
    refine ⟨f1.append ?_, by omega⟩
    rw [← f2]; exact isSlice_slice _ _ _
  case chunk n heq _ _ _ hpf hrem =>
    obtain ⟨f1, f2⟩ := h.flow (by simp [heq, SrcPc.live])
    simp only [inFlight, heq, SrcPc.pend, hrem, Option.getD_none, List.append_nil, List.length_nil, Nat.add_zero] at f2
    intro _
    simp only [inFlight, startPc_pend, hrem, Option.getD_none, List.append_nil, slice_length]
    rw [f2]
    exact ⟨isSlice_slice _ _ _, rfl⟩
  case eofRem r heq hpf hrem =>
    refine move rfl (by simp [heq, SrcPc.live]) ?_ rfl
    simp only [inFlight, startPc_pend, heq, hrem, Option.getD_none, Option.getD_some, List.append_nil]
    rfl
  case reconnOk p pos heq =>
    have hrem := hcr pos rfl
    have hpos := hon2 p pos heq rfl
    have hp := h.recon p heq
    intro _
    simp only [inFlight, SrcPc.pend, hrem, Option.getD_none, List.append_nil, List.length_nil, hpos, hp]
    exact ⟨isSlice_nil _ _, rfl⟩
  case pfPostPart len todo heq hne =>
    have hrem := h.remPf (h.inPf (by simp [heq, SrcPc.inPf]))
    exact move rfl (by simp [heq, SrcPc.live]) (by simp [inFlight, heq, SrcPc.pend, hrem]) rfl
  case wChkMiss pos0 len todo bw heq hr =>
    exact move rfl (by simp [heq, SrcPc.live]) (by simp only [inFlight, roundPc_pend, heq]; rfl) rfl
  case wNtf pos0 len todo bw heq =>
    exact move rfl (by simp [heq, SrcPc.live]) (by simp only [inFlight, roundPc_pend, heq]; rfl) rfl
  case rRead n fast bs st' heq hr =>
    exact move (R.read h.ok hr).2.2.1 id rfl rfl
  case sSeek p st' heq hr =>
    exact move (R.rseek h.ok hr).2.2.1 id rfl rfl
  all_goals first
    | (exact halt rfl)
    | (refine halt ?_; simp [*, SrcPc.live]; done)
    | (exact move rfl id rfl rfl)
    | (exact move t4 id rfl rfl)
    | (refine move rfl ?_ ?_ rfl
       · simp [*, SrcPc.live]; done
       · simp [inFlight, *, SrcPc.pend]; done)
    | (refine move rfl ?_ rfl rfl; simp [*, SrcPc.live]; done)

theorem WinFlow.init {c : Cfg} {R : Ring S false} {st : S.σ} (h1 : R.Ok st) (h2 : S.wtell st = 0) :
    WinFlow c R (SD.init c st) := by
  refine ⟨h1, ?_, ?_, ?_, ?_, ?_, ?_, ?_, ?_, ?_⟩ <;>
    simp [SD.init, RdrPc.target, SrcPc.wpos, SrcPc.inPf, SrcPc.live, inFlight, SrcPc.pend, h2]
  exact isSlice_nil _ _

/-- The consumer only moves forward, until it cannot read any more. -/
theorem loPos_mono {c : Cfg} {C : RingCells S} {s s' : Sys S} {a : Act}
    (h : WinFlow c C.ring s) (ht : Tr c s a s') : noMore s' ∨ loPos C.ring s ≤ loPos C.ring s' := by
  obtain ⟨t1, t2, t3, t4, -⟩ := C.ring.tell h.ok
  have hw := fun bs k st' hw => (C.ring.write (bs := bs) (k := k) (s' := st') h.ok hw).2.2.1
  have hws := fun p st' hw => (C.ring.wseek (p := p) (s' := st') h.ok hw).2.1
  have hrs := fun p st' hr => (C.ring.rseek (p := p) (s' := st') h.ok hr).2.1
  have hrf := fun p hp => C.rseek_fwd (p := p) h.ok hp
  have hrd := fun n bs st' hr => (C.ring.read (n := n) (bs := bs) (s' := st') h.ok hr).2.1
  have htg := h.tgt
  unfold noMore loPos
  cases ht <;> grind [RdrPc.settled, RdrPc.target]

/-- Everything between the consumer and the writer is a byte of the resource. -/
def Held (c : Cfg) (C : RingCells S) (s : Sys S) : Prop :=
  ∀ q, loPos C.ring s ≤ q → q < S.wtell s.st → C.slot s.st q = some (c.remote q)

/-- The task moves the writer only to where nothing is missing in between. -/
def SeekHere (C : RingCells S) (s : Sys S) : Prop :=
  ∀ a b, s.spc = .seeking a b → a ≤ loPos C.ring s ∨ a ≤ S.wtell s.st

theorem Held.write {c : Cfg} {C : RingCells S} {s : Sys S} {st' : S.σ}
    {todo : List Byte} {k : Nat} (h : WinFlow c C.ring s) (hv : Held c C s) (hl : s.spc.live = true)
    (hp : s.spc.pend = todo) (hrem : s.rem = none)
    (hw : S.write s.st (batch c todo) = .ok (k, st')) (spc : SrcPc) (log : List Ev) :
    Held c C { s with st := st', spc := spc, log := log } := by
  obtain ⟨f1, f2⟩ := h.flow hl
  rw [inFlight, hp, hrem, Option.getD_none, List.append_nil] at f1 f2
  obtain ⟨h1, h2, h3, h4, h5⟩ := C.ring.write h.ok hw
  obtain ⟨k1, k2⟩ := C.write h.ok hw
  have hsl := batch_slice (c := c) f1
  have hrl : C.ring.rp s.st ≤ loPos C.ring s := by
    have := h.tgt
    unfold loPos
    cases hr : s.rpc <;> simp [hr, RdrPc.settled, RdrPc.target] at this ⊢ <;> exact this
  intro q hq hqw
  have hlo : loPos C.ring { s with st := st', spc := spc, log := log } = loPos C.ring s := by
    simp only [loPos, h3]
  rw [hlo] at hq
  simp only [h4] at hqw
  show C.slot st' q = _
  by_cases hlt : q < S.wtell s.st
  · refine k2 q _ hlt (by omega) (hv q hq hlt)
  · have := k1 (q - S.wtell s.st) (by omega)
    rw [show S.wtell s.st + (q - S.wtell s.st) = q by omega] at this
    rw [this, hsl.getElem? (by omega), show S.wtell s.st + (q - S.wtell s.st) = q by omega]

theorem Held.step {c : Cfg} {C : RingCells S} {s s' : Sys S} {a : Act}
    (hG : FwdWin c s a) (h : WinFlow c C.ring s) (hv : Held c C s) (hs : SeekHere C s) (ht : Tr c s a s') :
    noMore s' ∨ Held c C s' := by
  have hm := loPos_mono h ht
  obtain ⟨t1, t2, t3, t4, -⟩ := C.ring.tell h.ok
  have t5 := C.tell h.ok
  have keep : S.wtell s'.st = S.wtell s.st → (∀ q, C.slot s'.st q = C.slot s.st q) →
      noMore s' ∨ Held c C s' := by
    intro e1 e2
    rcases hm with hm | hm
    · exact Or.inl hm
    · refine Or.inr (fun q h1 h2 => ?_)
      rw [e2]; exact hv q (by omega) (by omega)
  cases ht
  case pfWriteMore len todo k st' heq hw hk =>
    exact Or.inr (hv.write h (by simp [heq, SrcPc.live]) (by simp [heq, SrcPc.pend])
      (h.remPf (h.inPf (by simp [heq, SrcPc.inPf]))) hw _ _)
  case pfWriteEnd len todo st' heq hw =>
    exact Or.inr (hv.write h (by simp [heq, SrcPc.live]) (by simp [heq, SrcPc.pend])
      (h.remPf (h.inPf (by simp [heq, SrcPc.inPf]))) hw _ _)
  case wWriteMore pos0 len todo bw k st' heq hw hk =>
    exact Or.inr (hv.write h (by simp [heq, SrcPc.live]) (by simp [heq, SrcPc.pend])
      (h.wle pos0 (by simp [heq, SrcPc.wpos])).2.2 hw _ _)
  case wWriteEnd pos0 len todo bw st' heq hw =>
    exact Or.inr (hv.write h (by simp [heq, SrcPc.live]) (by simp [heq, SrcPc.pend])
      (h.wle pos0 (by simp [heq, SrcPc.wpos])).2.2 hw _ _)
  case seekOk start stp pos st' heq hw =>
    obtain ⟨k1, k2, k3, k4⟩ := C.ring.wseek h.ok hw
    have k5 := C.wseek h.ok hw
    refine Or.inr (fun q h1 h2 => ?_)
    simp only [loPos, k2] at h1
    simp only [k3] at h2
    show C.slot st' q = _
    rw [k5]
    rcases hs start stp heq with e | e
    · simp only [loPos] at e; omega
    · exact hv q h1 (by omega)
  case rRead n fast bs st' heq hr =>
    exact keep (C.ring.read h.ok hr).2.2.1 (C.read h.ok hr).2
  case sSeek p st' heq hr =>
    exact keep (C.ring.rseek h.ok hr).2.2.1 (C.rseek h.ok hr)
  all_goals first
    | exact keep rfl (fun _ => rfl)
    | exact keep t4 t5

/-- A read returns bytes of the resource. -/
theorem Held.read {c : Cfg} {C : RingCells S} {s s' : Sys S} {a : Act}
    {pos len : Nat} {fast : Bool} {bs : List Byte} (h : WinFlow c C.ring s) (hv : noMore s ∨ Held c C s)
    (ht : Tr c s a s')
    (hl : s'.log = .readRet pos len fast (.ok bs) :: s.log) : bs = slice c.remote pos bs.length := by
  obtain ⟨-, h2, h3, h4, -⟩ := tr_readRet ht hl
  have hv : Held c C s := by
    rcases hv with hv | hv
    · simp [noMore, h2] at hv
    · exact hv
  obtain ⟨t1, -⟩ := C.ring.tell h.ok
  rw [t1] at h3; subst h3
  obtain ⟨r1, -⟩ := C.read h.ok h4
  apply slice_ext
  intro i hi
  obtain ⟨h5, h6⟩ := r1 i hi
  rw [← h6, hv _ (by simp [loPos, h2, RdrPc.settled]) h5]

end SD
