import Verif.Spec.HttpSystem
import Verif.Proof.Sys.Full
import Verif.Proof.Sys.Task
import Verif.Props.Http

/-!
# The system with an HTTP source is an instance of the system
-/

set_option linter.unusedVariables false

namespace SD

variable {S : Storage}

/-- The configuration with the bytes of `remote`, and `b` where there are none. -/
def Cfg.on (c : Cfg) (remote : List Byte) (b : Byte) : Cfg :=
  { c with remote := fun i => remote.getD i b, remoteLen := some remote.length }

theorem step_on {c : Cfg} {remote : List Byte} {b : Byte} {s : Sys S} {a : Act} (ha : a.ofTransport = false) :
    step (c.on remote b) s a = step c s a := by
  cases a <;> first | rfl | simp [Act.ofTransport] at ha

/-- What the system sees of an action. -/
inductive HAct.Is : HAct → Act → Prop
  | sys (a : Act) : a.ofTransport = false → HAct.Is (.sys a) a
  | chunk (n : Nat) : HAct.Is (.chunk n) (.chunk n)
  | seekOk (answer : Answer) (p : Nat) : HAct.Is (.seekRange answer) (.seekOk p)
  | seekFail (answer : Answer) (k : Kind) : HAct.Is (.seekRange answer) (.seekFail k)
  | reconnOk (answer : Answer) (p : Nat) : HAct.Is (.reconnect answer) (.reconnOk p)
  | reconnFail (answer : Answer) : HAct.Is (.reconnect answer) .reconnFail

set_option maxHeartbeats 4000000 in
/-- Other actions leave the transport where it is. -/
theorem transport_frame {c : Cfg} {s s' : Sys S} {a : Act} (ht : Tr c s a s') (ha : a.ofTransport = false) :
    s'.tpos = s.tpos ∧ s'.tlim = s.tlim ∧ (s'.spc.active = true → s.spc.active = true) := by
  cases ht <;> grind [Act.ofTransport, SrcPc.active, SrcPc.live, roundPc, startPc]

/-- Between the system and the stream. -/
structure HInv (remote : List Byte) (c : Cfg) (w : HSys S) : Prop where
  len : w.http.contentLength = c.contentLength
  real : ∀ n, c.contentLength = some n → n = remote.length
  range : w.http.supportsRange = true
  body : w.sys.spc.active = true → w.http.stream = bytesIn remote w.sys.tpos w.sys.tlim

theorem slice_bytesIn {remote : List Byte} {p n : Nat} {lim : Option Nat} {b : Byte} (h0 : 0 < n)
    (h : n ≤ (bytesIn remote p lim).length) :
    (bytesIn remote p lim).take n = slice (fun i => remote.getD i b) p n ∧
      (bytesIn remote p lim).drop n = bytesIn remote (p + n) lim ∧
      leOpt (p + n) lim = true ∧ p + n ≤ remote.length := by
  have hl : p + n ≤ remote.length ∧ leOpt (p + n) lim = true := by
    cases lim with
    | none => simp [bytesIn, leOpt] at *; omega
    | some e => simp [bytesIn, leOpt] at *; omega
  refine ⟨?_, ?_, hl.2, hl.1⟩
  · have h1 : ((bytesIn remote p lim).take n).length = n := by simp; omega
    have := @slice_ext (fun i => remote.getD i b) p ((bytesIn remote p lim).take n) ?_
    · rw [h1] at this; exact this
    · intro i hi
      rw [h1] at hi
      rw [List.getElem?_take, if_pos hi]
      have hlt : p + i < remote.length := by omega
      cases lim with
      | none => simp [bytesIn, List.getElem?_drop, List.getD, List.getElem?_eq_getElem hlt]
      | some e =>
        have : p + i < e := by simp [leOpt] at hl; omega
        simp [bytesIn, List.getElem?_drop, List.getElem?_take, this, List.getD, List.getElem?_eq_getElem hlt]
  · cases lim <;> simp [bytesIn, List.drop_drop]

theorem seekRange_body_ok {remote : List Byte} {h : HttpStream} {answer : Answer} (hh : Honours remote answer)
    (hlen : ∀ n, h.contentLength = some n → n = remote.length) {start : Nat} {stop : Option Nat}
    (hne : ∀ e, stop = some e → start < e ∨ h.contentLength = some start)
    (hok : (h.seekRange answer start stop).res = .ok ()) :
    (h.seekRange answer start stop).stream.stream = bytesIn remote start stop := by
  by_cases hl : h.contentLength = some start
  · have hs := hlen _ hl
    rw [(C43_seek_to_end hl).2.2]
    cases stop with
    | none => simp [bytesIn, hs]
    | some e =>
      simp only [bytesIn]
      rw [List.drop_eq_nil_of_le]
      rw [List.length_take]; omega
  · exact seekRange_body hh hlen (fun e he => (hne e he).resolve_right hl) hok

theorem handleChunk_frame (s : Sys S) (bs : List Byte) :
    (handleChunk s bs).tpos = s.tpos ∧ (handleChunk s bs).tlim = s.tlim := by
  unfold handleChunk startWrite
  split
  · exact ⟨rfl, rfl⟩
  · split <;> split <;> exact ⟨rfl, rfl⟩

/-- A step with an HTTP source is a step of the system with an honest transport. -/
theorem hstep_sim {remote : List Byte} {b : Byte} {c : Cfg} {w w' : HSys S} {a : HAct} (hi : HInv remote c w)
    (hA : ∀ answer, a.answer = some answer → RangeServer remote answer) (hr : RangesOk w a)
    (hs : hstep c w a = some w') :
    HInv remote c w' ∧ ∃ x, a.Is x ∧ Honest w.sys x ∧ step (c.on remote b) w.sys x = some w'.sys := by
  obtain ⟨i1, i2, i3, i4⟩ := hi
  cases a with
  | sys a =>
    simp only [hstep] at hs
    split at hs
    · simp at hs
    · rename_i ha
      have ha : a.ofTransport = false := by simpa using ha
      split at hs
      · rename_i s1 h1
        simp at hs; subst hs
        have hf := transport_frame (tr_of_step h1) ha
        refine ⟨⟨i1, i2, i3, fun h => ?_⟩, a, .sys a ha, ?_, by rw [step_on ha]; exact h1⟩
        · dsimp only
          rw [hf.1, hf.2.1]; exact i4 (hf.2.2 h)
        · constructor
          · rintro start stop pos - rfl; simp [Act.ofTransport] at ha
          · rintro p pos - rfl; simp [Act.ofTransport] at ha
      · simp at hs
  | chunk n =>
    simp only [hstep] at hs
    split at hs
    · rename_i h1
      obtain ⟨h1, h2, h3, h4⟩ := h1
      simp at hs; subst hs
      have hb := i4 (by rw [h1]; rfl)
      rw [hb] at h4
      obtain ⟨e1, e2, e3, e4⟩ := slice_bytesIn (b := b) h3 h4
      refine ⟨⟨i1, i2, i3, fun _ => ?_⟩, .chunk n, .chunk n, ?_, ?_⟩
      · dsimp only [HttpStream.poll]
        rw [(handleChunk_frame _ _).1, (handleChunk_frame _ _).2, hb]
        exact e2
      · constructor
        · rintro start stop pos - h; simp at h
        · rintro p pos - h; simp at h
      · have e5 : leOpt (w.sys.tpos + n) (c.on remote b).remoteLen = true := by
          simpa [Cfg.on, leOpt] using e4
        have e6 : (c.on remote b).remote = fun i => remote.getD i b := rfl
        simp only [step]
        rw [if_pos ⟨h1, h2, e3, e5⟩, e6, ← e1]
        simp only [HttpStream.poll, hb]
    · simp at hs
  | seekRange answer =>
    simp only [hstep] at hs
    split at hs
    · rename_i start stop hp
      have hB := seekRange_body_ok (hA answer rfl).1 (h := w.http) (start := start) (stop := stop)
        (fun n hn => i2 n (by rw [← i1]; exact hn)) (fun e he => hr start e (by rw [hp, he]))
      have hK := seekRange_keeps w.http answer start stop
      have hsr : (w.http.seekRange answer start stop).stream.supportsRange = true := by
        rw [← i3]; unfold HttpStream.supportsRange; rw [hK.2]
      split at hs
      · rename_i hok
        simp only [step, hp] at hs
        split at hs
        · rename_i s1 h1
          simp at hs; subst hs
          refine ⟨⟨by dsimp only; rw [hK.1, i1], i2, hsr, fun h => ?_⟩, .seekOk start, .seekOk _ _, ?_, ?_⟩
          · dsimp only at h ⊢
            rw [hB hok]
            split at h1
            · simp at h1; subst h1; rfl
            · simp at h1; subst h1; simp [SrcPc.active, SrcPc.live] at h
            · simp at h1; subst h1; simp [SrcPc.active, SrcPc.live] at h
          · constructor
            · rintro start' stop' pos h h'
              simp at h'; subst h'
              rw [hp] at h; simp at h; exact h.1
            · rintro p pos - h; simp at h
          · simp only [step, hp]; exact h1
        · simp at hs
      · rename_i k hk
        simp only [step, hp] at hs
        simp at hs; subst hs
        refine ⟨⟨by dsimp only; rw [hK.1, i1], i2, hsr, fun h => by simp [SrcPc.active, SrcPc.live] at h⟩,
          .seekFail k, .seekFail _ _, ?_, by simp [step, hp]⟩
        constructor
        · rintro start' stop' pos - h; simp at h
        · rintro p pos - h; simp at h
      · rename_i hk
        exfalso
        unfold HttpStream.seekRange at hk
        split at hk
        · simp at hk
        · rename_i hne
          split at hk
          · rename_i h0
            have := hr start 0 (by rw [hp, h0])
            rcases this with h | h
            · omega
            · exact hne h.symm
          · dsimp only at hk
            split at hk
            · simp at hk
            · split at hk <;> simp at hk
    · simp at hs
  | reconnect answer =>
    simp only [hstep] at hs
    split at hs
    · rename_i p hp
      have e0 : w.http.reconnect answer p = w.http.seekRange answer p none := by
        unfold HttpStream.reconnect; rw [if_pos i3]
      have hK := seekRange_keeps w.http answer p none
      rw [← e0] at hK
      have hsr : (w.http.reconnect answer p).stream.supportsRange = true := by
        rw [← i3]; unfold HttpStream.supportsRange; rw [hK.2]
      split at hs
      · rename_i hok
        simp only [step, hp] at hs
        simp at hs; subst hs
        refine ⟨⟨by dsimp only; rw [hK.1, i1], i2, hsr, fun h => ?_⟩, .reconnOk p, .reconnOk _ _, ?_, ?_⟩
        · dsimp only
          rw [reconnect_body (hA answer rfl).1 (fun n hn => i2 n (by rw [← i1]; exact hn)) i3 hok]
          rfl
        · constructor
          · rintro start stop pos - h; simp at h
          · rintro p' pos h h'
            simp at h'; subst h'
            rw [hp] at h; simp at h; exact h
        · simp [step, hp]
      · rename_i k hk
        simp only [step, hp] at hs
        simp at hs; subst hs
        have he : (w.http.reconnect answer p).stream = w.http := by
          rw [e0]; exact seekRange_err (by rw [← e0, hk]; simp)
        refine ⟨⟨by dsimp only; rw [hK.1, i1], i2, hsr, fun h => ?_⟩,
          .reconnFail, .reconnFail _, ?_, by simp [step, hp]⟩
        · dsimp only
          rw [he]
          exact i4 (by rw [hp]; rfl)
        · constructor
          · rintro start' stop' pos - h; simp at h
          · rintro p pos - h; simp at h
      · rename_i hk
        exfalso
        rw [e0] at hk
        unfold HttpStream.seekRange at hk
        split at hk
        · simp at hk
        · split at hk
          · rename_i h0; simp at h0
          · dsimp only at hk
            split at hk
            · simp at hk
            · split at hk <;> simp at hk
    · simp at hs

theorem HInv.starts {P : Provider} {c : Cfg} {mime : Text → Option (Text × Text)} {answer : Answer} {w0 : HSys P.S}
    {remote : List Byte} (hA : RangeServer remote answer) (h : HStarts P c mime answer w0) :
    HInv remote c w0 := by
  obtain ⟨h1, h2, -, -, st, -, h4⟩ := h
  unfold httpNew at h1
  split at h1
  · simp at h1
  · rename_i r hr
    split at h1
    · simp at h1
    · rename_i he
      have he : r.isError = false := by simpa using he
      simp at h1
      refine ⟨h2.symm, ?_, ?_, ?_⟩
      · intro n hn
        rw [h2, ← h1] at hn
        exact hA.1.length r hr he n hn
      · obtain ⟨v, h5, h6⟩ := hA.2 r hr
        rw [show HeaderName.ranges = acceptRanges from rfl] at h5
        rw [← h1]
        simp only [HttpStream.supportsRange, h5]
        exact decide_eq_true h6
      · intro _
        rw [h4, ← h1]
        exact hA.1.get r hr he

/-- The general simulation. -/
theorem hreach_sim {remote : List Byte} {b : Byte} {c : Cfg} {G : HSys S → HAct → Prop}
    {G' : Sys S → Act → Prop} (hG : ∀ w a x, G w a → a.Is x → G' w.sys x) {w0 w : HSys S}
    (hi : HInv remote c w0)
    (hr : ∀ w a, Reach (c.on remote b) (fun s x => Honest s x ∧ G' s x) w0.sys w.sys → HInv remote c w →
      G w a → RangesOk w a)
    (h : HReach c (RangeServer remote) G w0 w) :
    Reach (c.on remote b) (fun s x => Honest s x ∧ G' s x) w0.sys w.sys ∧ HInv remote c w := by
  induction h with
  | refl => exact ⟨.refl, hi⟩
  | step _ hA hg hs ih =>
    obtain ⟨h1, x, h2, h3, h4⟩ := hstep_sim (b := b) ih.2 hA (hr _ _ ih.1 ih.2 hg) hs
    exact ⟨ih.1.step ⟨h3, hG _ _ _ hg h2⟩ h4, h1⟩

theorem HReach.mono {c : Cfg} {A : Answer → Prop} {G G' : HSys S → HAct → Prop} (hG : ∀ w a, G w a → G' w a)
    {w0 w : HSys S} (h : HReach c A G w0 w) : HReach c A G' w0 w := by
  induction h with
  | refl => exact .refl
  | step _ hA hg hs ih => exact ih.step hA (hG _ _ hg) hs

theorem HReach.and {c : Cfg} {A : Answer → Prop} {G G' : HSys S → HAct → Prop} {w0 w : HSys S}
    (hG : ∀ w, HReach c A G w0 w → ∀ a, G' w a) (h : HReach c A G w0 w) :
    HReach c A (fun w a => G w a ∧ G' w a) w0 w := by
  induction h with
  | refl => exact .refl
  | step hh hA hg hs ih => exact ih.step hA ⟨hg, hG _ hh _⟩ hs

/-- What agrees with the resource for every filling byte lies in the resource. -/
theorem within_of_slice {remote bs : List Byte} {p : Nat}
    (h : ∀ b, bs = slice (fun i => remote.getD i b) p bs.length) : bs = (remote.drop p).take bs.length := by
  apply List.ext_getElem?
  intro i
  by_cases hi : i < bs.length
  · rw [List.getElem?_take, if_pos hi, List.getElem?_drop]
    have h0 := congrArg (·[i]?) (h 0)
    have h1 := congrArg (·[i]?) (h 1)
    simp only [slice_getElem? _ _ _ _ hi] at h0 h1
    by_cases hl : p + i < remote.length
    · simp [List.getD, List.getElem?_eq_getElem hl] at h0 ⊢
      exact h0
    · simp [List.getD, List.getElem?_eq_none (Nat.le_of_not_lt hl)] at h0 h1
      rw [h0] at h1
      simp at h1
  · rw [List.getElem?_eq_none (by omega), List.getElem?_eq_none (by simp; omega)]

end SD
