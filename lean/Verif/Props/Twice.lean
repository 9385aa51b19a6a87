import Verif.Proof.Sys.Twice
import Verif.Props.Requests

/-!
# Property C84: nothing is downloaded twice

A byte that was received is not asked for again.
-/

set_option linter.unusedVariables false

namespace SD

variable {P : Provider} {c : Cfg}

/-- C84 fails if the connection stalls while a gap is being filled: the task reconnects without saying where
the gap ends, and receives again what lies behind it.  The consumer jumps to 5, the rest is received, the
connection for the gap from 2 to 5 stalls, and after the reconnect everything from 2 on arrives. -/
theorem C84_nothing_twice_violated :
    ∃ (s0 s : Sys memStorage) (h : List (Sys memStorage × Act)), Starts memProvider demoCfg s0 ∧
      Hist (step demoCfg) s0 h s ∧ (∀ x ∈ h, Honest x.1 x.2) ∧ breakOffs demoCfg h = 0 ∧ s.spc = .ended ∧
      demoCfg.contentLength = some 10 ∧ (receivedFrom h).length = 15 := by
  obtain ⟨h, s, h1, h2⟩ := exists_hist (f := step (S := memStorage) demoCfg) (w0 := init demoCfg demoMem10)
    ([.chunk 2] ++ srcs 6 ++ [.seek (.start 5)] ++ rdrs 3 ++ [.recvSeek, .src, .seekOk 5, .chunk 5] ++ srcs 3 ++
      [.eof, .src, .seekOk 2, .timeout, .reconnOk 2, .chunk 8] ++ srcs 8 ++ [.eof] ++ srcs 6)
    (fun h s => h.all (fun x => honestB x.1 x.2) && decide (breakOffs demoCfg h = 0 ∧ s.spc = .ended ∧
      demoCfg.contentLength = some 10 ∧ (receivedFrom h).length = 15)) (by decide +kernel)
  rw [Bool.and_eq_true] at h2
  exact ⟨_, s, h, ⟨rfl, _, rfl, rfl⟩, h1, fun x hx => honest_of (List.all_eq_true.mp h2.1 x hx), of_decide_eq_true h2.2⟩

/-- The same over HTTP, with a server that does everything right: 32 bytes are received of a resource of 20. -/
theorem C84_http_nothing_twice_violated :
    ∃ (w0 w : HSys memStorage) (h : List (HSys memStorage × HAct)),
      HStarts memProvider cfg20 (fun _ => none) (server20 headers20) w0 ∧ Hist (hstep cfg20) w0 h w ∧
      (∀ x ∈ h, ∀ answer, x.2.answer = some answer → RangeServer bytes20 answer) ∧ (∀ x ∈ h, RangesOk x.1 x.2) ∧
      hBreakOffs h = 0 ∧ w.sys.spc = .ended ∧ bytes20.length = 20 ∧ hReceived h = 32 := by
  let w0 : HSys memStorage := { sys := init cfg20 demoMem20, http := stream20 headers20 (some 20) }
  let as : List Act := [.chunk 2] ++ srcs 6 ++ [.seek (.start 8)] ++ rdrs 3 ++ [.recvSeek, .src, .seekOk 0, .chunk 12] ++
    srcs 3 ++ [.eof, .src, .seekOk 0, .timeout, .reconnOk 0, .chunk 18] ++ srcs 8 ++ [.eof] ++ srcs 6
  obtain ⟨h, w, h1, h3, h2⟩ := exists_hist' (f := hstep cfg20) (w0 := w0) (as.map (toHAct (server20 headers20)))
    (fun h w => h.all (fun x => hrangesB cfg20 x.1 .src) && decide (hBreakOffs h = 0 ∧ w.sys.spc = .ended ∧
      bytes20.length = 20 ∧ hReceived h = 32)) (by decide +kernel)
  rw [Bool.and_eq_true] at h2
  refine ⟨w0, w, h, ⟨server20_new (by decide +kernel), rfl, rfl, rfl, demoMem20, rfl, rfl⟩, h1, fun x hx answer he => ?_,
    fun x hx => (hranges_of (answer := server20 headers20) (List.all_eq_true.mp h2.1 x hx)).1, of_decide_eq_true h2.2⟩
  obtain ⟨a, -, ha⟩ := List.mem_map.mp (h3 x hx)
  rw [← ha] at he
  cases a <;> simp [HAct.answer, toHAct] at he <;> subst he <;> exact headers20_ok

/-- C84 fails without a known length, because then the end of the gap is never said: the consumer jumps to 5 and
back to 3, and 5 to 9 are received twice. -/
theorem C84_nothing_twice_unknown_length_violated :
    ∃ (s0 s : Sys memStorage) (h : List (Sys memStorage × Act)), Starts memProvider demoUnsized s0 ∧
      Hist (step demoUnsized) s0 h s ∧ (∀ x ∈ h, Honest x.1 x.2) ∧ (∀ x ∈ h, ∀ pos, x.2 ≠ .reconnOk pos) ∧
      demoUnsized.remoteLen = some 10 ∧ (receivedFrom h).length = 13 := by
  obtain ⟨h, s, h1, h2⟩ := exists_hist (f := step (S := memStorage) demoUnsized) (w0 := init demoUnsized demoMem0)
    ([.chunk 2] ++ srcs 6 ++ [.seek (.start 5)] ++ rdrs 3 ++ [.recvSeek, .src, .seekOk 5, .chunk 3] ++ srcs 3 ++
      [.chunk 1] ++ srcs 8 ++ rdrs 3 ++ [.seek (.start 3)] ++ rdrs 3 ++ [.recvSeek, .src, .seekOk 3, .chunk 7])
    (fun h s => h.all (fun x => honestB x.1 x.2 && match x.2 with | .reconnOk _ => false | _ => true) &&
      decide (demoUnsized.remoteLen = some 10 ∧ (receivedFrom h).length = 13)) (by decide +kernel)
  rw [Bool.and_eq_true] at h2
  have hx : ∀ x ∈ h, _ := fun x hx => (Bool.and_eq_true _ _).mp (List.all_eq_true.mp h2.1 x hx)
  refine ⟨_, s, h, ⟨rfl, _, rfl, rfl⟩, h1, fun x hh => honest_of (hx x hh).1, fun x hh pos e => ?_, of_decide_eq_true h2.2⟩
  have := (hx x hh).2
  rw [e] at this
  cases this

/-- C84 for a known length and storage that keeps everything, with any seeks, if a reconnect only succeeds while the
connection is to deliver everything up to the end: no position is received twice, and no more bytes are received
than there are. -/
theorem C84_nothing_twice_partial (hP : Unbounded c.contentLength P) (hb : c.batchSize ≠ 0) (hlen : c.LengthHonest)
    {n : Nat} (hn : c.contentLength = some n) {s0 s : Sys P.S} (h0 : Starts P c s0) {h : List (Sys P.S × Act)}
    (hh : Hist (step c) s0 h s) (hon : ∀ x ∈ h, Honest x.1 x.2) (hre : ∀ x ∈ h, ReconnectsToEnd c x.1 x.2) :
    (receivedFrom h).Nodup ∧ (receivedFrom h).length ≤ n := by
  obtain ⟨LP, -, -⟩ := keeps_lawful hP
  obtain ⟨PP⟩ := keeps_positional hP
  obtain ⟨-, -, h1, h2⟩ := once_known hn LP PP hb hlen h0 hh hon hre
  exact ⟨h1, length_le_of_nodup h1 h2⟩

/-- C84 for consumers that do not seek, with any connections that break off, errors and reconnects, and with or
without a known length. -/
theorem C84_sequential (hP : Unbounded c.contentLength P) (hb : c.batchSize ≠ 0) (hlen : c.LengthHonest)
    {s0 s : Sys P.S} (h0 : Starts P c s0) {h : List (Sys P.S × Act)}
    (hh : Hist (step c) s0 h s) (hon : ∀ x ∈ h, Honest x.1 x.2) (hns : ∀ x ∈ h, NoSeek x.1 x.2) :
    (receivedFrom h).Nodup ∧ ∀ m, c.remoteLen = some m → (receivedFrom h).length ≤ m := by
  obtain ⟨LP, -, -⟩ := keeps_lawful hP
  obtain ⟨PP⟩ := keeps_positional hP
  obtain ⟨-, -, -, h1, h2⟩ := once_noSeek LP PP hb hlen h0 hh hon hns
  exact ⟨h1, fun m hm => length_le_of_nodup h1 (h2 m hm)⟩

/-- C84 for HTTP with a known length, as long as proper ranges are asked for (C61) and a reconnect only succeeds
while the body is to contain everything up to the end: the bodies together are not longer than the resource. -/
theorem C84_http_nothing_twice_partial (hP : Unbounded c.contentLength P) (hb : c.batchSize ≠ 0)
    (hn : c.contentLength ≠ none)
    {remote : List Byte} {mime : Text → Option (Text × Text)} {answer : Answer} (hA : RangeServer remote answer)
    {w0 w : HSys P.S} (h0 : HStarts P c mime answer w0) {h : List (HSys P.S × HAct)}
    (hh : Hist (hstep c) w0 h w) (hS : ∀ x ∈ h, ∀ answer, x.2.answer = some answer → RangeServer remote answer)
    (hok : ∀ x ∈ h, RangesOk x.1 x.2) (hre : ∀ x ∈ h, HReconnectsToEnd c x.1 x.2) :
    hReceived h ≤ remote.length := by
  have hi := HInv.starts hA h0
  obtain ⟨-, h', k1, k2, k3, k4, -⟩ := http_hist (b := 0) hi hh hS hok
  cases hcn : c.contentLength with
  | none => exact absurd hcn hn
  | some n =>
    have := (C84_nothing_twice_partial (c := c.on remote 0) hP hb
      (fun m hm => ⟨remote.length, rfl, Nat.le_of_eq (hi.real m hm).symm⟩) hcn h0.2.2.2 k1 k2 fun x hx pos e => by
        obtain ⟨y, y1, y2, y3⟩ := k3 x hx
        rw [e] at y3
        rw [y2]
        generalize hya : y.2 = a at y3
        cases y3 with
        | sys _ ha => simp [Act.ofTransport] at ha
        | reconnOk answer _ => exact hre y y1 answer hya).2
    rw [← k4, ← hi.real n hcn]
    exact this

/-- C84 for HTTP without seeks: the bodies together are not longer than the resource. -/
theorem C84_http_sequential (hP : Unbounded c.contentLength P) (hb : c.batchSize ≠ 0)
    {remote : List Byte} {mime : Text → Option (Text × Text)} {answer : Answer} (hA : RangeServer remote answer)
    {w0 w : HSys P.S} (h0 : HStarts P c mime answer w0) {h : List (HSys P.S × HAct)}
    (hh : Hist (hstep c) w0 h w) (hS : ∀ x ∈ h, ∀ answer, x.2.answer = some answer → RangeServer remote answer)
    (hns : ∀ x ∈ h, ∀ f, x.2 ≠ .sys (.seek f)) : hReceived h ≤ remote.length := by
  have hi := HInv.starts hA h0
  obtain ⟨-, h', k1, k2, k3, k4, -⟩ := http_hist (b := 0) hi hh hS (ranges_of_noSeek' hA h0 hh hS hns)
  have := (C84_sequential (c := c.on remote 0) hP hb
    (fun m hm => ⟨remote.length, rfl, Nat.le_of_eq (hi.real m hm).symm⟩) h0.2.2.2 k1 k2 fun x hx f e => by
      obtain ⟨y, y1, y2, y3⟩ := k3 x hx
      rw [e] at y3
      generalize hya : y.2 = a at y3
      cases y3 with
      | sys _ _ => exact hns y y1 f hya).2 remote.length rfl
  rw [← k4]
  exact this

/-! ### Non-vacuity -/

/-- The consumer jumps to 5, with a stall before and one after the jump, and the gap is filled at the end. -/
example : ∃ (s0 s : Sys memStorage) (h : List (Sys memStorage × Act)), Starts memProvider demoCfg s0 ∧
    Hist (step demoCfg) s0 h s ∧ (∀ x ∈ h, Honest x.1 x.2) ∧ (∀ x ∈ h, ReconnectsToEnd demoCfg x.1 x.2) ∧
    demoCfg.contentLength = some 10 ∧ seekCalls h = 1 ∧ h.countP (fun x => match x.2 with | .reconnOk _ => true | _ => false) = 2 ∧
    s.spc = .ended ∧ (receivedFrom h).length = 10 := by
  obtain ⟨h, s, h1, h2⟩ := exists_hist (f := step (S := memStorage) demoCfg) (w0 := init demoCfg demoMem10)
    ([.chunk 2] ++ srcs 6 ++ [.timeout, .reconnOk 2, .seek (.start 5)] ++ rdrs 3 ++ [.recvSeek, .src, .seekOk 5, .chunk 2] ++
      srcs 3 ++ [.timeout, .reconnOk 7, .chunk 3] ++ srcs 8 ++
      [.eof, .src, .seekOk 2, .chunk 3] ++ srcs 6 ++ [.eof] ++ srcs 6)
    (fun h s => h.all (fun x => honestB x.1 x.2 && decide ((match x.2 with | .reconnOk _ => true | _ => false) = true →
        x.1.tlim = none ∨ x.1.tlim = demoCfg.contentLength)) &&
      decide (demoCfg.contentLength = some 10 ∧ seekCalls h = 1 ∧
        h.countP (fun x => match x.2 with | .reconnOk _ => true | _ => false) = 2 ∧
        s.spc = .ended ∧ (receivedFrom h).length = 10)) (by decide +kernel)
  rw [Bool.and_eq_true] at h2
  have hx : ∀ x ∈ h, _ := fun x hx => (Bool.and_eq_true _ _).mp (List.all_eq_true.mp h2.1 x hx)
  exact ⟨_, s, h, ⟨rfl, _, rfl, rfl⟩, h1, fun x hh => honest_of (hx x hh).1, fun x hh pos e =>
    of_decide_eq_true (hx x hh).2 (by rw [e]), of_decide_eq_true h2.2⟩

/-- No seeks, an unknown length, and two stalls. -/
example : ∃ (s0 s : Sys memStorage) (h : List (Sys memStorage × Act)), Starts memProvider demoUnsized s0 ∧
    Hist (step demoUnsized) s0 h s ∧ (∀ x ∈ h, Honest x.1 x.2) ∧ (∀ x ∈ h, NoSeek x.1 x.2) ∧
    h.countP (fun x => match x.2 with | .reconnOk _ => true | _ => false) = 2 ∧
    s.spc = .ended ∧ receivedFrom h = [7, 8, 9, 2, 3, 4, 5, 6, 0, 1] := by
  obtain ⟨h, s, h1, h2⟩ := exists_hist (f := step (S := memStorage) demoUnsized) (w0 := init demoUnsized demoMem0)
    ([.chunk 2] ++ srcs 6 ++ [.timeout, .reconnOk 2, .chunk 5] ++ srcs 6 ++ [.timeout, .reconnOk 7, .chunk 3] ++
      srcs 6 ++ [.eof] ++ srcs 6)
    (fun h s => h.all (fun x => honestB x.1 x.2 && noSeekB x.1 x.2) && decide (
      h.countP (fun x => match x.2 with | .reconnOk _ => true | _ => false) = 2 ∧
      s.spc = .ended ∧ receivedFrom h = [7, 8, 9, 2, 3, 4, 5, 6, 0, 1])) (by decide +kernel)
  rw [Bool.and_eq_true] at h2
  have hx : ∀ x ∈ h, _ := fun x hx => (Bool.and_eq_true _ _).mp (List.all_eq_true.mp h2.1 x hx)
  exact ⟨_, s, h, ⟨rfl, _, rfl, rfl⟩, h1, fun x hh => honest_of (hx x hh).1, fun x hh => noSeek_of (hx x hh).2,
    of_decide_eq_true h2.2⟩

/-- HTTP: the consumer jumps to 8; there is a stall before and one after the jump, and the gap is filled at the end. -/
example : ∃ (w0 w : HSys memStorage) (h : List (HSys memStorage × HAct)),
    HStarts memProvider cfg20 (fun _ => none) (server20 headers20) w0 ∧ Hist (hstep cfg20) w0 h w ∧
    (∀ x ∈ h, ∀ answer, x.2.answer = some answer → RangeServer bytes20 answer) ∧ (∀ x ∈ h, RangesOk x.1 x.2) ∧
    (∀ x ∈ h, HReconnectsToEnd cfg20 x.1 x.2) ∧ cfg20.contentLength ≠ none ∧
    h.countP (fun x => match x.2 with | .reconnect _ => true | _ => false) = 2 ∧
    w.sys.spc = .ended ∧ hReceived h = bytes20.length := by
  let w0 : HSys memStorage := { sys := init cfg20 demoMem20, http := stream20 headers20 (some 20) }
  let as : List Act := [.chunk 2] ++ srcs 6 ++ [.timeout, .reconnOk 0, .seek (.start 8)] ++ rdrs 3 ++ [.recvSeek, .src,
    .seekOk 0, .timeout, .reconnOk 0, .chunk 12] ++ srcs 3 ++ [.eof, .src, .seekOk 0, .chunk 6] ++ srcs 8 ++ [.eof] ++ srcs 6
  obtain ⟨h, w, h1, h3, h2⟩ := exists_hist' (f := hstep cfg20) (w0 := w0) (as.map (toHAct (server20 headers20)))
    (fun h w => h.all (fun x => hrangesB cfg20 x.1 .src && decide ((match x.2 with | .reconnect _ => true | _ => false) = true →
        x.1.sys.tlim = none ∨ x.1.sys.tlim = cfg20.contentLength)) && decide (
      h.countP (fun x => match x.2 with | .reconnect _ => true | _ => false) = 2 ∧
      w.sys.spc = .ended ∧ hReceived h = bytes20.length)) (by decide +kernel)
  rw [Bool.and_eq_true] at h2
  have hx : ∀ x ∈ h, _ := fun x hx => (Bool.and_eq_true _ _).mp (List.all_eq_true.mp h2.1 x hx)
  refine ⟨w0, w, h, ⟨server20_new (by decide +kernel), rfl, rfl, rfl, demoMem20, rfl, rfl⟩, h1, fun x hh answer he => ?_,
    fun x hh => (hranges_of (answer := server20 headers20) (hx x hh).1).1, fun x hh answer e =>
    of_decide_eq_true (hx x hh).2 (by rw [e]), nofun, of_decide_eq_true h2.2⟩
  obtain ⟨a, -, ha⟩ := List.mem_map.mp (h3 x hh)
  rw [← ha] at he
  cases a <;> simp [HAct.answer, toHAct] at he <;> subst he <;> exact headers20_ok

/-- HTTP without seeks: a stall at 2, and a body that breaks off at 8. -/
example : ∃ (w0 w : HSys memStorage) (h : List (HSys memStorage × HAct)),
    HStarts memProvider cfg20 (fun _ => none) (server20 headers20) w0 ∧ Hist (hstep cfg20) w0 h w ∧
    (∀ x ∈ h, ∀ answer, x.2.answer = some answer → RangeServer bytes20 answer) ∧ (∀ x ∈ h, ∀ f, x.2 ≠ .sys (.seek f)) ∧
    hBreakOffs h = 1 ∧ w.sys.spc = .ended ∧ hReceived h = bytes20.length := by
  let w0 : HSys memStorage := { sys := init cfg20 demoMem20, http := stream20 headers20 (some 20) }
  let as : List Act := [.chunk 2] ++ srcs 6 ++ [.timeout, .reconnOk 0, .chunk 6] ++ srcs 6 ++ [.eof, .src, .seekOk 0,
    .chunk 12] ++ srcs 6 ++ [.eof] ++ srcs 6
  obtain ⟨h, w, h1, h3, h2⟩ := exists_hist' (f := hstep cfg20) (w0 := w0) (as.map (toHAct (server20 headers20)))
    (fun h w => decide (hBreakOffs h = 1 ∧ w.sys.spc = .ended ∧ hReceived h = bytes20.length)) (by decide +kernel)
  refine ⟨w0, w, h, ⟨server20_new (by decide +kernel), rfl, rfl, rfl, demoMem20, rfl, rfl⟩, h1, fun x hx answer he => ?_,
    fun x hx f he => ?_, of_decide_eq_true h2⟩
  all_goals
    obtain ⟨a, ha', ha⟩ := List.mem_map.mp (h3 x hx)
    rw [← ha] at he
  · cases a <;> simp [HAct.answer, toHAct] at he <;> subst he <;> exact headers20_ok
  · cases a <;> simp [toHAct] at he
    subst he
    simp [as, srcs] at ha'

end SD
