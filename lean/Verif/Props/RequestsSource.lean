import Verif.Spec.RequestsSource
import Verif.Props.Twice
import Verif.Props.LiveSystem

/-!
# Properties C83 and C84 for OpenDAL

An object store delivers what it is asked for, and a reader ends only at the end of its
range, so no connection breaks off.
-/

set_option linter.unusedVariables false

namespace SD

variable {P : Provider} {c : Cfg} {S : Storage}

/-- What was received, as positions and as the events of the log. -/
theorem received_log {s0 s : Sys S} {h : List (Sys S × Act)} (hh : Hist (step c) s0 h s) :
    bytesReceived s.log = (receivedFrom h).length + bytesReceived s0.log := by
  induction hh with
  | nil => simp [receivedFrom]
  | @cons h s s' a hh hs ih =>
    have key : bytesReceived s'.log = (receivedAt s a).length + bytesReceived s.log := by
      have ht := tr_of_step hs
      cases ht <;> simp_all [bytesReceived, receivedAt]
    rw [key, ih]
    simp only [receivedFrom, List.flatMap_cons, List.length_append]
    omega

/-- The history of the system with a source, as one of the system: no connection breaks off. -/
theorem source_hist {R : Source} {W : World R} {remote : List Byte} (V : Serves R W remote true) {b : Byte}
    (hreal : ∀ n, c.contentLength = some n → n = remote.length) {w0 w : XSys R S} (hi : XInv V w0)
    {h : List (XSys R S × XAct R)} (hh : Hist (xstep R c) w0 h w) (hA : ∀ x ∈ h, W.Allows x.1 x.2) :
    XInv V w ∧ ∃ h', Hist (step (c.on remote b)) w0.sys h' w.sys ∧ (∀ x ∈ h', Honest x.1 x.2) ∧
      (∀ x ∈ h', ∃ y ∈ h, x.1 = y.1.sys ∧ y.2.Is y.1.src x.2) ∧
      seekCalls h' = xSeekCalls h ∧ (c.contentLength ≠ none → breakOffs (c.on remote b) h' = 0) := by
  induction hh with
  | nil => exact ⟨hi, [], .nil, by simp, by simp, rfl, fun _ => rfl⟩
  | @cons h w w' a hh hs ih =>
    obtain ⟨i1, h', i2, i3, i6, i4, i5⟩ := ih (fun x hx => hA x (List.mem_cons_of_mem _ hx))
    have hal := hA _ List.mem_cons_self
    obtain ⟨j1, x, j2, j3, j4⟩ := xstep_sim V (b := b) i1 hal hs
    refine ⟨j1, (w.sys, x) :: h', .cons i2 j4, ?_, ?_, ?_, fun hn => ?_⟩
    · intro y hy
      rcases List.mem_cons.mp hy with rfl | hy
      · exact j3
      · exact i3 y hy
    · intro y hy
      rcases List.mem_cons.mp hy with rfl | hy
      · exact ⟨_, List.mem_cons_self, rfl, j2⟩
      · obtain ⟨z, z1, z2⟩ := i6 y hy
        exact ⟨z, List.mem_cons_of_mem _ z1, z2⟩
    · simp only [seekCalls, xSeekCalls, List.countP_cons] at i4 ⊢
      rw [i4]
      cases j2 <;> simp [Act.isSeek]
    · replace i5 := i5 hn
      simp only [breakOffs, List.countP_cons] at i5 ⊢
      rw [i5]
      have key : ¬ breaksOff (c.on remote b) w.sys x = true := by
        intro hx
        cases x <;> simp [breaksOff] at hx
        have hp : w.sys.spc = .sel := by
          have := tr_of_step j4
          generalize w'.sys = s' at this
          cases this <;> assumption
        cases j2 with
        | sys _ ha => simp [Act.ofSource] at ha
        | eof e he =>
          have hat := i1.at' (by rw [hp]; rfl)
          have hbody := (V.done hat hal he).2.2 rfl
          cases hc : c.contentLength with
          | none => exact hn hc
          | some n =>
            have hr := hreal n hc
            have hc' : (c.on remote b).contentLength = some n := hc
            rw [hc'] at hx
            rcases empty_bytesIn hbody with h | ⟨e, h, h'⟩
            · have := hx.1; simp at this; omega
            · rw [h] at hx; have := hx.2; simp at this; omega
      simp [key]

/-- From an empty resource nothing is received. -/
theorem received_nothing {s0 s : Sys S} (he : c.remoteLen = some 0) {h : List (Sys S × Act)}
    (hh : Hist (step c) s0 h s) : receivedFrom h = [] := by
  induction hh with
  | nil => rfl
  | @cons h s s' a hh hs ih =>
    simp only [receivedFrom, List.flatMap_cons] at ih ⊢
    rw [ih]
    cases a <;> simp [receivedAt]
    next n =>
      have ht := tr_of_step hs
      cases ht <;> simp_all [leOpt]

/-- OpenDAL declares no length only for an empty object. -/
theorem OStarts.empty {object : List Byte} {w0 : XSys opendalSource P.S} (h0 : OStarts P c object w0)
    (hn : c.contentLength = none) : object = [] := by
  obtain ⟨⟨alloc, n, -, -, h3, h4⟩, -⟩ := h0
  rw [h4, h3] at hn
  simp only [opendalNew] at hn
  split at hn
  · cases hn
  · exact List.length_eq_zero_iff.mp (by omega)

/-- C83 for OpenDAL, with any seeks: at most two new readers for every seek, apart from reconnects. -/
theorem C83_opendal_requests_bounded (hP : Unbounded c.contentLength P) (hb : c.batchSize ≠ 0)
    {object : List Byte} {w0 w : XSys opendalSource P.S} (h0 : OStarts P c object w0)
    {h : List (XSys opendalSource P.S × XAct opendalSource)} (hh : Hist (xstep opendalSource c) w0 h w)
    (hA : ∀ x ∈ h, (storeWorld object).Allows x.1 x.2) :
    rangeRequests w.sys.log ≤ 2 * xSeekCalls h := by
  have hreal : ∀ n, c.contentLength = some n → n = object.length := fun _ hn => h0.real hn
  obtain ⟨-, h', k1, k2, -, k3, k4⟩ := source_hist (opendalServes object) (b := 0) hreal (XInv.opendal h0) hh hA
  cases hn : c.contentLength with
  | none =>
    have := C83_requests_unknown_length (c := c.on object 0) hn h0.2.2 k1
    omega
  | some n =>
    have := C83_requests_bounded (c := c.on object 0) hP hb
      (fun m hm => ⟨object.length, rfl, Nat.le_of_eq (hreal m hm).symm⟩) h0.2.2 k1 k2
    have := k4 (by rw [hn]; nofun)
    omega

/-- C84 for OpenDAL, with any seeks, if a reconnect only succeeds while the reader is to deliver everything up to the
end: no more bytes are received than the object has. -/
theorem C84_opendal_nothing_twice_partial (hP : Unbounded c.contentLength P) (hb : c.batchSize ≠ 0)
    {object : List Byte} {w0 w : XSys opendalSource P.S} (h0 : OStarts P c object w0)
    {h : List (XSys opendalSource P.S × XAct opendalSource)} (hh : Hist (xstep opendalSource c) w0 h w)
    (hA : ∀ x ∈ h, (storeWorld object).Allows x.1 x.2) (hre : ∀ x ∈ h, XReconnectsToEnd c x.1 x.2) :
    bytesReceived w.sys.log ≤ object.length := by
  have hreal : ∀ n, c.contentLength = some n → n = object.length := fun _ hn => h0.real hn
  obtain ⟨-, h', k1, k2, k5, k3, k4⟩ := source_hist (opendalServes object) (b := 0) hreal (XInv.opendal h0) hh hA
  have h2 := received_log k1
  obtain ⟨-, st, -, e0⟩ := h0.2.2
  have h3 : bytesReceived w0.sys.log = 0 := by rw [e0]; rfl
  cases hn : c.contentLength with
  | none =>
    have he := h0.empty hn
    have := received_nothing (c := c.on object 0) (by show some object.length = _; rw [he]; rfl) k1
    rw [this] at h2
    simp only [List.length_nil] at h2
    omega
  | some n =>
    have h1 := (C84_nothing_twice_partial (c := c.on object 0) hP hb
      (fun m hm => ⟨object.length, rfl, Nat.le_of_eq (hreal m hm).symm⟩) hn h0.2.2 k1 k2 fun x hx pos e => by
        obtain ⟨y, y1, y2, y3⟩ := k5 x hx
        rw [e] at y3
        rw [y2]
        generalize hya : y.2 = a at y3
        cases y3 with
        | sys _ ha => simp [Act.ofSource] at ha
        | reconnOk e _ => exact hre y y1 e hya).2
    have := hreal n hn
    omega

/-- C84 for OpenDAL without seeks, with any errors and reconnects. -/
theorem C84_opendal_sequential (hP : Unbounded c.contentLength P) (hb : c.batchSize ≠ 0)
    {object : List Byte} {w0 w : XSys opendalSource P.S} (h0 : OStarts P c object w0)
    {h : List (XSys opendalSource P.S × XAct opendalSource)} (hh : Hist (xstep opendalSource c) w0 h w)
    (hA : ∀ x ∈ h, (storeWorld object).Allows x.1 x.2) (hns : ∀ x ∈ h, ∀ f, x.2 ≠ .sys (.seek f)) :
    bytesReceived w.sys.log ≤ object.length := by
  have hreal : ∀ n, c.contentLength = some n → n = object.length := fun _ hn => h0.real hn
  obtain ⟨-, h', k1, k2, k5, k3, k4⟩ := source_hist (opendalServes object) (b := 0) hreal (XInv.opendal h0) hh hA
  have h1 := (C84_sequential (c := c.on object 0) hP hb
    (fun m hm => ⟨object.length, rfl, Nat.le_of_eq (hreal m hm).symm⟩) h0.2.2 k1 k2 fun x hx f e => by
      obtain ⟨y, y1, y2, y3⟩ := k5 x hx
      rw [e] at y3
      generalize hya : y.2 = a at y3
      cases y3 with
      | sys _ _ => exact hns y y1 f hya).2 object.length rfl
  have h2 := received_log k1
  obtain ⟨-, st, -, e0⟩ := h0.2.2
  have h3 : bytesReceived w0.sys.log = 0 := by rw [e0]; rfl
  omega

/-! ### A violation, and non-vacuity -/

/-- A history of actions that are made from the state. -/
theorem Hist.made {W A B : Type} {f : W → A → Option W} {g : W → B → A} {w0 w : W} {h : List (W × B)}
    (hh : Hist (fun w b => f w (g w b)) w0 h w) : Hist f w0 (h.map fun x => (x.1, g x.1 x.2)) w := by
  induction hh with
  | nil => exact .nil
  | cons _ hs ih => exact .cons ih hs

/-- A stream over the twenty bytes. -/
def oStart : XSys opendalSource memStorage := { sys := init cfg20 demoMem20, src := objStream bytes20 }

theorem oStart_starts : OStarts memProvider cfg20 bytes20 oStart :=
  ⟨⟨fun n => n, 8, fun n => Nat.le_refl n, by decide, rfl, rfl⟩, rfl, rfl, demoMem20, rfl, rfl⟩

/-- A history of the store. -/
theorem o_hist (as : List Act) (p : List (XSys opendalSource memStorage × Act) → XSys opendalSource memStorage → Bool)
    (h : (steps (fun w b => xstep opendalSource cfg20 w (toOAct bytes20 w b)) [] oStart as).any
      (fun x => x.1.all (fun y => okO y.1 y.2) && p x.1 x.2) = true) :
    ∃ h w, Hist (xstep opendalSource cfg20) oStart (h.map fun x => (x.1, toOAct bytes20 x.1 x.2)) w ∧
      (∀ x ∈ h.map fun x => (x.1, toOAct bytes20 x.1 x.2), (storeWorld bytes20).Allows x.1 x.2) ∧ p h w = true := by
  obtain ⟨h, w, h1, h2⟩ := exists_hist as (fun h w => h.all (fun y => okO y.1 y.2) && p h w) h
  rw [Bool.and_eq_true] at h2
  refine ⟨h, w, h1.made, fun x hx => ?_, h2.2⟩
  obtain ⟨y, hy, rfl⟩ := List.mem_map.mp hx
  exact okO_of (List.all_eq_true.mp h2.1 y hy)

/-- C84 fails for OpenDAL as for HTTP: the reader for a gap stalls, and after the reconnect everything behind the gap
arrives again.  32 bytes are received of an object of 20. -/
theorem C84_opendal_nothing_twice_violated :
    ∃ (w0 w : XSys opendalSource memStorage) (h : List (XSys opendalSource memStorage × XAct opendalSource)),
      OStarts memProvider cfg20 bytes20 w0 ∧ Hist (xstep opendalSource cfg20) w0 h w ∧
      (∀ x ∈ h, (storeWorld bytes20).Allows x.1 x.2) ∧ w.sys.spc = .ended ∧ bytes20.length = 20 ∧
      bytesReceived w.sys.log = 32 := by
  obtain ⟨h, w, h1, h2, h3⟩ := o_hist
    ([.chunk 2] ++ srcs 6 ++ [.seek (.start 8)] ++ rdrs 3 ++ [.recvSeek, .src, .seekOk 0, .chunk 6] ++ srcs 3 ++
      [.chunk 6] ++ srcs 8 ++ [.eof, .src, .seekOk 0, .timeout, .reconnOk 0, .chunk 2] ++ srcs 6 ++ [.chunk 8] ++ srcs 6 ++
      [.chunk 8] ++ srcs 6 ++ [.eof] ++ srcs 6)
    (fun h w => decide (w.sys.spc = .ended ∧ bytes20.length = 20 ∧ bytesReceived w.sys.log = 32)) (by decide +kernel)
  exact ⟨oStart, w, _, oStart_starts, h1, h2, of_decide_eq_true h3⟩

/-- A seek to 8 with a reconnect before and one after it; the gap is filled at the end.  The bounds are reached: two
requests for one seek, and twenty bytes. -/
example : ∃ (w0 w : XSys opendalSource memStorage) (h : List (XSys opendalSource memStorage × XAct opendalSource)),
    OStarts memProvider cfg20 bytes20 w0 ∧ Hist (xstep opendalSource cfg20) w0 h w ∧
    (∀ x ∈ h, (storeWorld bytes20).Allows x.1 x.2) ∧ (∀ x ∈ h, XReconnectsToEnd cfg20 x.1 x.2) ∧ w.sys.spc = .ended ∧
    rangeRequests w.sys.log = 2 ∧ xSeekCalls h = 1 ∧ bytesReceived w.sys.log = 20 := by
  obtain ⟨h, w, h1, h2, h3⟩ := o_hist
    ([.chunk 2] ++ srcs 6 ++ [.timeout, .reconnOk 0, .seek (.start 8)] ++ rdrs 3 ++ [.recvSeek, .src, .seekOk 0, .chunk 6] ++
      srcs 3 ++ [.chunkErr, .timeout, .reconnOk 0, .chunk 6] ++ srcs 8 ++ [.eof, .src, .seekOk 0, .chunk 2] ++ srcs 6 ++
      [.chunk 4] ++ srcs 6 ++ [.eof] ++ srcs 6)
    (fun h w => h.all (fun x => decide ((match x.2 with | .reconnOk _ | .reconnFail => true | _ => false) = true →
        x.1.sys.tlim = none ∨ x.1.sys.tlim = cfg20.contentLength)) &&
      decide (w.sys.spc = .ended ∧ rangeRequests w.sys.log = 2 ∧
        xSeekCalls (h.map fun x => (x.1, toOAct bytes20 x.1 x.2)) = 1 ∧ bytesReceived w.sys.log = 20)) (by decide +kernel)
  rw [Bool.and_eq_true] at h3
  refine ⟨oStart, w, _, oStart_starts, h1, h2, fun x hx e he => ?_, of_decide_eq_true h3.2⟩
  obtain ⟨y, hy, rfl⟩ := List.mem_map.mp hx
  have := of_decide_eq_true (List.all_eq_true.mp h3.1 y hy)
  generalize y.2 = a at this he
  cases a <;> simp [toOAct] at he <;> exact this rfl

/-- Two reconnects, one of them after an error, and no seek. -/
example : ∃ (w0 w : XSys opendalSource memStorage) (h : List (XSys opendalSource memStorage × XAct opendalSource)),
    OStarts memProvider cfg20 bytes20 w0 ∧ Hist (xstep opendalSource cfg20) w0 h w ∧
    (∀ x ∈ h, (storeWorld bytes20).Allows x.1 x.2) ∧ (∀ x ∈ h, ∀ f, x.2 ≠ .sys (.seek f)) ∧ w.sys.spc = .ended ∧
    bytesReceived w.sys.log = 20 := by
  obtain ⟨h, w, h1, h2, h3⟩ := o_hist
    ([.chunk 2] ++ srcs 6 ++ [.timeout, .reconnOk 0, .chunk 6] ++ srcs 6 ++ [.chunkErr, .timeout, .reconnOk 0, .chunk 8] ++
      srcs 6 ++ [.chunk 4] ++ srcs 6 ++ [.eof] ++ srcs 6)
    (fun h w => h.all (fun x => !x.2.isSeek) && decide (w.sys.spc = .ended ∧ bytesReceived w.sys.log = 20))
    (by decide +kernel)
  rw [Bool.and_eq_true] at h3
  refine ⟨oStart, w, _, oStart_starts, h1, h2, fun x hx f he => ?_, of_decide_eq_true h3.2⟩
  obtain ⟨y, hy, rfl⟩ := List.mem_map.mp hx
  have := List.all_eq_true.mp h3.1 y hy
  rw [Option.some.inj (toOAct_seek y.1 y.2 f he)] at this
  cases this

end SD
