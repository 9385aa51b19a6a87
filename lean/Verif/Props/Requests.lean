import Verif.Proof.Sys.Requests
import Verif.Props.Broken

/-!
# Property C83: how often the source is asked for a range

A seek of the consumer leads to at most two range requests: one for the position it wants, and one for the
gap that it leaves behind.  A connection that breaks off leads to at most one more.  Nothing else leads to
a range request.
-/

set_option linter.unusedVariables false

namespace SD

variable {P : Provider} {c : Cfg}

/-- C83: the number of range requests, in every history, for storage that keeps everything and a transport that
resumes where it was asked to. -/
theorem C83_requests_bounded (hP : Unbounded c.contentLength P) (hb : c.batchSize ≠ 0) (hlen : c.LengthHonest)
    {s0 s : Sys P.S} (h0 : Starts P c s0) {h : List (Sys P.S × Act)} (hh : Hist (step c) s0 h s)
    (hon : ∀ x ∈ h, Honest x.1 x.2) : rangeRequests s.log ≤ 2 * seekCalls h + breakOffs c h := by
  obtain ⟨LP, -, -⟩ := keeps_lawful hP
  obtain ⟨PP⟩ := keeps_positional hP
  cases hn : c.contentLength with
  | none => have := requests_unknown hn h0 hh; omega
  | some n => have := (requests_known hn LP PP hb hlen h0 hh hon).2; omega

/-- C83 without a known length, with any storage and any transport: only a seek leads to a range request, and to
at most one. -/
theorem C83_requests_unknown_length (hn : c.contentLength = none) {s0 s : Sys P.S} (h0 : Starts P c s0)
    {h : List (Sys P.S × Act)} (hh : Hist (step c) s0 h s) : rangeRequests s.log ≤ seekCalls h := by
  have := requests_unknown hn h0 hh; omega

/-- C83 with any storage and any transport: every range request is the consequence of a seek or of the end of a
connection. -/
theorem C83_requests_have_a_cause {s0 s : Sys P.S} (h0 : Starts P c s0)
    {h : List (Sys P.S × Act)} (hh : Hist (step c) s0 h s) :
    rangeRequests s.log ≤ seekCalls h + h.countP (fun x => x.2.isEof) := by
  have := requests_caused h0 hh
  omega

/-- C83: a consumer that does not seek causes a range request only when a connection breaks off. -/
theorem C83_no_requests_without_seeks (hP : Unbounded c.contentLength P) (hb : c.batchSize ≠ 0) (hlen : c.LengthHonest)
    {s0 s : Sys P.S} (h0 : Starts P c s0) {h : List (Sys P.S × Act)} (hh : Hist (step c) s0 h s)
    (hon : ∀ x ∈ h, Honest x.1 x.2) (hns : ∀ x ∈ h, ∀ f, x.2 ≠ .seek f) :
    rangeRequests s.log ≤ breakOffs c h := by
  have h1 := C83_requests_bounded hP hb hlen h0 hh hon
  have h2 : seekCalls h = 0 := by
    rw [seekCalls, List.countP_eq_zero]
    intro x hx
    have := hns x hx
    cases hx2 : x.2 <;> simp_all [Act.isSeek]
  omega

/-! ### HTTP -/

/-- The history, as one of the system. -/
theorem http_hist {remote : List Byte} {b : Byte} {S : Storage} {c : Cfg} {w0 w : HSys S} (hi : HInv remote c w0)
    {h : List (HSys S × HAct)} (hh : Hist (hstep c) w0 h w)
    (hA : ∀ x ∈ h, ∀ answer, x.2.answer = some answer → RangeServer remote answer)
    (hok : ∀ x ∈ h, RangesOk x.1 x.2) :
    HInv remote c w ∧ ∃ h', Hist (step (c.on remote b)) w0.sys h' w.sys ∧ (∀ x ∈ h', Honest x.1 x.2) ∧
      (∀ x ∈ h', ∃ y ∈ h, x.1 = y.1.sys ∧ y.2.Is x.2) ∧ (receivedFrom h').length = hReceived h ∧
      seekCalls h' = hSeekCalls h ∧ (c.contentLength ≠ none → breakOffs (c.on remote b) h' ≤ hBreakOffs h) := by
  induction hh with
  | nil => exact ⟨hi, [], .nil, by simp, by simp, rfl, rfl, fun _ => Nat.le_refl _⟩
  | @cons h w w' a hh hs ih =>
    obtain ⟨i1, h', i2, i3, i6, i7, i4, i5⟩ := ih (fun x hx => hA x (List.mem_cons_of_mem _ hx))
      (fun x hx => hok x (List.mem_cons_of_mem _ hx))
    obtain ⟨j1, x, j2, j3, j4⟩ := hstep_sim (b := b) i1 (hA _ List.mem_cons_self) (hok _ List.mem_cons_self) hs
    refine ⟨j1, (w.sys, x) :: h', .cons i2 j4, ?_, ?_, ?_, ?_, fun hn => ?_⟩
    · intro y hy
      rcases List.mem_cons.mp hy with rfl | hy
      · exact j3
      · exact i3 y hy
    · intro y hy
      rcases List.mem_cons.mp hy with rfl | hy
      · exact ⟨_, List.mem_cons_self, rfl, j2⟩
      · obtain ⟨z, z1, z2⟩ := i6 y hy
        exact ⟨z, List.mem_cons_of_mem _ z1, z2⟩
    · simp only [hReceived, receivedFrom, List.flatMap_cons, List.length_append, List.map_cons, List.sum_cons] at i7 ⊢
      rw [i7]
      congr 1
      cases j2 with
      | sys _ ha => cases x <;> simp [receivedAt, Act.ofTransport] at ha ⊢
      | _ => simp [receivedAt]
    · simp only [seekCalls, hSeekCalls, List.countP_cons] at i4 ⊢
      rw [i4]
      cases j2 <;> simp [Act.isSeek]
    · have hle := i5 hn
      simp only [breakOffs, hBreakOffs, List.countP_cons] at hle ⊢
      have key : breaksOff (c.on remote b) w.sys x = true →
          hBreaksOff w a = true := by
        intro hx
        cases x <;> simp [breaksOff] at hx
        cases j2 with
        | sys _ _ =>
          have hp : w.sys.spc = .sel := by
            have := tr_of_step j4
            generalize w'.sys = s' at this
            cases this <;> assumption
          have hbody := i1.body (by rw [hp]; rfl)
          simp only [hBreaksOff, bne_iff_ne, ne_eq]
          intro he
          rw [he] at hbody
          cases hc : c.contentLength with
          | none => exact hn hc
          | some n =>
            have hr := i1.real n hc
            have hc' : (c.on remote b).contentLength = some n := hc
            rw [hc'] at hx
            rcases empty_bytesIn hbody.symm with h | ⟨e, h, h'⟩
            · have := hx.1; simp at this; omega
            · rw [h] at hx; have := hx.2; simp at this; omega
      by_cases hx : breaksOff (c.on remote b) w.sys x = true
      · rw [if_pos hx, if_pos (key hx)]
        omega
      · simp only [hx]
        simp only [Bool.false_eq_true, if_false]
        omega

/-- C83 for HTTP, as long as the task asks for proper ranges (C61). -/
theorem C83_http_requests_bounded_partial (hP : Unbounded c.contentLength P) (hb : c.batchSize ≠ 0)
    {remote : List Byte} {mime : Text → Option (Text × Text)} {answer : Answer} (hA : RangeServer remote answer)
    {w0 w : HSys P.S} (h0 : HStarts P c mime answer w0) {h : List (HSys P.S × HAct)}
    (hh : Hist (hstep c) w0 h w) (hS : ∀ x ∈ h, ∀ answer, x.2.answer = some answer → RangeServer remote answer)
    (hok : ∀ x ∈ h, RangesOk x.1 x.2) :
    rangeRequests w.sys.log ≤ 2 * hSeekCalls h + hBreakOffs h := by
  have hi := HInv.starts hA h0
  obtain ⟨-, h', k1, k2, -, -, k3, k4⟩ := http_hist (b := 0) hi hh hS hok
  cases hn : c.contentLength with
  | none =>
    have := C83_requests_unknown_length (c := c.on remote 0) hn h0.2.2.2 k1
    omega
  | some n =>
    have := C83_requests_bounded (c := c.on remote 0) hP hb (fun m hm => ⟨remote.length, rfl, Nat.le_of_eq (hi.real m hm).symm⟩) h0.2.2.2 k1 k2
    have := k4 (by simp [hn])
    omega

/-- Without seeks the task asks for proper ranges. -/
theorem ranges_of_noSeek' {remote : List Byte} {mime : Text → Option (Text × Text)} {answer : Answer}
    (hA : RangeServer remote answer) {w0 w : HSys P.S} (h0 : HStarts P c mime answer w0)
    {h : List (HSys P.S × HAct)} (hh : Hist (hstep c) w0 h w)
    (hS : ∀ x ∈ h, ∀ answer, x.2.answer = some answer → RangeServer remote answer)
    (hns : ∀ x ∈ h, ∀ f, x.2 ≠ .sys (.seek f)) : ∀ x ∈ h, RangesOk x.1 x.2 := by
  obtain ⟨-, -, -, -, st, -, e0⟩ := h0.2.2.2 |> fun x => (⟨trivial, trivial, trivial, x⟩ : True ∧ True ∧ True ∧ _)
  have key : HReach c (RangeServer remote) HNoSeek w0 w ∧ ∀ x ∈ h, HReach c (RangeServer remote) HNoSeek w0 x.1 := by
      induction hh with
    | nil => exact ⟨.refl, by simp⟩
    | @cons h w w' a hh hs ih =>
      obtain ⟨k1, k2⟩ := ih (fun x hx => hS x (List.mem_cons_of_mem _ hx))
        (fun x hx => hns x (List.mem_cons_of_mem _ hx))
      refine ⟨k1.step (hS _ List.mem_cons_self) (hns _ List.mem_cons_self) hs, ?_⟩
      intro x hx
      rcases List.mem_cons.mp hx with rfl | hx
      · exact k1
      · exact k2 x hx
  intro x hx start e hp
  obtain ⟨hR', -⟩ := hreach_sim (b := 0) (G' := NoSeek) (fun w a x hg hx f hf => by
      subst hf; cases hx; exact hg f rfl) (HInv.starts hA h0)
    (fun w a hR _ _ start e hp => by
      rw [e0] at hR
      exact Or.inl (noSeek_ranges (hR.mono fun _ _ hg => hg.2) start e hp)) (key.2 x hx)
  rw [e0] at hR'
  exact Or.inl (noSeek_ranges (hR'.mono fun _ _ hg => hg.2) start e hp)

/-- C83 for HTTP without seeks: only a body that breaks off leads to a range request. -/
theorem C83_http_no_requests_without_seeks (hP : Unbounded c.contentLength P) (hb : c.batchSize ≠ 0)
    {remote : List Byte} {mime : Text → Option (Text × Text)} {answer : Answer} (hA : RangeServer remote answer)
    {w0 w : HSys P.S} (h0 : HStarts P c mime answer w0) {h : List (HSys P.S × HAct)}
    (hh : Hist (hstep c) w0 h w) (hS : ∀ x ∈ h, ∀ answer, x.2.answer = some answer → RangeServer remote answer)
    (hns : ∀ x ∈ h, ∀ f, x.2 ≠ .sys (.seek f)) :
    rangeRequests w.sys.log ≤ hBreakOffs h := by
  have hok := ranges_of_noSeek' hA h0 hh hS hns
  have h1 := C83_http_requests_bounded_partial hP hb hA h0 hh hS hok
  have h2 : hSeekCalls h = 0 := by
    rw [hSeekCalls, List.countP_eq_zero]
    intro x hx
    have := hns x hx
    cases hx2 : x.2 with
    | sys a => cases a <;> simp_all [Act.isSeek]
    | _ => simp
  omega

/-! ### Non-vacuity -/

/-- The history of a list of actions. -/
def steps {W A : Type} (f : W → A → Option W) (h : List (W × A)) (w : W) : List A → Option (List (W × A) × W)
  | [] => some (h, w)
  | a :: as =>
    match f w a with
    | some w' => steps f ((w, a) :: h) w' as
    | none => none

theorem hist_steps {W A : Type} {f : W → A → Option W} {w0 : W} :
    ∀ {as : List A} {h : List (W × A)} {w : W} {h' : List (W × A)} {w' : W}, Hist f w0 h w →
      steps f h w as = some (h', w') → Hist f w0 h' w'
  | [], _, _, _, _, hh, he => by simp only [steps, Option.some.injEq, Prod.mk.injEq] at he; rw [← he.1, ← he.2]; exact hh
  | a :: as, h, w, _, _, hh, he => by
    simp only [steps] at he
    split at he
    · exact hist_steps (hh.cons ‹_›) he
    · simp at he

theorem exists_hist {W A : Type} {f : W → A → Option W} {w0 : W} (as : List A) (p : List (W × A) → W → Bool)
    (h : (steps f [] w0 as).any (fun x => p x.1 x.2) = true) : ∃ h w, Hist f w0 h w ∧ p h w = true := by
  cases hs : steps f [] w0 as with
  | none => rw [hs] at h; simp at h
  | some x => rw [hs] at h; exact ⟨x.1, x.2, hist_steps .nil hs, by simpa using h⟩

theorem steps_acts {W A : Type} {f : W → A → Option W} :
    ∀ {as : List A} {h : List (W × A)} {w : W} {h' : List (W × A)} {w' : W},
      steps f h w as = some (h', w') → ∀ x ∈ h', x ∈ h ∨ x.2 ∈ as
  | [], _, _, _, _, he => by simp only [steps, Option.some.injEq, Prod.mk.injEq] at he; rw [← he.1]; simp
  | a :: as, h, w, _, _, he => by
    intro x hx
    simp only [steps] at he
    split at he
    · rcases steps_acts he x hx with h | h
      · rcases List.mem_cons.mp h with rfl | h
        · exact Or.inr List.mem_cons_self
        · exact Or.inl h
      · exact Or.inr (List.mem_cons_of_mem _ h)
    · simp at he

theorem exists_hist' {W A : Type} {f : W → A → Option W} {w0 : W} (as : List A) (p : List (W × A) → W → Bool)
    (h : (steps f [] w0 as).any (fun x => p x.1 x.2) = true) :
    ∃ h w, Hist f w0 h w ∧ (∀ x ∈ h, x.2 ∈ as) ∧ p h w = true := by
  cases hs : steps f [] w0 as with
  | none => rw [hs] at h; simp at h
  | some x =>
    rw [hs] at h
    exact ⟨x.1, x.2, hist_steps .nil hs, fun y hy => (steps_acts hs y hy).resolve_left (by simp), by simpa using h⟩

/-- The bound is sharp: a consumer jumps over three bytes, and there are two requests; the connection for the gap
breaks off after one byte, and there is a third. -/
example : ∃ (s0 s : Sys memStorage) (h : List (Sys memStorage × Act)), Starts memProvider demoCfg s0 ∧
    Hist (step demoCfg) s0 h s ∧ (∀ x ∈ h, Honest x.1 x.2) ∧ seekCalls h = 1 ∧ breakOffs demoCfg h = 1 ∧
    rangeRequests s.log = 3 := by
  obtain ⟨h, s, h1, h2⟩ := exists_hist (f := step (S := memStorage) demoCfg) (w0 := init demoCfg demoMem10)
    ([.chunk 2] ++ srcs 6 ++ [.seek (.start 5)] ++ rdrs 3 ++ [.recvSeek, .src, .seekOk 5, .chunk 5] ++ srcs 3 ++
      [.eof, .src, .seekOk 2, .chunk 1] ++ srcs 6 ++ [.eof, .src, .seekOk 3])
    (fun h s => h.all (fun x => honestB x.1 x.2) && decide (seekCalls h = 1 ∧ breakOffs demoCfg h = 1 ∧
      rangeRequests s.log = 3)) (by decide +kernel)
  rw [Bool.and_eq_true] at h2
  exact ⟨_, s, h, ⟨rfl, _, rfl, rfl⟩, h1, fun x hx => honest_of (List.all_eq_true.mp h2.1 x hx), of_decide_eq_true h2.2⟩

/-- No seeks, and a connection that breaks off twice. -/
example : ∃ (s0 s : Sys memStorage) (h : List (Sys memStorage × Act)), Starts memProvider demoCfg s0 ∧
    Hist (step demoCfg) s0 h s ∧ (∀ x ∈ h, Honest x.1 x.2) ∧ (∀ x ∈ h, ∀ f, x.2 ≠ .seek f) ∧ breakOffs demoCfg h = 2 ∧
    rangeRequests s.log = 2 ∧ s.spc = .ended := by
  obtain ⟨h, s, h1, h2⟩ := exists_hist (f := step (S := memStorage) demoCfg) (w0 := init demoCfg demoMem10)
    ([.chunk 2] ++ srcs 6 ++ [.eof, .src, .seekOk 2, .chunk 5] ++ srcs 6 ++ [.eof, .src, .seekOk 7, .chunk 3] ++
      srcs 6 ++ [.eof] ++ srcs 6)
    (fun h s => h.all (fun x => honestB x.1 x.2 && noSeekB x.1 x.2) && decide (breakOffs demoCfg h = 2 ∧
      rangeRequests s.log = 2 ∧ s.spc = .ended)) (by decide +kernel)
  rw [Bool.and_eq_true] at h2
  have hx : ∀ x ∈ h, _ := fun x hx => (Bool.and_eq_true _ _).mp (List.all_eq_true.mp h2.1 x hx)
  exact ⟨_, s, h, ⟨rfl, _, rfl, rfl⟩, h1, fun x hh => honest_of (hx x hh).1, fun x hh => noSeek_of (hx x hh).2,
    of_decide_eq_true h2.2⟩

/-- The same resource, without a declared length. -/
def demoUnsized : Cfg := { demoCfg with contentLength := none }

/-- Memory storage for it. -/
def demoMem0 : Mem := { buf := [], written := 0, rp := 0, wp := 0 }

/-- Unknown length: one seek, one request, and none for the gap. -/
example : ∃ (s0 s : Sys memStorage) (h : List (Sys memStorage × Act)),
    Starts memProvider demoUnsized s0 ∧
    Hist (step demoUnsized) s0 h s ∧ seekCalls h = 1 ∧ rangeRequests s.log = 1 ∧
    s.spc = .ended := by
  obtain ⟨h, s, h1, h2⟩ := exists_hist (f := step (S := memStorage) demoUnsized)
    (w0 := init demoUnsized demoMem0)
    ([.chunk 2] ++ srcs 6 ++ [.seek (.start 5)] ++ rdrs 3 ++ [.recvSeek, .src, .seekOk 5, .chunk 5] ++ srcs 3 ++
      [.eof] ++ srcs 6)
    (fun h s => decide (seekCalls h = 1 ∧ rangeRequests s.log = 1 ∧ s.spc = .ended)) (by decide +kernel)
  exact ⟨_, s, h, ⟨rfl, _, rfl, rfl⟩, h1, of_decide_eq_true h2⟩

/-- HTTP: the consumer jumps from 0 to 8 after two bytes, and the gap is asked for at the end. -/
example : ∃ (w0 w : HSys memStorage) (h : List (HSys memStorage × HAct)),
    HStarts memProvider cfg20 (fun _ => none) (server20 headers20) w0 ∧ Hist (hstep cfg20) w0 h w ∧
    (∀ x ∈ h, ∀ answer, x.2.answer = some answer → RangeServer bytes20 answer) ∧ (∀ x ∈ h, RangesOk x.1 x.2) ∧
    hSeekCalls h = 1 ∧ hBreakOffs h = 0 ∧ rangeRequests w.sys.log = 2 := by
  let w0 : HSys memStorage := { sys := init cfg20 demoMem20, http := stream20 headers20 (some 20) }
  let as : List Act := [.chunk 2] ++ srcs 6 ++ [.seek (.start 8)] ++ rdrs 3 ++ [.recvSeek, .src, .seekOk 0, .chunk 12] ++
    srcs 3 ++ [.eof, .src, .seekOk 0, .chunk 6] ++ srcs 8 ++ [.eof] ++ srcs 6
  obtain ⟨h, w, h1, h3, h2⟩ := exists_hist' (f := hstep cfg20) (w0 := w0) (as.map (toHAct (server20 headers20)))
    (fun h w => h.all (fun x => hrangesB cfg20 x.1 .src) && decide (hSeekCalls h = 1 ∧ hBreakOffs h = 0 ∧
      rangeRequests w.sys.log = 2)) (by decide +kernel)
  rw [Bool.and_eq_true] at h2
  refine ⟨w0, w, h, ⟨server20_new (by decide +kernel), rfl, rfl, rfl, demoMem20, rfl, rfl⟩, h1, fun x hx answer he => ?_,
    fun x hx => (hranges_of (answer := server20 headers20) (List.all_eq_true.mp h2.1 x hx)).1, of_decide_eq_true h2.2⟩
  obtain ⟨a, -, ha⟩ := List.mem_map.mp (h3 x hx)
  rw [← ha] at he
  cases a <;> simp [HAct.answer, toHAct] at he <;> subst he <;> exact headers20_ok

/-- HTTP without seeks: bodies that break off after 2 and 8 bytes. -/
example : ∃ (w0 w : HSys memStorage) (h : List (HSys memStorage × HAct)),
    HStarts memProvider cfg20 (fun _ => none) (server20 headers20) w0 ∧ Hist (hstep cfg20) w0 h w ∧
    (∀ x ∈ h, ∀ answer, x.2.answer = some answer → RangeServer bytes20 answer) ∧ (∀ x ∈ h, ∀ f, x.2 ≠ .sys (.seek f)) ∧
    hBreakOffs h = 2 ∧ rangeRequests w.sys.log = 2 ∧ w.sys.spc = .ended := by
  let w0 : HSys memStorage := { sys := init cfg20 demoMem20, http := stream20 headers20 (some 20) }
  let as : List Act := [.chunk 4] ++ srcs 6 ++ [.eof, .src, .seekOk 0, .chunk 4] ++ srcs 6 ++ [.eof, .src, .seekOk 0,
    .chunk 12] ++ srcs 6 ++ [.eof] ++ srcs 6
  obtain ⟨h, w, h1, h3, h2⟩ := exists_hist' (f := hstep cfg20) (w0 := w0) (as.map (toHAct (server20 headers20)))
    (fun h w => decide (hBreakOffs h = 2 ∧ rangeRequests w.sys.log = 2 ∧ w.sys.spc = .ended)) (by decide +kernel)
  refine ⟨w0, w, h, ⟨server20_new (by decide +kernel), rfl, rfl, rfl, demoMem20, rfl, rfl⟩, h1, fun x hx answer he => ?_,
    fun x hx f he => ?_, of_decide_eq_true h2⟩
  all_goals
    obtain ⟨a, ha', ha⟩ := List.mem_map.mp (h3 x hx)
    rw [← ha] at he
  · cases a <;> simp [HAct.answer, toHAct] at he <;> subst he <;> exact headers20_ok
  · cases a <;> simp [toHAct] at he
    subst he
    simp [as, srcs] at ha'

end SD
