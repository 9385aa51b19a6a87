import Verif.Props.ReaderPanic
import Verif.Props.AnyBounded

/-!
# Property C63: calls return, and not by a panic

The theorems of `Props/Live`, `Props/AnyServer` and `Props/AnySource` allow a call to end in a panic and ask that the
last `u64` is not asked for.  With the bounds of C91 neither happens: the call returns a value or an error.
-/

namespace SD

variable {P : Provider} {c : Cfg}

theorem calm_no_seek (hP : Supported c.contentLength P) {s0 s : Sys P.S} (h0 : Starts P c s0)
    (h : Reach c (fun s a => NoSeek s a ∧ ∀ n, a = .read n → n < two63) s0 s)
    (hfew : (delivered s.log).length < two63) : s.rpc ≠ .panicked ∧ Ev.request (two64 - 1) ∉ s.log := by
  obtain ⟨GP⟩ := supported_gentle hP
  obtain ⟨PP⟩ := supported_positional hP
  have h1 := reader_calm (B := two63 - 1) GP PP (fun s a (hg : NoSeek s a ∧ ∀ n, a = .read n → n < two63) =>
    ⟨fun _ => hg.1, fun n hn => Nat.le_sub_one_of_lt (hg.2 n hn), fun f _ hf => absurd hf (hg.1 f),
      fun f hf => absurd hf (hg.1 f)⟩) h0 h
  refine ⟨fun hp => ?_, fun hm => ?_⟩
  · have := h1.calm hp
    simp only [two63, two64] at *
    omega
  · have := h1.reqs _ hm
    simp only [two63, two64] at *
    omega

theorem calm_known (hP : Unbounded c.contentLength P) {N : Nat} (hN : c.contentLength = some N)
    {s0 s : Sys P.S} (h0 : Starts P c s0)
    (h : Reach c (fun s a => (∀ n, a = .read n → n < two63) ∧
      ∀ f, a = .seek f → c.checks = false ∨ c.absolute (P.S.tell s.st).1 f ≠ .panic) s0 s)
    (hfew : N + (delivered s.log).length < two63) : s.rpc ≠ .panicked ∧ Ev.request (two64 - 1) ∉ s.log := by
  obtain ⟨GP⟩ := keeps_gentle hP
  obtain ⟨PP⟩ := keeps_positional hP
  have h1 := reader_calm (B := two63 - 1) GP PP (fun s a (hg : (∀ n, a = .read n → n < two63) ∧
      ∀ f, a = .seek f → c.checks = false ∨ c.absolute (P.S.tell s.st).1 f ≠ .panic) =>
    ⟨fun h => by simp at h, fun n hn => Nat.le_sub_one_of_lt (hg.1 n hn),
      fun f p _ _ => by rw [hN]; exact normalize_le_length hN p,
      fun f hf => (hg.2 f hf).elim (fun hc => absolute_unchecked hc _ f) id⟩) h0 h
  refine ⟨fun hp => ?_, fun hm => ?_⟩
  · have := h1.calm hp
    rw [hN] at this
    simp only [two63, two64, Option.getD_some] at *
    omega
  · have := h1.reqs _ hm
    rw [hN] at this
    simp only [two63, two64, Option.getD_some] at *
    omega

/-- **C63** for consumers that do not seek: as long as the transport delivers, every `read` returns a value or an
error. -/
theorem C63_reads_return_value (hP : Unbounded c.contentLength P) (hb : c.batchSize ≠ 0) {s0 : Sys P.S}
    (h0 : Starts P c s0) {r : Nat → Sys P.S} {act : Nat → Option Act} (he : Exec c s0 r act)
    (hfs : Fair c r act .src) (hfr : Fair c r act .rdr) (hk : KeepsDelivering r act)
    (hne : ∀ j, act j ≠ some (.chunk 0)) (hs : ∀ j f, act j ≠ some (.seek f))
    (hn : ∀ j n, act j = some (.read n) → n < two63) (hfew : ∀ j, (delivered (r j).log).length < two63) {i : Nat}
    (hc : (r i).rpc.inCall = true) : ∃ j, i ≤ j ∧ (r j).rpc = .idle := by
  have h1 := fun j => calm_no_seek (.inl hP) h0 (he.reachG (fun i a ha =>
    ⟨fun f e => hs i f (by rw [ha, e]), fun n e => hn i n (by rw [ha, e])⟩) j) (hfew j)
  obtain ⟨j, hj, h2⟩ := C63_calls_return_unbounded hP hb h0 he hfs hfr hk hne (fun j => (h1 j).2) hc
  exact ⟨j, hj, h2.resolve_right (h1 j).1⟩

/-- **C63** for known lengths: as long as the transport delivers, every `read` and every `seek` returns a value or an
error, if the additions in `seek` do not overflow or the build does not check for that. -/
theorem C63_calls_return_value_known_length (hP : Unbounded c.contentLength P) {N : Nat} (hN : c.contentLength = some N)
    (hb : c.batchSize ≠ 0) {s0 : Sys P.S}
    (h0 : Starts P c s0) {r : Nat → Sys P.S} {act : Nat → Option Act} (he : Exec c s0 r act)
    (hfs : Fair c r act .src) (hfr : Fair c r act .rdr) (hk : KeepsDelivering r act)
    (hne : ∀ j, act j ≠ some (.chunk 0)) (hn : ∀ j n, act j = some (.read n) → n < two63)
    (hs : ∀ j f, act j = some (.seek f) → c.checks = false ∨ c.absolute (P.S.tell (r j).st).1 f ≠ .panic)
    (hfew : ∀ j, N + (delivered (r j).log).length < two63) {i : Nat}
    (hc : (r i).rpc.inCall = true) : ∃ j, i ≤ j ∧ (r j).rpc = .idle := by
  have h1 := fun j => calm_known hP hN h0 (he.reachG (fun i a ha =>
    ⟨fun n e => hn i n (by rw [ha, e]), fun f e => hs i f (by rw [ha, e])⟩) j) (hfew j)
  obtain ⟨j, hj, h2⟩ := C63_calls_return_unbounded hP hb h0 he hfs hfr hk hne (fun j => (h1 j).2) hc
  exact ⟨j, hj, h2.resolve_right (h1 j).1⟩

/-- **C88** for consumers that do not seek: whatever the server answers, as long as it delivers bytes every `read`
returns a value or an error. -/
theorem C88_reads_return_value (hP : Unbounded c.contentLength P) (hb : c.batchSize ≠ 0)
    {mime : Text → Option (Text × Text)} {answer : Answer} {w0 : HSys P.S} (h0 : HStarts P c mime answer w0)
    {r : Nat → HSys P.S} {act : Nat → Option HAct} (h : HRun c (fun _ => True) w0 r act)
    (hk : HKeepsDelivering r act) (hs : ∀ j f, act j ≠ some (.sys (.seek f)))
    (hn : ∀ j n, act j = some (.sys (.read n)) → n < two63) (hfew : ∀ j, (delivered (r j).sys.log).length < two63)
    {i : Nat} (hc : (r i).sys.rpc.inCall = true) : ∃ j, i ≤ j ∧ (r j).sys.rpc = .idle := by
  obtain ⟨ρ, act', t, h1, h2, -⟩ := any_server (starts_tape (ρ := fun _ => 0) h0.2.2.2).2.2 h.run
  obtain ⟨k1, k2, -⟩ := starts_tape (ρ := ρ) h0.2.2.2
  rw [k2] at h1
  have h3 : ∀ j, (r j).sys.rpc ≠ .panicked ∧ Ev.request (two64 - 1) ∉ (r j).sys.log := by
    intro j
    refine calm_no_seek (c := c.tape ρ) (s := (r j).sys.tape (t j)) (.inl hP) k1
      (h1.reachG (fun i x hx => ?_) j) (hfew j)
    obtain ⟨a, ha, hax⟩ := h2 i x hx
    refine ⟨fun f e => ?_, fun n e => ?_⟩
    · subst e; cases hax; exact hs i f ha
    · subst e; cases hax; exact hn i n ha
  obtain ⟨j, hj, h4⟩ := C88_calls_return hP hb h0 h hk (fun j => (h3 j).2) hc
  exact ⟨j, hj, h4.resolve_right (h3 j).1⟩

variable {R : Source}

/-- **C90** for consumers that do not seek: whatever the source does, as long as it delivers bytes every `read`
returns a value or an error. -/
theorem C90_reads_return_value (hP : Unbounded c.contentLength P) (hb : c.batchSize ≠ 0) {w0 : XSys R P.S}
    (h0 : Starts P c w0.sys) {W : World R} {r : Nat → XSys R P.S} {act : Nat → Option (XAct R)} (h : XRun c W w0 r act)
    (hp : ∀ i a, act i = some a → Polite (r i) a) (hk : XKeepsDelivering r act)
    (hs : ∀ j f, act j ≠ some (.sys (.seek f))) (hn : ∀ j n, act j = some (.sys (.read n)) → n < two63)
    (hfew : ∀ j, (delivered (r j).sys.log).length < two63) {i : Nat} (hc : (r i).sys.rpc.inCall = true) :
    ∃ j, i ≤ j ∧ (r j).sys.rpc = .idle := by
  obtain ⟨ρ, act', t, h1, h2, -⟩ := any_source h.run hp
  obtain ⟨k1, k2, -⟩ := starts_tape (ρ := ρ) h0
  rw [k2] at h1
  have h3 : ∀ j, (r j).sys.rpc ≠ .panicked ∧ Ev.request (two64 - 1) ∉ (r j).sys.log := by
    intro j
    refine calm_no_seek (c := c.tape ρ) (s := (r j).sys.tape (t j)) (.inl hP) k1
      (h1.reachG (fun i x hx => ?_) j) (hfew j)
    obtain ⟨a, ha, hax⟩ := h2 i x hx
    refine ⟨fun f e => ?_, fun n e => ?_⟩
    · subst e; cases hax; exact hs i f ha
    · subst e; cases hax; exact hn i n ha
  obtain ⟨j, hj, h4⟩ := C90_calls_return hP hb h0 h hp hk (fun j => (h3 j).2) hc
  exact ⟨j, hj, h4.resolve_right (h3 j).1⟩

/-- **C90** for known lengths, in builds without overflow checks: whatever the source does, as long as it delivers bytes
every `read` and every `seek` returns a value or an error. -/
theorem C90_calls_return_value_partial (hP : Unbounded c.contentLength P) {N : Nat} (hN : c.contentLength = some N)
    (hch : c.checks = false) (hb : c.batchSize ≠ 0) {w0 : XSys R P.S}
    (h0 : Starts P c w0.sys) {W : World R} {r : Nat → XSys R P.S} {act : Nat → Option (XAct R)} (h : XRun c W w0 r act)
    (hp : ∀ i a, act i = some a → Polite (r i) a) (hk : XKeepsDelivering r act)
    (hn : ∀ j n, act j = some (.sys (.read n)) → n < two63)
    (hfew : ∀ j, N + (delivered (r j).sys.log).length < two63) {i : Nat} (hc : (r i).sys.rpc.inCall = true) :
    ∃ j, i ≤ j ∧ (r j).sys.rpc = .idle := by
  obtain ⟨ρ, act', t, h1, h2, -⟩ := any_source h.run hp
  obtain ⟨k1, k2, -⟩ := starts_tape (ρ := ρ) h0
  rw [k2] at h1
  have h3 : ∀ j, (r j).sys.rpc ≠ .panicked ∧ Ev.request (two64 - 1) ∉ (r j).sys.log := by
    intro j
    refine calm_known (c := c.tape ρ) (s := (r j).sys.tape (t j)) hP hN k1
      (h1.reachG (fun i x hx => ⟨fun n e => ?_, fun _ _ => .inl hch⟩) j) (hfew j)
    obtain ⟨a, ha, hax⟩ := h2 i x hx
    subst e; cases hax; exact hn i n ha
  obtain ⟨j, hj, h4⟩ := C90_calls_return hP hb h0 h hp hk (fun j => (h3 j).2) hc
  exact ⟨j, hj, h4.resolve_right (h3 j).1⟩

/-! ### Histories that meet the hypotheses -/

theorem trace_all {W A B : Type} {st : W → A → Option W} {g : W → B → Bool} {f : W → B → A} {w0 : W} {bs : List B}
    {p : W → Bool} (h : ((List.range (bs.length + 1)).all fun j => p (trace st g f w0 bs j)) = true) (j : Nat) :
    p (trace st g f w0 bs j) = true := by
  rcases Nat.le_total j bs.length with h1 | h1
  · exact List.all_eq_true.mp h j (by simp; omega)
  · rw [trace_end h1]
    exact List.all_eq_true.mp h bs.length (by simp)

theorem after_all {S : Storage} {c : Cfg} {s0 : Sys S} {as : List Act} {p : Sys S → Bool}
    (h : ((List.range (as.length + 1)).all fun j => p (after c s0 as j)) = true) (j : Nat) :
    p (after c s0 as j) = true := by
  rcases Nat.le_total j as.length with h1 | h1
  · exact List.all_eq_true.mp h j (by simp; omega)
  · rw [after_end h1]
    exact List.all_eq_true.mp h as.length (by simp)

def tinyReads (as : List Act) : Bool := as.all fun a => match a with | .read n => decide (n < two63) | _ => true

theorem tinyReads_of {as : List Act} (h : tinyReads as = true) (j n : Nat) (e : as[j]? = some (.read n)) :
    n < two63 :=
  of_decide_eq_true (List.all_eq_true.mp h _ (List.mem_of_getElem? e))

/-- The hypotheses of `C63_reads_return_value`. -/
example : ∃ (s0 : Sys memStorage) (r : Nat → Sys memStorage) (act : Nat → Option Act),
    Starts memProvider demoCfg s0 ∧ Exec demoCfg s0 r act ∧ Fair demoCfg r act .src ∧
      Fair demoCfg r act .rdr ∧ KeepsDelivering r act ∧ (∀ j, act j ≠ some (.chunk 0)) ∧
      (∀ j f, act j ≠ some (.seek f)) ∧ (∀ j n, act j = some (.read n) → n < two63) ∧
      (∀ j, (delivered (r j).log).length < two63) ∧ (r 4).rpc = .rWait 4 4 := by
  let as : List Act := [.read 4] ++ rdrs 3 ++ [.chunkErr, .timeout, .reconnOk 0, .chunk 2] ++ srcs 6 ++
      [.timeout, .reconnOk 2, .chunk 2] ++ srcs 8 ++ rdrs 5 ++ [.eof, .src, .seekOk 4, .chunk 6] ++ srcs 6 ++
      [.eof] ++ srcs 6
  obtain ⟨h1, h2, h3, h4, h5, -, -⟩ := assumed_of_run (P := memProvider) (c := demoCfg) (g := fun _ _ => true) demoMem10
    as rfl rfl (by decide +kernel) (by decide +kernel)
  refine ⟨_, _, _, h1, h2, h3, h4, h5, fun j e => ?_, fun j f e => ?_, tinyReads_of (by decide +kernel), fun j => ?_, ?_⟩
  · exact absurd (List.mem_of_getElem? e) (by decide +kernel)
  · have := List.all_eq_true.mp (show (as.all fun a => !a.isSeek) = true by decide +kernel) _ (List.mem_of_getElem? e)
    simp [Act.isSeek] at this
  · exact of_decide_eq_true (after_all (p := fun s : Sys memStorage => decide ((delivered s.log).length < two63))
      (by decide +kernel) j)
  · decide +kernel

/-- The hypotheses of `C63_calls_return_value_known_length`: a read and a seek that wait. -/
example : ∃ (s0 : Sys memStorage) (r : Nat → Sys memStorage) (act : Nat → Option Act),
    Starts memProvider { demoCfg with checks := false } s0 ∧ Exec { demoCfg with checks := false } s0 r act ∧
      Fair { demoCfg with checks := false } r act .src ∧ Fair { demoCfg with checks := false } r act .rdr ∧
      KeepsDelivering r act ∧ (∀ j, act j ≠ some (.chunk 0)) ∧ (∀ j n, act j = some (.read n) → n < two63) ∧
      (∀ j, 10 + (delivered (r j).log).length < two63) ∧ (r 4).rpc = .rWait 4 4 ∧ (r 34).rpc = .sWait 8 := by
  let as : List Act := [.read 4] ++ rdrs 3 ++ [.chunkErr, .timeout, .reconnOk 0, .chunk 2] ++ srcs 6 ++
      [.timeout, .reconnOk 2, .chunk 2] ++ srcs 8 ++ rdrs 5 ++ [.seek (.start 8)] ++ rdrs 3 ++
      [.recvSeek, .src, .seekOk 8, .chunk 2] ++ srcs 3 ++ [.eof, .src, .seekOk 4, .chunk 4] ++ srcs 8 ++ rdrs 3 ++
      [.eof] ++ srcs 6
  obtain ⟨h1, h2, h3, h4, h5, -, -⟩ := assumed_of_run (P := memProvider) (c := { demoCfg with checks := false })
    (g := fun _ _ => true) demoMem10 as rfl rfl (by decide +kernel) (by decide +kernel)
  refine ⟨_, _, _, h1, h2, h3, h4, h5, fun j e => ?_, tinyReads_of (by decide +kernel), fun j => ?_, ?_, ?_⟩
  · exact absurd (List.mem_of_getElem? e) (by decide +kernel)
  · exact of_decide_eq_true (after_all (p := fun s : Sys memStorage => decide (10 + (delivered s.log).length < two63))
      (by decide +kernel) j)
  · decide +kernel
  · decide +kernel

/-- The hypotheses of `C88_reads_return_value`. -/
example : ∃ (w0 : HSys memStorage) (r : Nat → HSys memStorage) (act : Nat → Option HAct),
    HStarts memProvider cfg20 (fun _ => none) liar w0 ∧ HRun cfg20 (fun _ => True) w0 r act ∧
      HKeepsDelivering r act ∧ (∀ j f, act j ≠ some (.sys (.seek f))) ∧
      (∀ j n, act j = some (.sys (.read n)) → n < two63) ∧ (∀ j, (delivered (r j).sys.log).length < two63) ∧
      (r 12).sys.rpc = .rWait 8 8 := by
  refine ⟨liarStart, trace (hstep cfg20) (fun _ _ => true) (fun _ => toHAct liar) liarStart liarActs,
    traceAct (hstep cfg20) (fun _ _ => true) (fun _ => toHAct liar) liarStart liarActs, liar_starts,
    ⟨run_trace _ _, fun _ _ _ _ _ => trivial, fair_trace (by decide +kernel), fair_trace (by decide +kernel)⟩,
    working_trace (by decide +kernel), fun j f e => ?_, fun j n e => ?_, fun j => ?_, by decide +kernel⟩
  · exact seekless_trace (ev := some) (fun _ b k => toHAct_seek b k) (by decide +kernel) j f e
  · obtain ⟨b, h1, -, h2, -⟩ := traceAct_some e
    have h3 := tinyReads_of (as := liarActs) (by decide +kernel) j n
    cases b <;> simp [toHAct] at h2
    subst h2
    exact h3 h1
  · exact of_decide_eq_true (trace_all (p := fun w : HSys memStorage => decide ((delivered w.sys.log).length < two63))
      (by decide +kernel) j)

def xTinyReads (as : List (XAct R)) : Bool :=
  as.all fun a => match a with | .sys (.read n) => decide (n < two63) | _ => true

/-- The hypotheses of `C90_reads_return_value` and of `C90_calls_return_value_partial`. -/
example : ∃ (w0 : XSys puppet memStorage) (r : Nat → XSys puppet memStorage) (act : Nat → Option (XAct puppet)),
    Starts memProvider { cfg20 with checks := false } w0.sys ∧
      XRun { cfg20 with checks := false } puppetWorld w0 r act ∧ (∀ i a, act i = some a → Polite (r i) a) ∧
      XKeepsDelivering r act ∧ (∀ j f, act j ≠ some (.sys (.seek f))) ∧
      (∀ j n, act j = some (.sys (.read n)) → n < two63) ∧ (∀ j, 20 + (delivered (r j).sys.log).length < two63) ∧
      (r 12).sys.rpc = .rWait 8 8 := by
  let w0 : XSys puppet memStorage := { sys := init { cfg20 with checks := false } demoMem20, src := () }
  obtain ⟨h1, h2⟩ := puppet_trace (c := { cfg20 with checks := false }) (w0 := w0) (bs := puppetRun) (by decide +kernel)
  refine ⟨w0, _, _, ⟨rfl, demoMem20, rfl, rfl⟩, h1, h2, working_trace (by decide +kernel), fun j f e => ?_,
    fun j n e => ?_, fun j => ?_, by decide +kernel⟩
  · obtain ⟨b, h3, -, h4, -⟩ := traceAct_some e
    have := List.all_eq_true.mp (show (puppetRun.all fun a => match a with | .sys (.seek _) => false | _ => true) = true by
      decide +kernel) _ (List.mem_of_getElem? h3)
    rw [← h4] at this
    cases this
  · obtain ⟨b, h3, -, h4, -⟩ := traceAct_some e
    have := List.all_eq_true.mp (show xTinyReads puppetRun = true by decide +kernel) _ (List.mem_of_getElem? h3)
    rw [← h4] at this
    exact of_decide_eq_true this
  · exact of_decide_eq_true (trace_all
      (p := fun w : XSys puppet memStorage => decide (20 + (delivered w.sys.log).length < two63)) (by decide +kernel) j)

end SD
