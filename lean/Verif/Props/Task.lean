import Verif.Proof.Sys.Panic
import Verif.Props.Ending
import Verif.Props.Reads

/-!
# Properties C31, C33, C36, C38, C39: range requests, reconnects, progress reports, panics
-/

set_option linter.unusedVariables false

namespace SD

/-! ### C31: range requests -/

/-- 20 bytes. -/
def cfg20 : Cfg := { demoCfg with contentLength := some 20, remoteLen := some 20 }

/-- Memory storage for 20 bytes. -/
def demoMem20 : Mem := { buf := List.replicate 20 0, written := 0, rp := 0, wp := 0 }

/-- Seeks to 8, to 2 and to 15, each of the first two followed by two bytes. -/
def threeSeeks : List Act :=
  [.chunk 1] ++ srcs 6 ++ [.seek (.start 8)] ++ rdrs 3 ++ [.recvSeek, .src, .seekOk 8, .chunk 1] ++
    srcs 3 ++ [.chunk 1] ++ srcs 8 ++ rdrs 3 ++ [.seek (.start 2)] ++ rdrs 3 ++
    [.recvSeek, .src, .seekOk 2, .chunk 1] ++ srcs 3 ++ [.chunk 1] ++ srcs 8 ++ rdrs 3 ++
    [.seek (.start 15)] ++ rdrs 3 ++ [.recvSeek, .src]

/-- C31 fails: the gap in which the writer is ends before the target of the seek, and the
task asks for the range from 15 to 8. -/
theorem C31_range_requests_violated :
    ∃ s0 s : Sys memStorage, Starts memProvider cfg20 s0 ∧ Reach cfg20 Honest s0 s ∧
      Ev.seekRange 15 (some 8) ∈ s.log := by
  obtain ⟨s0, s, h1, h2, h3⟩ := exists_of_runG (P := memProvider) (c := cfg20)
    (g := fun s a => honestB s a) (G := Honest) (fun s a h => honest_of h) demoMem20
    threeSeeks (fun s => decide (Ev.seekRange 15 (some 8) ∈ s.log)) rfl rfl (by decide +kernel)
  exact ⟨s0, s, h1, h2, of_decide_eq_true h3⟩

/-- A simpler case: a seek to the end of the resource asks for the range from 10 to 10. -/
theorem C31_range_requests_violated_at_end :
    ∃ s0 s : Sys memStorage, Starts memProvider demoCfg s0 ∧ Reach demoCfg Honest s0 s ∧
      Ev.seekRange 10 (some 10) ∈ s.log := by
  obtain ⟨s0, s, h1, h2, h3⟩ := exists_of_runG (P := memProvider) (c := demoCfg)
    (g := fun s a => honestB s a) (G := Honest) (fun s a h => honest_of h) demoMem10
    ([.chunk 4] ++ srcs 6 ++ [.seek (.fromEnd 0)] ++ rdrs 3 ++ [.recvSeek, .src])
    (fun s => decide (Ev.seekRange 10 (some 10) ∈ s.log)) rfl rfl (by decide +kernel)
  exact ⟨s0, s, h1, h2, of_decide_eq_true h3⟩

/-- C31 for known lengths, what is true in every history: a requested range ends within
the resource, at a downloaded position or at the end of the resource, and nothing of
it is downloaded yet.  It is empty (or reversed) only if it answers a seek of the
consumer whose target lies at or after the end of the first gap after the writer.
Missing: that the last case does not occur. -/
theorem C31_range_requests_partial {S : Storage} {c : Cfg} {G : Sys S → Act → Prop} {st : S.σ}
    {s s' : Sys S} {a : Act} (h : Reach c G (init c st) s) (hs : step c s a = some s')
    {start : Nat} {stop : Option Nat} (hl : s'.log = .seekRange start stop :: s.log) {n : Nat}
    (hn : c.contentLength = some n) :
    ∃ b, stop = some b ∧ b ≤ n ∧ (b = n ∨ RSet.Mem s'.dl b) ∧
      (∀ q, start ≤ q → q < b → ¬ RSet.Mem s'.dl q) ∧
      (start < b ∨ s.spc = .seekMsg start ∧ S.wtell s.st < b ∧ b ≤ start) := by
  have ht := tr_of_step hs
  have hwf := wf_reach h
  obtain ⟨-, -, -, h1 | h1 | h1⟩ := tr_seekRange hwf ht hl
  · obtain ⟨h2, n', b, hn', rfl, -, hg⟩ := h1
    obtain rfl : n = n' := by simpa [hn] using hn'
    obtain ⟨g1, g2, g3, g4, g5, g6⟩ := RSet.nextGap_some (wf_step hwf ht) hg
    exact ⟨b, rfl, g3, g6, g5, Or.inl g2⟩
  · obtain ⟨p, n', x, b, h2, hn', rfl, rfl, hg⟩ := h1
    obtain rfl : n = n' := by simpa [hn] using hn'
    obtain ⟨g1, g2, g3, g4, g5, g6⟩ := RSet.nextGap_some (wf_step hwf ht) hg
    refine ⟨b, rfl, g3, g6, fun q q1 q2 => g5 q (by omega) q2, ?_⟩
    by_cases hlt : max x p < b
    · exact Or.inl hlt
    · have e : max x p = p := by omega
      rw [e] at hlt ⊢
      exact Or.inr ⟨h2, by omega, by omega⟩
  · obtain ⟨p, -, hn', -⟩ := h1
    rw [hn] at hn'; simp at hn'

/-- C31 for unknown lengths: a request has no end, and starts at the target of a seek;
if that is downloaded already, the writer is not inside the block that contains it. -/
theorem C31_unknown_length_partial {S : Storage} {c : Cfg} {G : Sys S → Act → Prop} {st : S.σ}
    {s s' : Sys S} {a : Act} (h : Reach c G (init c st) s) (hs : step c s a = some s')
    {start : Nat} {stop : Option Nat} (hl : s'.log = .seekRange start stop :: s.log)
    (hn : c.contentLength = none) :
    stop = none ∧ s.spc = .seekMsg start ∧
      (RSet.Mem s.dl start → ¬ (∀ q, min start (S.wtell s.st) ≤ q → q ≤ max start (S.wtell s.st) →
        RSet.Mem s.dl q)) := by
  have ht := tr_of_step hs
  have hwf := wf_reach h
  obtain ⟨-, -, -, h1 | h1 | h1⟩ := tr_seekRange hwf ht hl
  · obtain ⟨-, n, b, hn', -⟩ := h1; rw [hn] at hn'; simp at hn'
  · obtain ⟨p, n, x, b, -, hn', -⟩ := h1; rw [hn] at hn'; simp at hn'
  · obtain ⟨p, h2, -, rfl, rfl⟩ := h1
    refine ⟨rfl, h2, ?_⟩
    intro hm hall
    have hsh : shouldSeek c s start := by
      cases ht <;> simp_all
    cases hg : RSet.get s.dl start with
    | none => exact RSet.get_none_iff.mp hg hm
    | some r =>
      obtain ⟨x, y⟩ := r
      have h3 := hsh.2 x y hg
      have h4 := (RSet.get_some_mem hg).2
      have h5 := RSet.get_some_end_not_mem hwf hg
      by_cases h6 : y ≤ S.wtell s.st
      · exact h5 (hall y (by omega) (by omega))
      · by_cases h7 : x = 0
        · omega
        · have h8 := RSet.get_some_start_not_mem hwf hg
          exact h3 ⟨by
            by_contra h9
            exact (h8 (x - 1) (by omega) fun q q1 q2 => hall q (by omega) (by omega)).elim, by omega⟩

/-- C31 in histories without seeks: every requested range is non-empty, within the
resource, and starts right after what is downloaded. -/
theorem C31_range_requests_sequential {S : Storage} {c : Cfg} {st : S.σ} {s s' : Sys S} {a : Act}
    (h : Reach c NoSeek (init c st) s) (hs : step c s a = some s') {start : Nat} {stop : Option Nat}
    (hl : s'.log = .seekRange start stop :: s.log) :
    ∃ n b, c.contentLength = some n ∧ stop = some b ∧ start < b ∧ b ≤ n ∧
      (∀ q, q < start → RSet.Mem s'.dl q) ∧ (∀ q, start ≤ q → q < b → ¬ RSet.Mem s'.dl q) := by
  have ht := tr_of_step hs
  have hwf := wf_reach h
  have hq := noSeek_src h
  obtain ⟨-, -, -, h1 | h1 | h1⟩ := tr_seekRange hwf ht hl
  · obtain ⟨h2, n, b, hn, rfl, -, hg⟩ := h1
    obtain ⟨g1, g2, g3, g4, g5, g6⟩ := RSet.nextGap_some (wf_step hwf ht) hg
    exact ⟨n, b, hn, rfl, g2, g3, fun q hq => g4 q (by omega) hq, g5⟩
  · obtain ⟨p, n, x, b, h2, -⟩ := h1
    exact absurd h2 (hq.2.2 p)
  · obtain ⟨p, h2, -⟩ := h1
    exact absurd h2 (hq.2.2 p)

/-- A history for the theorems on known lengths: a seek back into a gap; the request ends
where the next downloaded range starts. -/
example : ∃ s s' : Sys memStorage, Reach cfg20 Any (init cfg20 demoMem20) s ∧
    step cfg20 s .src = some s' ∧ s'.log = .seekRange 2 (some 8) :: s.log := by
  obtain ⟨s, h1, h2⟩ := of_any (o := run cfg20 (init (S := memStorage) cfg20 demoMem20)
    (threeSeeks.take 35)) (p := fun s : Sys memStorage => (step cfg20 s .src).any fun s' : Sys memStorage =>
      decide (s'.log = .seekRange 2 (some 8) :: s.log)) (by decide +kernel)
  obtain ⟨s', h3, h4⟩ := of_any h2
  exact ⟨s, s', reach_run h1, h3, of_decide_eq_true h4⟩

/-- A history without seeks in which a range is requested. -/
example : ∃ s s' : Sys memStorage, Reach demoCfg NoSeek (init demoCfg demoMem10) s ∧
    step demoCfg s .src = some s' ∧ s'.log = .seekRange 4 (some 10) :: s.log := by
  obtain ⟨s, h1, h2⟩ := of_any (o := runG noSeekB demoCfg (init (S := memStorage) demoCfg demoMem10)
    ([.chunk 4] ++ srcs 6 ++ [.eof])) (p := fun s : Sys memStorage => (step demoCfg s .src).any fun s' : Sys memStorage =>
      decide (s'.log = .seekRange 4 (some 10) :: s.log)) (by decide +kernel)
  obtain ⟨s', h3, h4⟩ := of_any h2
  exact ⟨s, s', reach_runG (fun s a h => noSeek_of h) h1, h3, of_decide_eq_true h4⟩

/-! ### C33: gap filling -/

/-- C33: in every history, if the transport of a seekable resource of length `n` ends
while nothing received is left to be stored, then the next thing the task does is: if
something is missing, ask for the first maximal missing range; otherwise complete. -/
theorem C33_gap_filling {S : Storage} {c : Cfg} {G : Sys S → Act → Prop} {st : S.σ}
    {s s1 s2 : Sys S} (h : Reach c G (init c st) s) {n : Nat} (hss : c.supportsSeek = true)
    (hn : c.contentLength = some n) (hrem : s.pfDone = true → s.rem = none)
    (h1 : step c s .eof = some s1) (h2 : step c s1 .src = some s2) :
    ((∃ q, q < n ∧ ¬ RSet.Mem s1.dl q) →
      ∃ a b, s2.log = .seekRange a (some b) :: .eof :: s.log ∧ s2.spc = .seeking a (some b) ∧
        a < b ∧ b ≤ n ∧ (∀ q, q < a → RSet.Mem s1.dl q) ∧
        (∀ q, a ≤ q → q < b → ¬ RSet.Mem s1.dl q) ∧ (b = n ∨ RSet.Mem s1.dl b)) ∧
    ((∀ q, q < n → RSet.Mem s1.dl q) → s2.log = .eof :: s.log ∧ s2.spc = .finSig) := by
  have ht1 := tr_of_step h1
  have ht2 := tr_of_step h2
  have hwf1 := wf_step (wf_reach h) ht1
  have hfin : s1.spc = .fin ∧ s1.log = .eof :: s.log := by
    cases ht1
    · exact ⟨rfl, rfl⟩
    · next r h3 h4 h5 => rw [hrem h4] at h5; simp at h5
    · exact ⟨rfl, rfl⟩
  have hgap : (∃ a b, RSet.nextGap s1.dl 0 n = some (a, b) ∧ s2.spc = .seeking a (some b) ∧
      s2.log = .seekRange a (some b) :: s1.log) ∨
      (RSet.nextGap s1.dl 0 n = none ∧ s2.log = s1.log ∧ s2.spc = .finSig) := by
    have hf := hfin.1
    clear ht1 h1 h2 h hfin
    cases ht2 <;> simp_all
  rw [hfin.2] at hgap
  rcases hgap with ⟨a, b, hg, h3, h4⟩ | ⟨hg, h3, h4⟩
  · obtain ⟨g1, g2, g3, g4, g5, g6⟩ := RSet.nextGap_some hwf1 hg
    refine ⟨fun _ => ⟨a, b, h4, h3, g2, g3, fun q hq => g4 q (by omega) hq, g5, g6⟩, fun hall => ?_⟩
    exact absurd (hall a (by omega)) (g5 a (Nat.le_refl _) g2)
  · have hc := RSet.nextGap_none hg
    refine ⟨?_, fun _ => ⟨h3, h4⟩⟩
    rintro ⟨q, q1, q2⟩
    exact absurd (hc q (by omega) q1) q2

/-- C33, completion: `Complete` is only reported when nothing is missing. -/
theorem C33_complete_means_covered {S : Storage} {c : Cfg} {G : Sys S → Act → Prop} {st : S.σ}
    {s : Sys S} (h : Reach c G (init c st) s) {n : Nat} (hss : c.supportsSeek = true)
    (hn : c.contentLength = some n) {pos : Nat} {r : Nat × Nat}
    (hc : Ev.progress pos r .complete ∈ s.log) : ∀ q, q < n → RSet.Mem s.dl q :=
  fun q hq => ((Cov.reach h).log (completes_mem hc)).2.2 hss n hn q (by omega) hq

/-- Something is missing: the end of the transport after 4 of 10 bytes. -/
example : ∃ s s1 s2 : Sys memStorage, Reach demoCfg Any (init demoCfg demoMem10) s ∧
    step demoCfg s .eof = some s1 ∧ step demoCfg s1 .src = some s2 ∧
    s.pfDone = true ∧ s.rem = none ∧ s1.dl = [(0, 4)] ∧ s2.spc = .seeking 4 (some 10) := by
  obtain ⟨s, h1, h2⟩ := of_any (o := run demoCfg (init (S := memStorage) demoCfg demoMem10)
    ([.chunk 4] ++ srcs 6)) (p := fun s : Sys memStorage => (s.pfDone && s.rem.isNone) && (step demoCfg s .eof).any fun s1 : Sys memStorage =>
      decide (s1.dl = [(0, 4)]) && (step demoCfg s1 .src).any fun s2 : Sys memStorage =>
        decide (s2.spc = .seeking 4 (some 10))) (by decide +kernel)
  rw [Bool.and_eq_true] at h2
  obtain ⟨s1, h3, h4⟩ := of_any h2.2
  rw [Bool.and_eq_true] at h4
  obtain ⟨s2, h5, h6⟩ := of_any h4.2
  have h7 := h2.1
  rw [Bool.and_eq_true] at h7
  exact ⟨s, s1, s2, reach_run h1, h3, h5, h7.1, by simpa using h7.2, of_decide_eq_true h4.1,
    of_decide_eq_true h6⟩

/-- Nothing is missing: the download completes. -/
example : ∃ s : Sys memStorage, Reach demoCfg Any (init demoCfg demoMem10) s ∧
    Ev.progress 10 (0, 10) .complete ∈ s.log := by
  obtain ⟨s, h1, h2⟩ := of_any (o := run demoCfg (init (S := memStorage) demoCfg demoMem10)
    ([.chunk 4] ++ srcs 6 ++ [.eof, .src, .seekOk 4, .chunk 6] ++ srcs 6 ++ [.eof] ++ srcs 3))
    (p := fun s : Sys memStorage => decide (Ev.progress 10 (0, 10) .complete ∈ s.log)) (by decide +kernel)
  exact ⟨s, reach_run h1, of_decide_eq_true h2⟩

/-! ### C36: the reconnect callback -/

/-- C36 fails: the callback is called although `reconnect` returned an error. -/
theorem C36_callback_violated :
    ∃ s0 s : Sys memStorage, Starts memProvider demoCfg s0 ∧ Reach demoCfg Any s0 s ∧
      Ev.onReconnect false ∈ s.log := by
  obtain ⟨s0, s, h1, h2, h3⟩ := exists_of_run (P := memProvider) (c := demoCfg) demoMem10
    [.timeout, .reconnFail] (fun s => decide (Ev.onReconnect false ∈ s.log)) rfl rfl
    (by decide +kernel)
  exact ⟨s0, s, h1, h2, of_decide_eq_true h3⟩

/-- C36, what is true in every history: there is at most one callback for every
`reconnect` call, and a callback in between two states is the answer to a `reconnect`
call that has returned (not timed out).  Missing: that it returned `Ok`. -/
theorem C36_callback_partial {S : Storage} {c : Cfg} {G : Sys S → Act → Prop} {st : S.σ}
    {s : Sys S} (h : Reach c G (init c st) s) :
    s.log.countP Ev.isOnReconnect ≤ s.log.countP Ev.isReconnect ∧
    ∀ s' a b, step c s a = some s' → s'.log = .onReconnect b :: s.log →
      (∃ p, s.spc = .reconn p) ∧ ((b = true ∧ ∃ pos, a = .reconnOk pos) ∨ (b = false ∧ a = .reconnFail)) := by
  constructor
  · have := recon_reach h
    unfold Recon at this
    omega
  · intro s' a b hs hl
    have ht := tr_of_step hs
    cases ht <;> simp_all

/-- If `reconnect` never returns an error, every callback follows a successful
reconnect. -/
theorem C36_callback_partial_no_error {S : Storage} {c : Cfg} {st : S.σ} {s : Sys S}
    (h : Reach c (fun _ a => a ≠ .reconnFail) (init c st) s) : Ev.onReconnect false ∉ s.log := by
  refine Reach.inv (P := fun s => Ev.onReconnect false ∉ s.log) h (by simp [init]) ?_
  intro s s' a h1 hg ht
  cases ht <;> simp_all

example : ∃ s : Sys memStorage, Reach demoCfg (fun _ a => a ≠ .reconnFail) (init demoCfg demoMem10) s ∧
    Ev.onReconnect true ∈ s.log := by
  obtain ⟨s, h1, h2⟩ := of_any (o := runG (fun _ a => decide (a ≠ .reconnFail)) demoCfg
    (init (S := memStorage) demoCfg demoMem10)
    ([.chunk 4] ++ srcs 6 ++ [.timeout, .reconnTimeout, .timeout, .reconnOk 4]))
    (p := fun s : Sys memStorage => decide (Ev.onReconnect true ∈ s.log)) (by decide +kernel)
  exact ⟨s, reach_runG (fun s a h => of_decide_eq_true h) h1, of_decide_eq_true h2⟩

/-! ### C38: progress reports -/

/-- C38: in every history, a `Downloading` report carries the writer's position and a
range that is downloaded, contains the byte before that position, and is maximal. -/
theorem C38_downloading_report {S : Storage} {c : Cfg} {G : Sys S → Act → Prop} {st : S.σ}
    {s s' : Sys S} {a : Act} (h : Reach c G (init c st) s) (hs : step c s a = some s')
    {pos len lo hi : Nat} (hl : s'.log = .progress pos (lo, hi) (.downloading len) :: s.log) :
    pos = S.wtell s'.st ∧ lo < pos ∧ pos ≤ hi ∧ (∀ q, lo ≤ q → q < hi → RSet.Mem s'.dl q) ∧
      ¬ RSet.Mem s'.dl hi ∧ (lo = 0 ∨ ¬ RSet.Mem s'.dl (lo - 1)) := by
  have ht := tr_of_step hs
  have hwf := wf_reach h
  have key : s.spc = .wRep len ∧ s'.dl = s.dl ∧ s'.st = s.st ∧ pos = S.wtell s.st ∧ pos ≠ 0 ∧
      RSet.get s.dl (pos - 1) = some (lo, hi) := by
    cases ht <;> simp_all
  obtain ⟨k1, k2, k3, k4, k5, k6⟩ := key
  have h4 := (RSet.get_some_mem k6).2
  refine ⟨by rw [k3]; exact k4, by omega, by omega, ?_, ?_, ?_⟩
  · rw [k2]; exact RSet.get_some_covers k6
  · rw [k2]; exact RSet.get_some_end_not_mem hwf k6
  · rw [k2]
    by_cases h0 : lo = 0
    · exact Or.inl h0
    · refine Or.inr fun hm => RSet.get_some_start_not_mem hwf k6 (lo - 1) (by omega) ?_
      intro q q1 q2
      rwa [show q = lo - 1 by omega]

/-- C38: in every history `Complete` is reported at most once, nothing is reported after
it, and then `on_finish` is not called with an error. -/
theorem C38_complete_is_last {S : Storage} {c : Cfg} {G : Sys S → Act → Prop} {st : S.σ}
    {s : Sys S} (h : Reach c G (init c st) s) {l1 l2 : List Ev} {pos : Nat} {r : Nat × Nat}
    (hl : s.log = l1 ++ .progress pos r .complete :: l2) :
    (∀ pos' r' ph, Ev.progress pos' r' ph ∉ l1) ∧ (∀ pos' r', Ev.progress pos' r' .complete ∉ l2) ∧
      (∀ k o, Ev.onFinish (some k) o ∉ s.log) := by
  have h1 := report_reach h
  have h2 := endLog_reach h
  refine ⟨?_, ?_, ?_⟩
  · intro pos' r' ph hm
    obtain ⟨l3, l4, rfl⟩ := List.append_of_mem hm
    rw [hl, List.append_assoc, List.cons_append] at h1
    have h3 := h1.split rfl
    exact completes_mem (pos := pos) (r := r) (by simp) h3
  · intro pos' r' hm
    rw [hl] at h1
    exact completes_mem hm (h1.split rfl)
  · intro k o hm
    have hc : completes s.log ≠ 0 := completes_mem (pos := pos) (r := r) (by rw [hl]; simp)
    have h5 := finishOnce_reach h (some k) o hm
    have h3 : s.spc.over = true := by
      by_contra hn
      rw [h2.notYet (by simpa using hn)] at h5
      simp at h5
    obtain ⟨r', o', g1, g2, g3, -⟩ := h2.isOver h3
    rw [h5] at g1
    simp only [Option.some.injEq, Prod.mk.injEq] at g1
    exact hc (g3 (by rw [← g1.1]; simp))

/-- Both kinds of report occur: ten bytes in two chunks, then the end. -/
example : ∃ s0 s : Sys memStorage, Starts memProvider demoCfg s0 ∧ Reach demoCfg Any s0 s ∧
    Ev.progress 4 (0, 4) (.downloading 4) ∈ s.log ∧ Ev.progress 10 (0, 10) (.downloading 6) ∈ s.log ∧
    Ev.progress 10 (0, 10) .complete ∈ s.log := by
  obtain ⟨s0, s, h1, h2, h3⟩ := exists_of_run (P := memProvider) (c := demoCfg) demoMem10
    ([.chunk 4] ++ srcs 6 ++ [.chunk 6] ++ srcs 6 ++ [.eof] ++ srcs 6)
    (fun s => decide (Ev.progress 4 (0, 4) (.downloading 4) ∈ s.log ∧
      Ev.progress 10 (0, 10) (.downloading 6) ∈ s.log ∧ Ev.progress 10 (0, 10) .complete ∈ s.log))
    rfl rfl (by decide +kernel)
  exact ⟨s0, s, h1, h2, of_decide_eq_true h3⟩

end SD
