import Verif.Proof.Sys.Stored
import Verif.Props.Complete

/-!
# C04 and C33 in terms of what the storage accepted

The statements in `Props/Task.lean` and `Props/Complete.lean` speak of the ranges the
library has recorded.  Here they speak of the writes that the storage accepted.
-/

namespace SD

/-- C33: in every history, if the transport of a seekable resource of length `n` ends
while nothing received is left to be stored, then the next thing the task does is: if the
storage has never accepted some position, ask for the first maximal range of such
positions; otherwise complete. -/
theorem C33_gap_filling_stored {P : Provider} {c : Cfg} (hP : Supported c.contentLength P)
    {G : Sys P.S → Act → Prop} {s0 s s1 s2 : Sys P.S} (h0 : Starts P c s0) (h : Reach c G s0 s) {n : Nat}
    (hss : c.supportsSeek = true) (hn : c.contentLength = some n) (hrem : s.pfDone = true → s.rem = none)
    (h1 : step c s .eof = some s1) (h2 : step c s1 .src = some s2) :
    ((∃ q, q < n ∧ ¬ StoredIn s.log q) →
      ∃ a b, s2.log = .seekRange a (some b) :: .eof :: s.log ∧ a < b ∧ b ≤ n ∧
        (∀ q, q < a → StoredIn s.log q) ∧ (∀ q, a ≤ q → q < b → ¬ StoredIn s.log q) ∧
        (b = n ∨ StoredIn s.log b)) ∧
    ((∀ q, q < n → StoredIn s.log q) → s2.log = .eof :: s.log ∧ s2.spc = .finSig) := by
  obtain ⟨PP⟩ := supported_positional hP
  have hr1 : Reach c (fun _ _ => True) s0 s1 :=
    .step (h.mono fun _ _ _ => trivial) trivial h1
  have hI := StInv.reach PP h0 hr1
  have hT := (Track.reach PP h0 hr1).2
  have hfin : s1.spc = .fin ∧ s1.log = .eof :: s.log := by
    have ht1 := tr_of_step h1
    cases ht1
    · exact ⟨rfl, rfl⟩
    · next r h3 h4 h5 => rw [hrem h4] at h5; simp at h5
    · exact ⟨rfl, rfl⟩
  have hlog : ∀ q, StoredIn s1.log q ↔ StoredIn s.log q := by
    intro q; rw [hfin.2, storedIn_cons]; simp [Ev.stores]
  have hiff : ∀ q, q < n → (RSet.Mem s1.dl q ↔ StoredIn s.log q) := by
    intro q hq
    have hw : c.within q := by intro m hm; rw [hn] at hm; injection hm; omega
    rw [← hlog]
    constructor
    · exact hI.sound q hw
    · intro hs
      have hp := hT.fin hfin.1
      rcases hI.complete (by simp [hfin.1, SrcPc.gone]) q hw hs with h | h | ⟨p, h, -⟩
      · exact h
      · simp [hp] at h
      · simp [hfin.1, SrcPc.base] at h
  obtain ⟨-, st, -, rfl⟩ := h0
  obtain ⟨k1, k2⟩ := C33_gap_filling h hss hn hrem h1 h2
  constructor
  · rintro ⟨q, hq, hs⟩
    obtain ⟨a, b, l1, -, l2, l3, l4, l5, l6⟩ := k1 ⟨q, hq, by rw [hiff q hq]; exact hs⟩
    refine ⟨a, b, l1, l2, l3, ?_, ?_, ?_⟩
    · intro q hq; exact (hiff q (by omega)).1 (l4 q hq)
    · intro q h1 h2; rw [← hiff q (by omega)]; exact l5 q h1 h2
    · by_cases hb : b = n
      · exact .inl hb
      · exact .inr ((hiff b (by omega)).1 (l6.resolve_left hb))
  · intro hs
    exact k2 fun q hq => (hiff q hq).2 (hs q hq)

/-- C04 and C33: if a seekable source of length `n` reported `Complete`, the storage had
accepted every position. -/
theorem C33_complete_means_stored {P : Provider} {c : Cfg} (hP : Supported c.contentLength P)
    {G : Sys P.S → Act → Prop} {s0 s : Sys P.S} (h0 : Starts P c s0) (h : Reach c G s0 s) {n : Nat}
    (hss : c.supportsSeek = true) (hn : c.contentLength = some n) {pos : Nat} {r : Nat × Nat}
    (hc : Ev.progress pos r .complete ∈ s.log) : ∀ q, q < n → StoredIn s.log q := by
  intro q hq
  obtain ⟨PP⟩ := supported_positional hP
  refine (StInv.reach PP h0 h).sound q (by intro m hm; rw [hn] at hm; injection hm; omega) ?_
  obtain ⟨-, st, -, rfl⟩ := h0
  exact C33_complete_means_covered h hss hn hc q hq

/-- C04: the same if the download is over and not marked as failed. -/
theorem C04_finished_means_stored {P : Provider} {c : Cfg} (hk : c.KeepsErrors)
    (hP : Supported c.contentLength P) {G : Sys P.S → Act → Prop} {s0 s : Sys P.S} (h0 : Starts P c s0)
    (h : Reach c G s0 s) {n : Nat} (hss : c.supportsSeek = true) (hn : c.contentLength = some n)
    (hd : s.done = true) (hf : s.failed = false) : ∀ q, q < n → StoredIn s.log q := by
  intro q hq
  obtain ⟨PP⟩ := supported_positional hP
  refine (StInv.reach PP h0 h).sound q (by intro m hm; rw [hn] at hm; injection hm; omega) ?_
  obtain ⟨-, st, -, rfl⟩ := h0
  exact C04_finished_covers hk h hss hn hd hf q hq

/-- A hole in the middle: 4 bytes, a seek to 8, the rest, the end of the transport.  The
task asks for 4 to 8. -/
example : ∃ s0 s s1 s2 : Sys memStorage, Starts memProvider demoCfg s0 ∧ Reach demoCfg Any s0 s ∧
    step demoCfg s .eof = some s1 ∧ step demoCfg s1 .src = some s2 ∧
    s.pfDone = true ∧ s.rem = none ∧ s2.spc = .seeking 4 (some 8) ∧ StoredIn s.log 8 := by
  obtain ⟨s, h1, h2⟩ := of_any (o := run demoCfg (init (S := memStorage) demoCfg demoMem10)
    ([.chunk 4] ++ srcs 6 ++ [.seek (.start 8)] ++ rdrs 3 ++ [.recvSeek, .src, .seekOk 8, .chunk 2] ++ srcs 3))
    (p := fun s : Sys memStorage =>
      (s.pfDone && s.rem.isNone && s.log.any fun e => decide (e = .write 8 [9, 10] 2)) &&
      (step demoCfg s .eof).any fun s1 : Sys memStorage =>
        (step demoCfg s1 .src).any fun s2 : Sys memStorage => decide (s2.spc = .seeking 4 (some 8)))
    (by decide +kernel)
  rw [Bool.and_eq_true] at h2
  obtain ⟨s1, h3, h4⟩ := of_any h2.2
  obtain ⟨s2, h5, h6⟩ := of_any h4
  have h7 := h2.1
  simp only [Bool.and_eq_true, List.any_eq_true, decide_eq_true_eq] at h7
  obtain ⟨⟨h8, h9⟩, e, h10, rfl⟩ := h7
  exact ⟨_, s, s1, s2, ⟨rfl, demoMem10, rfl, rfl⟩, reach_run h1, h3, h5, h8, by simpa using h9,
    of_decide_eq_true h6, _, h10, by simp [Ev.stores]⟩

/-- Everything is there: `Complete` was reported and the download is over. -/
example : ∃ s0 s : Sys memStorage, Starts memProvider demoCfg s0 ∧ Reach demoCfg Any s0 s ∧
    demoCfg.KeepsErrors ∧ s.done = true ∧ s.failed = false ∧ completes s.log = 1 := by
  obtain ⟨s, h1, h2⟩ := of_any (o := run demoCfg (init (S := memStorage) demoCfg demoMem10)
    ([.chunk 10] ++ srcs 6 ++ [.eof] ++ srcs 6))
    (p := fun s : Sys memStorage => s.done && !s.failed && decide (completes s.log = 1)) (by decide +kernel)
  simp only [Bool.and_eq_true, Bool.not_eq_true', decide_eq_true_eq] at h2
  exact ⟨_, s, ⟨rfl, demoMem10, rfl, rfl⟩, reach_run h1, demo_keepsErrors, h2.1.1, h2.1.2, h2.2⟩

end SD
