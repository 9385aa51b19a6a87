import Verif.Props.Finish

/-!
# C71: a download that never ends

The task asks for what is missing as often as the transport ends without having delivered
it, at once and without limit.
-/

namespace SD

/-- The beginning: a read of 4 sleeps, 2 bytes arrive, the connection ends, the rest is asked for. -/
def endlessStart : List Act :=
  [.read 4] ++ rdrs 3 ++ [.chunk 2] ++ srcs 6 ++ [.eof, .src, .seekOk 2]

/-- What then happens over and over: the new answer is empty, the rest is asked for again. -/
def endlessAct (i : Nat) : Option Act :=
  if i < 14 then endlessStart[i]?
  else if (i - 14) % 3 = 0 then some .eof else if (i - 14) % 3 = 1 then some .src else some (.seekOk 2)

/-- The state in a round. -/
def endlessAt (tend : Bool) (p : SrcPc) (log : List Ev) : Sys memStorage :=
  { st := { buf := [1, 2, 0, 0, 0, 0, 0, 0, 0, 0], written := 2, rp := 0, wp := 2 }, dl := [(0, 2)],
    failed := false, done := false, reached := false, writeReq := true, permit := false, cancelled := false,
    req := some 4, seekQ := none, pfDone := true, pfStart := 0, rem := none, tpos := 2, tlim := some 10, tend, spc := p,
    rpc := .rWait 4 4, log }

/-- The events of a round. -/
def endlessLog : Nat → List Ev
  | 0 => [.seekRange 2 (some 10), .eof, .progress 2 (0, 2) (.downloading 2), .write 2 [] 0, .write 0 [1, 2] 2,
      .chunk [1, 2], .request 4]
  | k + 1 => .seekRange 2 (some 10) :: .eof :: endlessLog k

def endlessRun (i : Nat) : Sys memStorage :=
  if i < 14 then after demoCfg (init demoCfg demoMem10) endlessStart i
  else if (i - 14) % 3 = 0 then endlessAt false .sel (endlessLog ((i - 14) / 3))
  else if (i - 14) % 3 = 1 then endlessAt true .fin (.eof :: endlessLog ((i - 14) / 3))
  else endlessAt true (.seeking 2 (some 10)) (.seekRange 2 (some 10) :: .eof :: endlessLog ((i - 14) / 3))

theorem endless_eof (l : List Ev) :
    step demoCfg (endlessAt false .sel l) .eof = some (endlessAt true .fin (.eof :: l)) := by
  rfl

theorem endless_src (l : List Ev) :
    step demoCfg (endlessAt true .fin l) .src =
      some (endlessAt true (.seeking 2 (some 10)) (.seekRange 2 (some 10) :: l)) := by
  rfl

theorem endless_seek (l : List Ev) :
    step demoCfg (endlessAt true (.seeking 2 (some 10)) l) (.seekOk 2) =
      some (endlessAt false .sel l) := by
  rfl

theorem endless_start : after demoCfg (init demoCfg demoMem10) endlessStart 14 =
    endlessAt false .sel (endlessLog 0) := by
  rfl

/-- A time in the beginning, or a place in a round. -/
theorem endless_cases (i : Nat) : i < 14 ∨ ∃ k, i = 14 + 3 * k ∨ i = 14 + 3 * k + 1 ∨ i = 14 + 3 * k + 2 := by
  rcases Nat.lt_or_ge i 14 with h | h
  · exact .inl h
  · exact .inr ⟨(i - 14) / 3, by omega⟩

theorem endless_0 (k : Nat) : endlessRun (14 + 3 * k) = endlessAt false .sel (endlessLog k) ∧
    endlessAct (14 + 3 * k) = some .eof := by
  have h1 : ¬ 14 + 3 * k < 14 := by omega
  have h2 : (14 + 3 * k - 14) % 3 = 0 := by omega
  have h3 : (14 + 3 * k - 14) / 3 = k := by omega
  simp only [endlessRun, endlessAct, h1, h2, h3, if_true, if_false, and_self]

theorem endless_1 (k : Nat) : endlessRun (14 + 3 * k + 1) = endlessAt true .fin (.eof :: endlessLog k) ∧
    endlessAct (14 + 3 * k + 1) = some .src := by
  have h1 : ¬ 14 + 3 * k + 1 < 14 := by omega
  have h2 : (14 + 3 * k + 1 - 14) % 3 = 1 := by omega
  have h3 : (14 + 3 * k + 1 - 14) / 3 = k := by omega
  rw [endlessRun, endlessAct, h2, h3, if_neg h1, if_neg h1]
  exact ⟨rfl, rfl⟩

theorem endless_2 (k : Nat) : endlessRun (14 + 3 * k + 2) =
      endlessAt true (.seeking 2 (some 10)) (.seekRange 2 (some 10) :: .eof :: endlessLog k) ∧
    endlessAct (14 + 3 * k + 2) = some (.seekOk 2) := by
  have h1 : ¬ 14 + 3 * k + 2 < 14 := by omega
  have h2 : (14 + 3 * k + 2 - 14) % 3 = 2 := by omega
  have h3 : (14 + 3 * k + 2 - 14) / 3 = k := by omega
  rw [endlessRun, endlessAct, h2, h3, if_neg h1, if_neg h1]
  exact ⟨rfl, rfl⟩

theorem endless_run : ∃ s : Sys memStorage, runG honestB demoCfg (init demoCfg demoMem10) endlessStart = some s := by
  refine ⟨endlessAt false .sel (endlessLog 0), ?_⟩
  rfl

theorem endless_exec : Exec demoCfg (init demoCfg demoMem10) endlessRun endlessAct := by
  obtain ⟨s, hs⟩ := endless_run
  have hx := exec_of_run hs
  have hpre : ∀ i, i < 14 → endlessRun i = after demoCfg (init demoCfg demoMem10) endlessStart i ∧
      endlessAct i = endlessStart[i]? := fun i hi => by simp [endlessRun, endlessAct, hi]
  have hpre' : ∀ i, i ≤ 14 → endlessRun i = after demoCfg (init demoCfg demoMem10) endlessStart i := by
    intro i hi
    rcases Nat.lt_or_eq_of_le hi with h | rfl
    · exact (hpre i h).1
    · rw [endless_start]
      exact (endless_0 0).1
  refine ⟨rfl, fun i hi => ?_, fun i a ha => ?_⟩
  · rcases endless_cases i with h | ⟨k, rfl | rfl | rfl⟩
    · rw [(hpre i h).2] at hi
      rw [hpre' i (by omega), hpre' (i + 1) (by omega)]
      exact hx.pause i hi
    · rw [(endless_0 k).2] at hi; cases hi
    · rw [(endless_1 k).2] at hi; cases hi
    · rw [(endless_2 k).2] at hi; cases hi
  · rcases endless_cases i with h | ⟨k, rfl | rfl | rfl⟩
    · rw [(hpre i h).2] at ha
      rw [hpre' i (by omega), hpre' (i + 1) (by omega)]
      exact hx.next i a ha
    · rw [(endless_0 k).2] at ha
      cases ha
      rw [(endless_0 k).1, (endless_1 k).1]
      exact endless_eof _
    · rw [(endless_1 k).2] at ha
      cases ha
      rw [(endless_1 k).1, (endless_2 k).1]
      exact endless_src _
    · rw [(endless_2 k).2] at ha
      cases ha
      rw [(endless_2 k).1, show 14 + 3 * k + 2 + 1 = 14 + 3 * (k + 1) by omega, (endless_0 (k + 1)).1]
      exact endless_seek _

/-- C71 fails if the transport ends again and again without delivering anything: 2 of 10
bytes have arrived, every request for the rest is answered, where it was asked for, and the
answer is empty.  The task asks again at once, for ever, and the read never returns. -/
theorem C71_download_ends_violated :
    ∃ (s0 : Sys memStorage) (r : Nat → Sys memStorage) (act : Nat → Option Act),
      Starts memProvider demoCfg s0 ∧ demoCfg.Finite 10 ∧ Exec demoCfg s0 r act ∧ Fair demoCfg r act .src ∧
      Fair demoCfg r act .rdr ∧ Productive r act ∧ (∀ i a, act i = some a → Honest (r i) a) ∧
      (∀ j, act j ≠ some (.chunk 0)) ∧ (∀ j f, act j ≠ some (.seek f)) ∧
      (∀ i, ∃ j later earlier, i ≤ j ∧ (r j).log = later ++ .seekRange 2 (some 10) :: earlier ∧ i ≤ later.length) ∧
      ∀ j, 14 ≤ j → (r j).spc ≠ .ended ∧ (r j).rpc = .rWait 4 4 := by
  obtain ⟨s, hs⟩ := endless_run
  refine ⟨_, endlessRun, endlessAct, ⟨rfl, demoMem10, rfl, rfl⟩, ⟨rfl, fun n h => ?_⟩, endless_exec, ?_, ?_, ?_, ?_,
    ?_, ?_, ?_, ?_⟩
  · cases h; rfl
  · exact fun i _ => ⟨14 + 3 * i + 1, by omega, (endless_1 i).2⟩
  · intro i h
    refine absurd ?_ (h (14 + 3 * i) (by omega))
    rw [(endless_0 i).1]
    rfl
  · exact fun _ i => ⟨14 + 3 * i, by omega, .inr (endless_0 i).2⟩
  · intro i a ha
    rcases endless_cases i with h | ⟨k, rfl | rfl | rfl⟩
    · have h1 : endlessRun i = after demoCfg (init demoCfg demoMem10) endlessStart i := by simp [endlessRun, h]
      have h2 : endlessAct i = endlessStart[i]? := by simp [endlessAct, h]
      rw [h1]
      exact honest_of (runG_guard hs i a (h2 ▸ ha))
    · rw [(endless_0 k).2] at ha
      cases ha
      exact ⟨fun _ _ _ _ h => (nomatch h), fun _ _ _ h => (nomatch h)⟩
    · rw [(endless_1 k).2] at ha
      cases ha
      exact ⟨fun _ _ _ _ h => (nomatch h), fun _ _ _ h => (nomatch h)⟩
    · rw [(endless_2 k).2] at ha
      cases ha
      rw [(endless_2 k).1]
      refine ⟨fun _ _ _ h h' => ?_, fun _ _ h _ => by cases h⟩
      cases h
      cases h'
      rfl
  · intro j h
    rcases endless_cases j with hj | ⟨k, rfl | rfl | rfl⟩
    · have h2 : endlessAct j = endlessStart[j]? := by simp [endlessAct, hj]
      rw [h2] at h
      exact absurd (List.mem_of_getElem? h) (by decide +kernel)
    · rw [(endless_0 k).2] at h; cases h
    · rw [(endless_1 k).2] at h; cases h
    · rw [(endless_2 k).2] at h; cases h
  · intro j f h
    rcases endless_cases j with hj | ⟨k, rfl | rfl | rfl⟩
    · have h2 : endlessAct j = endlessStart[j]? := by simp [endlessAct, hj]
      rw [h2] at h
      exact absurd (List.mem_of_getElem? h) (by simp [endlessStart, srcs, rdrs])
    · rw [(endless_0 k).2] at h; cases h
    · rw [(endless_1 k).2] at h; cases h
    · rw [(endless_2 k).2] at h; cases h
  · have key : ∀ k, ∃ later earlier, endlessLog k = later ++ .seekRange 2 (some 10) :: earlier ∧
        k ≤ later.length := by
      intro k
      induction k with
      | zero => exact ⟨[], _, rfl, Nat.le_refl _⟩
      | succ k ih =>
        obtain ⟨l, e, h1, h2⟩ := ih
        exact ⟨.seekRange 2 (some 10) :: .eof :: l, e, by simp [endlessLog, h1], by simp; omega⟩
    intro i
    obtain ⟨l, e, h1, h2⟩ := key i
    exact ⟨14 + 3 * i, l, e, by omega, by rw [(endless_0 i).1]; exact h1, h2⟩
  · intro j hj
    rcases endless_cases j with h | ⟨k, rfl | rfl | rfl⟩
    · omega
    · rw [(endless_0 k).1]
      exact ⟨nofun, rfl⟩
    · rw [(endless_1 k).1]
      exact ⟨nofun, rfl⟩
    · rw [(endless_2 k).1]
      exact ⟨nofun, rfl⟩

end SD
