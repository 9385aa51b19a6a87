import Verif.Spec.Wait
import Verif.Proof.Sys.Sure
import Verif.Proof.Sys.Trunc
import Verif.Props.Complete
import Verif.Props.Wake

/-!
# Properties C37, C56, C57, C58: transport errors, truncated resources, lost seeks, late
requests
-/

set_option linter.unusedVariables false

namespace SD

/-! ### C37 -/

/-- C37 fails if the length is not known: after 4 of 10 bytes the transport reports an
error and ends; the error is only logged, the download completes, and the second read
reports the end of the file. -/
theorem C37_error_is_not_eof_violated :
    ∃ s0 s : Sys memStorage, Starts memProvider cfgUnknown s0 ∧
      Reach cfgUnknown (fun s a => Honest s a ∧ NoSeek s a) s0 s ∧ Ev.chunkErr ∈ s.log ∧
      cfgUnknown.remoteLen = some 10 ∧ delivered s.log = [1, 2, 3, 4] ∧
      Ev.readRet 4 4 false (.ok []) ∈ s.log ∧ s.failed = false := by
  obtain ⟨s0, s, h1, h2, h3⟩ := exists_of_runG (P := memProvider) (c := cfgUnknown)
    (g := fun s a => honestB s a && noSeekB s a) (G := fun s a => Honest s a ∧ NoSeek s a)
    (fun s a h => by
      rw [Bool.and_eq_true] at h; exact ⟨honest_of h.1, noSeek_of h.2⟩)
    { buf := [], written := 0, rp := 0, wp := 0 }
    ([.chunk 4] ++ srcs 6 ++ [.chunkErr, .eof] ++ srcs 6 ++ [.read 4] ++ rdrs 4 ++ [.read 4] ++ rdrs 6)
    (fun s => decide (Ev.chunkErr ∈ s.log ∧ delivered s.log = [1, 2, 3, 4] ∧
      Ev.readRet 4 4 false (.ok []) ∈ s.log ∧ s.failed = false)) rfl rfl (by decide +kernel)
  obtain ⟨h4, h5, h6, h7⟩ := of_decide_eq_true h3
  exact ⟨s0, s, h1, h2, h4, rfl, h5, h6, h7⟩

/-- C37 for seekable sources of known length, with storage that keeps everything, if
the consumer goes back only over bytes that it has read or that are downloaded: whatever errors the transport reports and wherever it ends, a read that
returns less than it was asked for ends at the end of the resource; in particular no
read reports the end of the file before. -/
theorem C37_error_is_not_eof_partial {P : Provider} {c : Cfg} (hP : Unbounded c.contentLength P)
    (hb : c.batchSize ≠ 0) (hlen : c.LengthHonest) (hk : c.KeepsErrors) (hss : c.supportsSeek = true)
    {N : Nat} (hN : c.contentLength = some N) {s0 s : Sys P.S} (h0 : Starts P c s0)
    (h : Reach c (fun s a => Honest s a ∧ Connected c s a) s0 s)
    {pos len : Nat} {fast : Bool} {bs : List Byte}
    (hr : Ev.readRet pos len fast (.ok bs) ∈ s.log) (hlt : bs.length < len) : N ≤ pos + bs.length := by
  obtain ⟨LP, hTot, hE, -⟩ := keeps_lawful hP
  have h1 := (sure_log LP hTot.works hb hlen hk hss hN
    (fun s a hg => ⟨hg.1, fun _ ha hf => absurd hf (by simp [hss]), fun _ => hg.2⟩) h0 h).2
  obtain ⟨-, l2, -, h2⟩ := h1.mem hr
  exact (h2 hlt).resolve_right (hE rfl _ _)

/-- Errors and an early end of the transport, repaired by a range request. -/
example : ∃ s0 s : Sys memStorage, Starts memProvider demoCfg s0 ∧
    Reach demoCfg (fun s a => Honest s a ∧ Connected demoCfg s a) s0 s ∧ Ev.chunkErr ∈ s.log ∧
    Ev.readRet 2 20 true (.ok [3, 4, 5, 6, 7, 8, 9, 10]) ∈ s.log := by
  obtain ⟨s0, s, h1, h2, h3⟩ := exists_of_runG (P := memProvider) (c := demoCfg)
    (g := fun s a => honestB s a && connectedB demoCfg s a) (G := fun s a => Honest s a ∧ Connected demoCfg s a)
    (fun s a h => by
      rw [Bool.and_eq_true] at h; exact ⟨honest_of h.1, connected_of h.2⟩) demoMem10
    ([.chunk 4] ++ srcs 6 ++ [.chunkErr, .eof, .src, .seekOk 4, .chunk 6] ++ srcs 6 ++
      [.seek (.start 2)] ++ rdrs 2 ++ [.read 20] ++ rdrs 3)
    (fun s => decide (Ev.chunkErr ∈ s.log ∧ Ev.readRet 2 20 true (.ok [3, 4, 5, 6, 7, 8, 9, 10]) ∈ s.log))
    rfl rfl (by decide +kernel)
  exact ⟨s0, s, h1, h2, (of_decide_eq_true h3).1, (of_decide_eq_true h3).2⟩

/-! ### C56 -/

/-- 10 bytes are declared, the resource has 4. -/
def cfgTrunc : Cfg := { demoCfg with remoteLen := some 4 }

/-- The four bytes are stored and the transport has been positioned behind them. -/
def truncState (log : List Ev) : Sys memStorage :=
  { (run cfgTrunc (init (S := memStorage) cfgTrunc demoMem10)
      ([.chunk 4] ++ srcs 6 ++ [.eof, .src, .seekOk 4])).getD (init cfgTrunc demoMem10) with log := log }

/-- How often a range was requested. -/
def requests (e : Ev) : List Ev → Nat
  | [] => 0
  | x :: l => (if x = e then 1 else 0) + requests e l

/-- C56 fails: the task asks for the missing part as often as it likes to run, with no
error, no cancellation and no report. -/
theorem C56_truncated_violated (k : Nat) :
    ∃ s0 s : Sys memStorage, Starts memProvider cfgTrunc s0 ∧
      Reach cfgTrunc (fun s a => Honest s a ∧ NoSeek s a ∧ a ≠ .cancel) s0 s ∧
      k ≤ requests (.seekRange 4 (some 10)) s.log ∧ s.spc = .sel ∧ s.done = false ∧ s.failed = false := by
  let G : Sys memStorage → Act → Prop := fun s a => Honest s a ∧ NoSeek s a ∧ a ≠ .cancel
  have hg : ∀ (s : Sys memStorage) (a : Act),
      (honestB s a && noSeekB s a && decide (a ≠ .cancel)) = true → G s a := by
    intro s a h
    rw [Bool.and_eq_true, Bool.and_eq_true] at h
    exact ⟨honest_of h.1.1, noSeek_of h.1.2, of_decide_eq_true (p := a ≠ .cancel) h.2⟩
  have key : ∃ log, Reach cfgTrunc G (init cfgTrunc demoMem10) (truncState log) ∧
      k ≤ requests (.seekRange 4 (some 10)) log := by
    induction k with
    | zero =>
      refine ⟨((run cfgTrunc (init (S := memStorage) cfgTrunc demoMem10)
        ([.chunk 4] ++ srcs 6 ++ [.eof, .src, .seekOk 4])).getD (init cfgTrunc demoMem10)).log,
        reach_runG' hg ([.chunk 4] ++ srcs 6 ++ [.eof, .src, .seekOk 4]) .refl ?_, Nat.zero_le _⟩
      exact rfl
    | succ k ih =>
      obtain ⟨log, h1, h2⟩ := ih
      refine ⟨.seekRange 4 (some 10) :: .eof :: log, reach_runG' hg [.eof, .src, .seekOk 4] h1 rfl, ?_⟩
      simp [requests]; omega
  obtain ⟨log, h1, h2⟩ := key
  exact ⟨_, _, ⟨rfl, demoMem10, rfl, rfl⟩, h1, h2, rfl, rfl, rfl⟩

/-- C56, the other half, with storage that keeps everything, for every history: a
truncated resource is never reported as complete, and if the task ends, it is with an
error. -/
theorem C56_truncated_partial {P : Provider} {c : Cfg} (hP : Unbounded c.contentLength P)
    (hb : c.batchSize ≠ 0) (hk : c.KeepsErrors) (hss : c.supportsSeek = true) {M N : Nat}
    (hN : c.contentLength = some N) (hM : c.remoteLen = some M) (hlt : M < N) {s0 s : Sys P.S}
    (h0 : Starts P c s0) (h : Reach c Honest s0 s) :
    (∀ pos r, Ev.progress pos r .complete ∉ s.log) ∧ (s.done = true → s.failed = false → False) ∧
      (s.spc = .ended → s.failed = true) := by
  obtain ⟨LP, hTot, -⟩ := keeps_lawful hP
  have hlen : c.LengthHonest := by
    intro n hn
    rw [hN] at hn
    exact ⟨M, hM, by simp only [Option.some.injEq] at hn; omega⟩
  have hT := Trunc.reach LP hb hlen hM hN (fun _ _ h => h) h0 h
  have hno : ¬ RSet.Mem s.dl (N - 1) := fun hm => by have := hT.dl _ hm; omega
  have hdone : s.done = true → s.failed = false → False := by
    intro hd hf
    obtain ⟨-, st, -, rfl⟩ := h0
    exact hno (C04_finished_covers hk h hss hN hd hf (N - 1) (by omega))
  refine ⟨?_, hdone, ?_⟩
  · intro pos r hm
    obtain ⟨-, st, -, rfl⟩ := h0
    exact hno (C04_complete_covers h hss hN hm (N - 1) (by omega))
  · intro he
    by_contra hf
    refine hdone ?_ (by simpa using hf)
    obtain ⟨-, st, -, rfl⟩ := h0
    have hE : EndInv s := Reach.inv (P := EndInv) h (EndInv.init c st) (fun _ _ _ h _ ht => h.step hk ht)
    exact hE.late (Or.inr he)

/-! ### C57 -/

/-- C57 fails: the first seek is served by a chunk that the task took before the message;
the message stays in the queue, which has room for one; the message of the second seek is
dropped. -/
theorem C57_seek_is_delivered_violated :
    ∃ s0 s s' : Sys memStorage, Starts memProvider demoCfg s0 ∧ Reach demoCfg Honest s0 s ∧
      demoCfg.supportsSeek = true ∧ s.rpc = .sSend 9 ∧ ¬ RSet.Mem s.dl 9 ∧
      step demoCfg s .rdr = some s' ∧ BlockedSeek demoCfg s' 9 ∧ s'.seekQ = some 5 := by
  obtain ⟨s, h1, h2⟩ := of_any (o := runG honestB demoCfg (init (S := memStorage) demoCfg demoMem10)
    ([.seek (.start 5)] ++ rdrs 3 ++ [.chunk 6] ++ srcs 8 ++ rdrs 3 ++ [.seek (.start 9)] ++ rdrs 2))
    (p := fun s : Sys memStorage => decide (s.rpc = .sSend 9 ∧ RSet.get s.dl 9 = none) &&
      (step demoCfg s .rdr).any fun s' : Sys memStorage =>
        decide (s'.rpc = .sWait 9 ∧ s'.done = false ∧ s'.reached = false ∧ s'.seekQ = some 5))
    (by decide +kernel)
  rw [Bool.and_eq_true] at h2
  obtain ⟨h3, h4⟩ := of_decide_eq_true h2.1
  obtain ⟨s', h5, h6⟩ := of_any h2.2
  obtain ⟨h7, h8, h9, h10⟩ := of_decide_eq_true h6
  exact ⟨_, s, s', ⟨rfl, demoMem10, rfl, rfl⟩, reach_runG (fun s a h => honest_of h) h1, rfl, h3,
    RSet.get_none_iff.mp h4, h5, blockedSeek_iff.mpr ⟨h7, h8, h9⟩, h10⟩

/-- C57 if the queue is empty when the seek sends its message: the message stays there
until the task takes it, and the task takes it in every `select!` that picks it. -/
theorem C57_seek_is_delivered_partial {P : Provider} {c : Cfg} {s s1 s2 : Sys P.S} {p : Nat}
    (hp : s.rpc = .sSend p) (hq : s.seekQ = none) (hs : step c s .rdr = some s1)
    (h : Reach c (fun _ a => a ≠ .recvSeek) s1 s2) :
    s2.seekQ = some p ∧
      (s2.spc = .sel → ∃ s3, step c s2 .recvSeek = some s3 ∧ s3.spc = .seekMsg p) := by
  have h1 : s1.seekQ = some p := by
    have ht := tr_of_step hs
    cases ht <;> simp_all
  have h2 : s2.seekQ = some p := by
    refine Reach.inv (P := fun s : Sys P.S => s.seekQ = some p) h h1 ?_
    intro s s' a h hg ht
    cases ht <;> simp_all
  refine ⟨h2, fun hsel => ⟨{ s2 with seekQ := none, spc := .seekMsg p }, ?_, rfl⟩⟩
  simp [step, hsel, h2]

/-- A seek that finds the queue empty. -/
example : ∃ s0 s : Sys memStorage, Starts memProvider demoCfg s0 ∧ Reach demoCfg Honest s0 s ∧
    s.rpc = .sSend 5 ∧ s.seekQ = none := by
  obtain ⟨s0, s, h1, h2, h3⟩ := exists_of_runG (P := memProvider) (c := demoCfg)
    (g := fun s a => honestB s a) (G := Honest) (fun s a h => honest_of h) demoMem10
    ([.chunk 2] ++ srcs 6 ++ [.seek (.start 5)] ++ rdrs 2)
    (fun s => decide (s.rpc = .sSend 5 ∧ s.seekQ = none)) rfl rfl (by decide +kernel)
  exact ⟨s0, s, h1, h2, (of_decide_eq_true h3).1, (of_decide_eq_true h3).2⟩

/-! ### C58 -/

/-- C58 fails: the reader looks for its range before the chunk is stored and publishes its
request after the task has compared positions.  Its four bytes are there, and only the
environment can do something. -/
theorem C58_available_range_violated :
    ∃ s0 s : Sys memStorage, Starts memProvider demoCfg s0 ∧
      Reach demoCfg (fun s a => Honest s a ∧ NoSeek s a) s0 s ∧ BlockedRead demoCfg s 4 ∧
      s.st.rp = 0 ∧ s.dl = [(0, 4)] ∧
      ∀ a s', step demoCfg s a = some s' → (∃ n, a = .chunk n) ∨ a = .chunkErr ∨ a = .eof ∨
        a = .timeout ∨ a = .cancel := by
  obtain ⟨s0, s, h1, h2, h3⟩ := exists_of_runG (P := memProvider) (c := demoCfg)
    (g := fun s a => honestB s a && noSeekB s a) (G := fun s a => Honest s a ∧ NoSeek s a)
    (fun s a h => by
      rw [Bool.and_eq_true] at h; exact ⟨honest_of h.1, noSeek_of h.2⟩) demoMem10
    ([.read 4] ++ rdrs 1 ++ [.chunk 4] ++ srcs 6 ++ rdrs 3)
    (fun s => decide (s.rpc = .rWait 4 4 ∧ s.done = false ∧ s.reached = false ∧ s.spc = .sel ∧
      s.seekQ = none ∧ s.cancelled = false ∧ s.st.rp = 0 ∧ s.dl = [(0, 4)])) rfl rfl (by decide +kernel)
  obtain ⟨e1, e2, e3, e4, e5, e6, e7, e8⟩ := of_decide_eq_true h3
  refine ⟨s0, s, h1, h2, blockedRead_iff.mpr ⟨⟨_, e1⟩, e2, e3⟩, e7, e8, ?_⟩
  intro a s' ha
  have ht := tr_of_step ha
  cases ht <;> simp_all

/-- The request of the waiting consumer is where the task looks for it. -/
def ReqInv {S : Storage} (s : Sys S) : Prop :=
  ∀ r, s.rpc.waiting = some r → r ≠ two64 - 1 → s.done = false → s.reached = false →
    s.spc.telling = false → s.req = some r

set_option maxHeartbeats 4000000 in
theorem ReqInv.step {S : Storage} {c : Cfg} {s s' : Sys S} {a : Act} (h : ReqInv s) (ht : Tr c s a s') :
    ReqInv s' := by
  unfold ReqInv at *
  cases ht <;> grind [RdrPc.waiting, SrcPc.telling, storeReq, roundPc, startPc]

/-- C58 if the request is published before the task compares positions: if the task has
stored something and not yet compared, and the requested range is stored, the task's own
steps, whatever the storage and the history, wake the consumer. -/
theorem C58_available_range_partial {P : Provider} {c : Cfg} {s0 s : Sys P.S} (h0 : Starts P c s0)
    (h : Reach c Any s0 s) {n r pos0 len bw : Nat} {todo : List Byte} (hr : s.rpc = .rWait n r)
    (hw : s.spc = .wAdd pos0 len todo bw ∨ s.spc = .wChk pos0 len todo bw)
    (hle : r ≤ P.S.wtell s.st) (h64 : r < two64 - 1) :
    ∃ k s1 s2, k ≤ 4 ∧ run c s (srcs k) = some s1 ∧ s1.rpc = s.rpc ∧ step c s1 .rdr = some s2 ∧
      s2.rpc = .rCheck n r := by
  have hI : ReqInv s := by
    refine Reach.inv (P := ReqInv) h ?_ (fun _ _ _ h _ ht => h.step ht)
    obtain ⟨-, st, -, rfl⟩ := h0
    intro r hr; simp [init, RdrPc.waiting] at hr
  have hgo : ∀ s1 : Sys P.S, s1.rpc = .rWait n r → s1.done = true ∨ s1.reached = true →
      ∃ s2, step c s1 .rdr = some s2 ∧ s2.rpc = .rCheck n r := by
    intro s1 h1 h2
    by_cases hd : s1.done = true
    · exact ⟨{ s1 with rpc := .rCheck n r, log := .released true :: s1.log },
        by simp only [step, rdrStep, h1, hd, if_true], rfl⟩
    · have hr : s1.reached = true := h2.resolve_left hd
      exact ⟨{ s1 with reached := false, rpc := .rCheck n r, log := .released false :: s1.log },
        by simp [step, rdrStep, h1, hd, hr], rfl⟩
  by_cases hq : s.done = true ∨ s.reached = true
  · obtain ⟨s2, h1, h2⟩ := hgo s hr hq
    exact ⟨0, s, s2, by omega, rfl, rfl, h1, h2⟩
  · have hd : s.done = false := by simpa using fun h => hq (.inl h)
    have he : s.reached = false := by simpa using fun h => hq (.inr h)
    have hreq : s.req = some r :=
      hI r (by rw [hr]; rfl) (by omega) hd he (by rcases hw with h | h <;> rw [h] <;> rfl)
    have hchk : ∀ s : Sys P.S, s.spc = .wChk pos0 len todo bw → s.req = some r → r ≤ P.S.wtell s.st →
        ∃ s1, run c s (srcs 3) = some s1 ∧ s1.rpc = s.rpc ∧ s1.reached = true := by
      intro s h1 h2 h3
      refine ⟨_, by simp only [srcs, List.replicate, run, step, srcStep, h1, h2, h3, if_true]; rfl, ?_, ?_⟩
      · simp only [nextRound]; split <;> [rfl; split <;> rfl]
      · simp only [nextRound]; split <;> [rfl; split <;> rfl]
    rcases hw with h1 | h1
    · have hs : step c s .src =
          some { s with dl := RSet.add s.dl pos0 (P.S.wtell s.st), spc := .wChk pos0 len todo bw } := by
        simp only [step, srcStep, h1]
      obtain ⟨s1, h2, h3, h4⟩ := hchk
        { s with dl := RSet.add s.dl pos0 (P.S.wtell s.st), spc := .wChk pos0 len todo bw } rfl hreq hle
      obtain ⟨s2, h5, h6⟩ := hgo s1 (h3.trans hr) (.inr h4)
      refine ⟨4, s1, s2, by omega, ?_, h3, h5, h6⟩
      have e : srcs 4 = .src :: srcs 3 := rfl
      rw [e]; simp only [run, hs]; exact h2
    · obtain ⟨s1, h2, h3, h4⟩ := hchk s h1 hreq hle
      obtain ⟨s2, h5, h6⟩ := hgo s1 (h3.trans hr) (.inr h4)
      exact ⟨3, s1, s2, by omega, h2, h3, h5, h6⟩

/-- A request for four bytes, published while the task stores them. -/
example : ∃ s0 s : Sys memStorage, Starts memProvider demoCfg s0 ∧ Reach demoCfg Any s0 s ∧
    s.rpc = .rWait 4 4 ∧ s.spc = .wAdd 0 4 [] 4 ∧ memStorage.wtell s.st = 4 := by
  obtain ⟨s0, s, h1, h2, h3⟩ := exists_of_run (P := memProvider) (c := demoCfg) demoMem10
    ([.read 4] ++ rdrs 1 ++ [.chunk 4] ++ srcs 3 ++ rdrs 3)
    (fun s => decide (s.rpc = .rWait 4 4 ∧ s.spc = .wAdd 0 4 [] 4 ∧ memStorage.wtell s.st = 4))
    rfl rfl (by decide +kernel)
  exact ⟨s0, s, h1, h2, of_decide_eq_true h3⟩

end SD
