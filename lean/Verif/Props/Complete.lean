import Verif.Proof.Sys.Complete
import Verif.Props.Task

/-!
# Property C04: completion means that the whole resource is stored
-/

set_option linter.unusedVariables false

namespace SD

/-- C04, bookkeeping: if a seekable source with a known length reported `Complete`, every
position is recorded as downloaded.  Every history and storage. -/
theorem C04_complete_covers {S : Storage} {c : Cfg} {G : Sys S → Act → Prop} {st : S.σ}
    {s : Sys S} (h : Reach c G (init c st) s) {n : Nat} (hss : c.supportsSeek = true)
    (hn : c.contentLength = some n) {pos : Nat} {r : Nat × Nat}
    (hc : Ev.progress pos r .complete ∈ s.log) : ∀ q, q < n → RSet.Mem s.dl q :=
  C33_complete_means_covered h hss hn hc

/-- C04, bookkeeping: the same if the download is over and not marked as failed. -/
theorem C04_finished_covers {S : Storage} {c : Cfg} (hk : c.KeepsErrors) {G : Sys S → Act → Prop}
    {st : S.σ} {s : Sys S} (h : Reach c G (init c st) s) {n : Nat} (hss : c.supportsSeek = true)
    (hn : c.contentLength = some n) (hd : s.done = true) (hf : s.failed = false) :
    ∀ q, q < n → RSet.Mem s.dl q :=
  fun q hq => covered_of_done hk h hd hf hss hn q (by omega) hq

/-- C04, the consumer's side, with storage that keeps everything: let `s1` be a state in
which the download is complete and the consumer is not inside a call, and `s` any state
after it.  What has happened between them: nothing was requested of the source; every
seek went to its target; every read starting inside the resource returned exactly the
remote bytes from there, as many as it asked for or as there are; nothing waited except
calls at the very end of the resource. -/
theorem C04_after_completion {P : Provider} {c : Cfg} (hP : Unbounded c.contentLength P)
    (hb : c.batchSize ≠ 0) (hlen : c.LengthHonest) (hss : c.supportsSeek = true) {n : Nat}
    (hn : c.contentLength = some n) {s0 s1 s : Sys P.S} (h0 : Starts P c s0)
    (h1 : Reach c Honest s0 s1) {pos : Nat} {r : Nat × Nat}
    (hc : Ev.progress pos r .complete ∈ s1.log) (hi : s1.rpc = .idle) (h : Reach c Honest s1 s) :
    ∃ l, s.log = l ++ s1.log ∧
      (∀ start stop, Ev.seekRange start stop ∉ l) ∧ (∀ p, Ev.reconnect p ∉ l) ∧
      (∀ t res, Ev.seekRet t res ∈ l → t ≤ n ∧ res = .ok t) ∧
      (∀ p len fast res, Ev.readRet p len fast res ∈ l → p < n →
        res = .ok (slice c.remote p (min len (n - p)))) ∧
      (∀ p, Ev.request p ∈ l → p = n) := by
  obtain ⟨LP, hTot, -⟩ := keeps_lawful hP
  have hA : After c LP.law n s1.log s1 := by
    have hC : Cov c s1 := by
      obtain ⟨-, st, -, rfl⟩ := h0
      exact Cov.reach h1
    obtain ⟨k1, -, k2⟩ := hC.log (completes_mem hc)
    refine ⟨k1, k2 hss n hn, ⟨[], rfl, by simp⟩, ?_, ?_, ?_⟩ <;>
      simp [hi, RdrPc.slowRead, RdrPc.slowSeek]
  obtain ⟨l, hl, hr⟩ := (After.reach LP hTot.toSeekTotal hb hlen (fun _ _ h => h) h0 h1 hn hA h).log
  refine ⟨l, hl, ?_, ?_, ?_, ?_, ?_⟩
  · intro start stop hm; exact hr _ hm
  · intro p hm; exact hr _ hm
  · intro t res hm; exact hr _ hm
  · intro p len fast res hm hlt
    have hf := (hr _ hm).2 hlt
    subst hf
    rw [C02_unblocked_read_exact hP hb hlen h0 (h1.trans h)
      (show Ev.readRet p len true res ∈ s.log by rw [hl]; exact List.mem_append_left _ hm)]
    simp only [Cfg.normalize, hn]
    rw [show min (p + len) n - p = min len (n - p) by omega]
  · intro p hm; exact hr _ hm

/-- Ten bytes arrive out of order; after completion the consumer seeks back and forth. -/
example : ∃ s0 s1 s : Sys memStorage, Starts memProvider demoCfg s0 ∧ Reach demoCfg Honest s0 s1 ∧
    Ev.seekRange 5 (some 10) ∈ s1.log ∧ Ev.progress 5 (0, 10) .complete ∈ s1.log ∧ s1.rpc = .idle ∧
    Reach demoCfg Honest s1 s ∧
    Ev.readRet 3 4 true (.ok [4, 5, 6, 7]) ∈ s.log ∧ Ev.readRet 8 9 true (.ok [9, 10]) ∈ s.log := by
  obtain ⟨s1, h1, h2⟩ := of_any (o := runG honestB demoCfg (init (S := memStorage) demoCfg demoMem10)
    ([.chunk 2] ++ srcs 6 ++ [.seek (.start 5)] ++ rdrs 3 ++ [.recvSeek, .src, .seekOk 5, .chunk 1] ++
      srcs 3 ++ [.chunk 4] ++ srcs 8 ++ rdrs 3 ++ [.eof, .src, .seekOk 2, .chunk 3] ++ srcs 6 ++ [.eof] ++ srcs 6))
    (p := fun s : Sys memStorage => (decide (Ev.seekRange 5 (some 10) ∈ s.log) &&
      decide (Ev.progress 5 (0, 10) .complete ∈ s.log) && decide (s.rpc = .idle)) &&
      (runG honestB demoCfg s ([.seek (.start 3)] ++ rdrs 2 ++ [.read 4] ++ rdrs 4 ++ [.seek (.start 8)] ++
        rdrs 2 ++ [.read 9] ++ rdrs 3)).any fun s : Sys memStorage =>
          decide (Ev.readRet 3 4 true (.ok [4, 5, 6, 7]) ∈ s.log ∧
            Ev.readRet 8 9 true (.ok [9, 10]) ∈ s.log)) (by decide +kernel)
  rw [Bool.and_eq_true, Bool.and_eq_true, Bool.and_eq_true] at h2
  obtain ⟨s, h3, h4⟩ := of_any h2.2
  have h5 := of_decide_eq_true h4
  exact ⟨_, s1, s, ⟨rfl, demoMem10, rfl, rfl⟩, reach_runG (fun s a h => honest_of h) h1,
    of_decide_eq_true h2.1.1.1, of_decide_eq_true h2.1.1.2, of_decide_eq_true h2.1.2,
    reach_runG (fun s a h => honest_of h) h3, h5.1, h5.2⟩

end SD
