import Verif.Proof.Sys.Chunks
import Verif.Props.Panic

/-!
# Properties C40 and C41: the prefetch phase, and what happens to chunks
-/

set_option linter.unusedVariables false

namespace SD

/-! ### C41: chunks are stored completely and in order -/

/-- 20 bytes, seekable, with a prefetch of 4, through a bounded storage of 8. -/
def cfgB8 : Cfg :=
  { demoCfg with contentLength := some 20, remoteLen := some 20, prefetchBytes := 4, capacity := some 8 }

/-- Bounded storage of size 8 over memory. -/
def demoBnd8 : Bnd memStorage :=
  { inner := { buf := List.replicate 8 0, written := 0, rp := 0, wp := 0 }
    read := 0, written := 0, rp := 0, wp := 0, size := 8 }

/-- The prefetch fills the buffer, so that two bytes are left over; the consumer reads
what is there and seeks ahead; the left-over bytes are stored in front of a chunk that
belongs to the new position. -/
def staleChunk : List Act :=
  [.chunk 10] ++ srcs 3 ++ [.read 8] ++ rdrs 3 ++ [.seek (.start 12)] ++ rdrs 3 ++
    [.recvSeek, .src, .seekOk 12, .chunk 4] ++ srcs 3 ++ [.chunk 2] ++ srcs 6 ++ rdrs 3 ++
    [.read 4] ++ rdrs 4 ++ srcs 7 ++ [.read 4] ++ rdrs 2

/-- C41 fails for bounded storage and a seekable source: what is left over from a prefetch
that filled the buffer is not discarded by a seek and is stored later, out of order.  A
read then returns the bytes `9, 10, 17, 18` at position 16, where the resource has
`17, 18, 19, 20`, although the consumer only ever moved forward.  (This also breaks C03
for bounded storage.) -/
theorem C41_chunks_stored_violated :
    ∃ s0 s : Sys (bndStorage true memStorage), Starts (bndProvider true memProvider 8) cfgB8 s0 ∧
      Reach cfgB8 (fun s a => Honest s a ∧ Forward cfgB8 s a) s0 s ∧
      ¬ accepted s.log <+: received s.log ∧
      Ev.readRet 16 4 true (.ok [9, 10, 17, 18]) ∈ s.log ∧ ¬ ReadsExact cfgB8.remote s.log := by
  obtain ⟨s0, s, h1, h2, h3⟩ := exists_of_runG (P := bndProvider true memProvider 8) (c := cfgB8)
    (g := fun s a => honestB s a && forwardB cfgB8 s a)
    (G := fun s a => Honest s a ∧ Forward cfgB8 s a)
    (fun s a h => by
      rw [Bool.and_eq_true] at h; exact ⟨honest_of h.1, forward_of h.2⟩) demoBnd8 staleChunk
    (fun s => decide (¬ accepted s.log <+: received s.log) &&
      decide (Ev.readRet 16 4 true (.ok [9, 10, 17, 18]) ∈ s.log)) rfl rfl (by decide +kernel)
  rw [Bool.and_eq_true] at h3
  have h4 := of_decide_eq_true h3.2
  refine ⟨s0, s, h1, h2, of_decide_eq_true h3.1, h4, ?_⟩
  intro h5
  exact absurd (h5 _ _ _ _ h4) (by decide)

/-- C41 for storage that keeps everything, in every history: what the storage has accepted
is a prefix of what the transport delivered; when the next chunk (or the end) is taken it
is all of it, and so it is when `Complete` was reported; every write is of at most
`batch_write_size` bytes. -/
theorem C41_chunks_stored_unbounded_partial {P : Provider} {c : Cfg} (hP : Unbounded c.contentLength P)
    (hb : c.batchSize ≠ 0) {s0 s : Sys P.S} (h0 : Starts P c s0) (h : Reach c Any s0 s) :
    accepted s.log <+: received s.log ∧
    Always (fun e l => (∃ bs, e = .chunk bs) ∨ e = .eof → accepted l = received l) s.log ∧
    (∀ pos r, Ev.progress pos r .complete ∈ s.log → accepted s.log = received s.log) ∧
    Always (batchRule c) s.log := by
  obtain ⟨LP, -, -⟩ := keeps_lawful hP
  obtain ⟨PP⟩ := keeps_positional hP
  have hrem : ∀ s, Reach c Any s0 s → s.rem = none := fun s hs => (Keep.reach hb LP h0 hs).rem
  obtain ⟨h1, h2, h3⟩ := Chunks.reach hb PP h0 (fun s p hs _ _ => hrem s hs) h
  refine ⟨h1.pre, ?_, fun pos r hm => (h1.comp (completes_mem hm)).1.symm, h2⟩
  clear h1 h2 h3
  induction h with
  | refl =>
    obtain ⟨-, st, hc, rfl⟩ := h0
    trivial
  | @step s s' a hs _ hst ih =>
    have hc := (Chunks.reach hb PP h0 (fun s p hs _ _ => hrem s hs) hs).1.ord
    have hr := hrem s hs
    have key : s.spc = .sel → accepted s.log = received s.log := by
      intro hsel
      have := hc (by simp [hsel, SrcPc.going])
      simpa [hsel, hr, SrcPc.pend] using this.symm
    have ht := tr_of_step hst
    cases ht
    all_goals first
      | exact ih
      | (refine ⟨fun h => ?_, ih⟩
         first
           | (exfalso; simp at h; done)
           | exact key (by assumption))

/-- C41 for every storage if the source cannot seek, in every history: as above, except
that the next chunk may be taken earlier if the storage was full.  Missing: sources that
can seek and storage that keeps a window, for which see the violation. -/
theorem C41_chunks_stored_unseekable_partial {P : Provider} {c : Cfg} (hP : Supported c.contentLength P)
    (hs : c.supportsSeek = false) (hb : c.batchSize ≠ 0) {s0 s : Sys P.S} (h0 : Starts P c s0)
    (h : Reach c Any s0 s) :
    accepted s.log <+: received s.log ∧ Always storedRule s.log ∧
    (∀ pos r, Ev.progress pos r .complete ∈ s.log → accepted s.log = received s.log) ∧
    Always (batchRule c) s.log := by
  obtain ⟨PP⟩ := supported_positional hP
  obtain ⟨h1, h2, h3⟩ := Chunks.reach hb PP h0
    (fun s p _ _ hsh => absurd hsh.1 (by simp [hs])) h
  exact ⟨h1.pre, h3, fun pos r hm => (h1.comp (completes_mem hm)).1.symm, h2⟩

/-- C41 for every storage if the consumer does not seek. -/
theorem C41_chunks_stored_sequential_partial {P : Provider} {c : Cfg} (hP : Supported c.contentLength P)
    (hb : c.batchSize ≠ 0) {s0 s : Sys P.S} (h0 : Starts P c s0) (h : Reach c NoSeek s0 s) :
    accepted s.log <+: received s.log ∧ Always storedRule s.log ∧
    (∀ pos r, Ev.progress pos r .complete ∈ s.log → accepted s.log = received s.log) ∧
    Always (batchRule c) s.log := by
  obtain ⟨PP⟩ := supported_positional hP
  obtain ⟨h1, h2, h3⟩ := Chunks.reach hb PP h0
    (fun s p hs hm _ => by
      obtain ⟨-, st, hc, rfl⟩ := h0
      exact absurd hm ((noSeek_src hs).2.2 p)) h
  exact ⟨h1.pre, h3, fun pos r hm => (h1.comp (completes_mem hm)).1.symm, h2⟩

/-- A batch size of 4. -/
def cfgBatch : Cfg := { demoCfg with batchSize := 4 }

/-- A chunk of 10 bytes is stored in writes of 4, 4 and 2 bytes, and `Complete` is
reported. -/
example : ∃ s0 s : Sys memStorage, Starts memProvider cfgBatch s0 ∧ Reach cfgBatch NoSeek s0 s ∧
    Ev.write 0 [1, 2, 3, 4] 4 ∈ s.log ∧ Ev.write 4 [5, 6, 7, 8] 4 ∈ s.log ∧ Ev.write 8 [9, 10] 2 ∈ s.log ∧
    Ev.progress 10 (0, 10) .complete ∈ s.log := by
  obtain ⟨s0, s, h1, h2, h3⟩ := exists_of_runG (P := memProvider) (c := cfgBatch)
    (g := noSeekB) (G := NoSeek) (fun s a h => noSeek_of h) demoMem10
    ([.chunk 10] ++ srcs 8 ++ [.eof] ++ srcs 6)
    (fun s => decide (Ev.write 0 [1, 2, 3, 4] 4 ∈ s.log ∧ Ev.write 4 [5, 6, 7, 8] 4 ∈ s.log ∧
      Ev.write 8 [9, 10] 2 ∈ s.log ∧ Ev.progress 10 (0, 10) .complete ∈ s.log))
    rfl rfl (by decide +kernel)
  exact ⟨s0, s, h1, h2, of_decide_eq_true h3⟩

/-- With bounded storage the buffer fills up, and the left-over bytes of the prefetch are
stored together with the next chunk. -/
example : ∃ s0 s : Sys (bndStorage true memStorage), Starts (bndProvider true memProvider 4) cfgBounded s0 ∧
    Reach cfgBounded NoSeek s0 s ∧
    Ev.write 4 [5, 6, 7, 8] 2 ∈ s.log ∧ Ev.write 6 [7, 8] 0 ∈ s.log := by
  obtain ⟨s0, s, h1, h2, h3⟩ := exists_of_runG (P := bndProvider true memProvider 4) (c := cfgBounded)
    (g := noSeekB) (G := NoSeek) (fun s a h => noSeek_of h) demoBnd4
    ([.chunk 6] ++ srcs 3 ++ [.read 2] ++ rdrs 3 ++ [.chunk 2] ++ srcs 6)
    (fun s => decide (Ev.write 4 [5, 6, 7, 8] 2 ∈ s.log ∧ Ev.write 6 [7, 8] 0 ∈ s.log))
    rfl rfl (by decide +kernel)
  exact ⟨s0, s, h1, h2, of_decide_eq_true h3⟩

/-! ### C40: no data before the prefetch is complete -/

/-- C40: if the consumer does not seek, no `read` returns from the storage before
`prefetch_bytes` bytes are stored, the transport has ended, the storage was full, or the
download is over.  For every storage and every schedule. -/
theorem C40_prefetch_first {P : Provider} {c : Cfg} (hP : Supported c.contentLength P)
    (hb : c.batchSize ≠ 0) {s0 s : Sys P.S} (h0 : Starts P c s0) (h : Reach c NoSeek s0 s)
    {l1 l2 : List Ev} {pos len : Nat} {fast : Bool} {res : Res (List Byte)}
    (hl : s.log = l1 ++ .readRet pos len fast res :: l2) :
    c.prefetchBytes ≤ (accepted l2).length ∨ Ev.eof ∈ l2 ∨ refused l2 ∨
      ∃ r o, Ev.onFinish r o ∈ l2 := by
  obtain ⟨PP⟩ := supported_positional hP
  have h1 := (Pf.reach hb PP h0 h).rule
  rw [hl] at h1
  exact h1.split rfl

/-- Prefetch of 6 bytes. -/
def cfgPf : Cfg := { demoCfg with prefetchBytes := 6 }

/-- A read of 2 bytes is only served after 6 bytes, two chunks later (and the chunk after
them). -/
example : ∃ s0 s : Sys memStorage, Starts memProvider cfgPf s0 ∧ Reach cfgPf NoSeek s0 s ∧
    Ev.readRet 0 2 false (.ok [1, 2]) ∈ s.log := by
  obtain ⟨s0, s, h1, h2, h3⟩ := exists_of_runG (P := memProvider) (c := cfgPf)
    (g := noSeekB) (G := NoSeek) (fun s a h => noSeek_of h) demoMem10
    ([.read 2] ++ rdrs 3 ++ [.chunk 3] ++ srcs 3 ++ [.chunk 3] ++ srcs 3 ++ [.chunk 1] ++ srcs 8 ++ rdrs 3)
    (fun s => decide (Ev.readRet 0 2 false (.ok [1, 2]) ∈ s.log))
    rfl rfl (by decide +kernel)
  exact ⟨s0, s, h1, h2, of_decide_eq_true h3⟩

end SD
