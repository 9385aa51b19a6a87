import Verif.Proof.Sys.LineReads
import Verif.Proof.Sys.Chunks

/-! # Reading to the end, for any transport -/

set_option linter.unusedSimpArgs false
set_option linter.unusedVariables false

namespace SD

variable {S : Storage}

/-- A read that was short, although the declared length was not reached and the storage did not cut it (`K`). -/
def EndRead (K : Nat → Nat → Prop) (c : Cfg) (e : Ev) : Prop :=
  ∃ pos len fast bs, e = .readRet pos len fast (.ok bs) ∧ bs.length < len ∧
    (¬ ∃ N, c.contentLength = some N ∧ N ≤ pos + bs.length) ∧ ¬ K len bs.length

/-- What is known when the download has ended well. -/
structure LineEnd (c : Cfg) {full : Bool} (L : Lawful S full) (s : Sys S) : Prop where
  fin : endedOk s → received s.log = accepted s.log
  rd : ∀ n, s.rpc = .rRead n false → (s.done = true ∧ received s.log = accepted s.log) ∨
    c.normalize (L.rpos s.st + n) ≤ S.wtell s.st
  seen : (∃ e ∈ s.log, EndRead L.Cut c e) → s.done = true

theorem Chunks.normal {s : Sys S} (h : Chunks s) (hn : s.spc.normal = true) : received s.log = accepted s.log := by
  have h1 := h.ord
  have h2 := h.rem
  have hd : s.spc.drained = true ∧ s.spc.going = true ∧ s.spc.pend = [] := by
    revert hn
    cases s.spc <;> simp [SrcPc.normal, SrcPc.drained, SrcPc.going, SrcPc.pend]
    next r o => cases r <;> simp
  have hr : s.rem = none := by
    by_cases hr : s.rem = none
    · exact hr
    · have := (h2 hr).2.2.2.1; simp [hd.1] at this
  have := h1 hd.2.1
  simpa [hd.2.2, hr] using this

/-- A step of a task that is ending changes neither what was received nor what was accepted. -/
theorem ending_step {c : Cfg} {s s' : Sys S} {a : Act} (ht : Tr c s a s') (he : s.spc.ending = true) :
    received s'.log = received s.log ∧ accepted s'.log = accepted s.log := by
  cases ht
  all_goals first
    | exact ⟨rfl, rfl⟩
    | (exfalso; simp_all [SrcPc.ending])

set_option maxHeartbeats 2000000 in
theorem endedOk_before {c : Cfg} (hk : c.KeepsErrors) {s s' : Sys S} {a : Act} (hE : EndInv s) (ht : Tr c s a s')
    (hn : s'.spc.normal = false) (he : endedOk s') : endedOk s ∧ s.spc.ending = true := by
  have he : s'.failed = false ∧ (s'.spc = .sigDone ∨ s'.done = true) := he.resolve_left (by simp [hn])
  have h1 := hE.ending
  have h2 := hE.failed
  have h3 := hE.onFin
  clear hE
  unfold Cfg.KeepsErrors at hk
  unfold endedOk
  cases ht
  case onFinOk r o heq hno _ =>
    cases r with
    | some k => exact absurd hno (hk k o)
    | none => simp [heq, SrcPc.normal, SrcPc.ending]
  all_goals grind [SrcPc.ending, SrcPc.normal, roundPc, startPc]

theorem LineEnd.fin_step {c : Cfg} (hk : c.KeepsErrors) {s s' : Sys S} {a : Act}
    (h : endedOk s → received s.log = accepted s.log)
    (hE : EndInv s) (hc : Chunks s') (ht : Tr c s a s') (he : endedOk s') : received s'.log = accepted s'.log := by
  by_cases hn : s'.spc.normal = true
  · exact hc.normal hn
  · obtain ⟨h1, h1'⟩ := endedOk_before hk hE ht (by simpa using hn) he
    obtain ⟨h2, h3⟩ := ending_step ht h1'
    rw [h2, h3]
    exact h h1

theorem done_step {c : Cfg} {s s' : Sys S} {a : Act} (ht : Tr c s a s') (h : s.done = true) : s'.done = true := by
  cases ht <;> first | exact h | rfl

theorem LineEnd.step {c : Cfg} {full : Bool} {L : Lawful S full} {W : Finset Nat} (hk : c.KeepsErrors) {s s' : Sys S}
    {a : Act} (hw : Contig c L W s) (hR : WinRdr c L s) (hE : EndInv s) (hc : Chunks s') (h : LineEnd c L s)
    (ht : Tr c s a s') : LineEnd c L s' := by
  have hmono := wtell_mono hw ht
  refine ⟨LineEnd.fin_step hk h.fin hE hc ht, fun n hr => ?_, ?_⟩
  · cases ha : a.isRdr
    · have f := src_frame L ha ht hw.inv (fun a b hs => Or.inr (hw.seq.seekAt a b hs).1)
      rw [f.rpc] at hr
      rw [f.rpos]
      rcases h.rd n hr with ⟨h1, h2⟩ | h1
      · obtain ⟨h3, h4⟩ := ending_step ht (hE.ending h1)
        exact .inl ⟨done_step ht h1, by rw [h3, h4]; exact h2⟩
      · right; omega
    · have hrd := h.rd
      have hrdy := hR.ready
      have hnorm := hR.norm
      have hfin := h.fin
      cases ht
      case rCheckOk m r heq hnf =>
        simp only [RdrPc.rRead.injEq] at hr
        obtain ⟨rfl, -⟩ := hr
        have hq := hnorm m r (by simp [heq, RdrPc.readReq])
        rcases hrdy m r heq with hd | hle
        · exact .inl ⟨hd, hfin (.inr ⟨hnf, .inr hd⟩)⟩
        · right; simp only; omega
      all_goals first
        | (simp [Act.isRdr] at ha; done)
        | exact hrd n hr
        | simp at hr
  · rintro ⟨e, he, hx⟩
    rcases log_step ht with hl | ⟨e', hl⟩
    · rw [hl] at he
      exact done_step ht (h.seen ⟨e, he, hx⟩)
    · rw [hl] at he
      rcases List.mem_cons.mp he with rfl | he
      · obtain ⟨pos, len, fast, bs, rfl, hlt, hN, hK⟩ := hx
        obtain ⟨-, h2, h3, h4, -⟩ := tr_readRet ht hl
        have hshort := hR.short hw ht hl hlt
        cases fast with
        | false =>
          rcases h.rd len h2 with ⟨h5, -⟩ | h5
          · exact done_step ht h5
          · exfalso
            obtain ⟨t1, -⟩ := L.tell_ok hw.inv
            rw [t1] at h3; subst h3
            have hcl := hw.clean (by simp [h2, RdrPc.inRead])
            have hle2 := normalize_le_self c (L.rpos s.st + len)
            rcases L.read_len (m := c.normalize (L.rpos s.st + len) - L.rpos s.st) hw.inv hR.exact hcl h4
              (by omega) (fun i hi => hw.wW _ (by omega)) with this | hc
            · unfold Cfg.normalize at this
              split at this
              · next N hN' => exact hN ⟨N, hN', by omega⟩
              · omega
            · exact hK hc
        | true =>
          exfalso
          rcases hR.len len true h2 with ⟨h5, -⟩ | h5
          · simp at h5
          · obtain ⟨t1, -⟩ := L.tell_ok hw.inv
            rw [t1] at h3; subst h3
            have hcl := hw.clean (by simp [h2, RdrPc.inRead])
            have hle2 := normalize_le_self c (L.rpos s.st + len)
            rcases L.read_len (m := c.normalize (L.rpos s.st + len) - L.rpos s.st) hw.inv hR.exact hcl h4
              (by omega) (fun i hi => hw.wW _ (by omega)) with this | hc
            · unfold Cfg.normalize at this
              split at this
              · next N hN' => exact hN ⟨N, hN', by omega⟩
              · omega
            · exact hK hc
      · exact done_step ht (h.seen ⟨e, he, hx⟩)

/-- A read that is short before the declared length was reached returned the last bytes that were received, and
nothing is received after it. -/
def lineEndRule (K : Nat → Nat → Prop) (c : Cfg) : Ev → List Ev → Prop
  | .readRet pos len _ (.ok bs), l => bs.length < len →
    (∃ N, c.contentLength = some N ∧ N ≤ pos + bs.length) ∨
      (received l = accepted l ∧ (accepted l).length ≤ pos + bs.length) ∨ K len bs.length
  | .chunk _, l => ¬ ∃ e ∈ l, EndRead K c e
  | _, _ => True

theorem tr_chunk {c : Cfg} {s s' : Sys S} {a : Act} {bs : List Byte} (ht : Tr c s a s')
    (hl : s'.log = .chunk bs :: s.log) : s.spc.ending = false := by
  cases ht
  all_goals first
    | (simp at hl; done)
    | (simp_all [SrcPc.ending])

theorem LineEnd.rule {e : Prop} {c : Cfg} {full : Bool} {L : Lawful S full} {W : Finset Nat} {s s' : Sys S}
    {a : Act} (hL : Line e c L W s) (hR : WinRdr c L s) (hE : EndInv s) (h : LineEnd c L s)
    (ht : Tr c s a s') {ev : Ev} (hl : s'.log = ev :: s.log) : lineEndRule L.Cut c ev s.log := by
  have hw := hL.contig
  unfold lineEndRule
  split
  · rename_i pos len fast bs
    intro hlt
    obtain ⟨-, h2, h3, h4, -⟩ := tr_readRet ht hl
    obtain ⟨t1, -⟩ := L.tell_ok hw.inv
    rw [t1] at h3; subst h3
    have hcl := hw.clean (by simp [h2, RdrPc.inRead])
    have hcase : (received s.log = accepted s.log) ∨ c.normalize (L.rpos s.st + len) ≤ S.wtell s.st := by
      cases fast with
      | false => exact (h.rd len h2).imp_left And.right
      | true =>
        rcases hR.len len true h2 with ⟨h5, -⟩ | h5
        · simp at h5
        · exact .inr h5
    rcases hcase with h5 | h5
    · right
      rcases L.read_len (m := min len (S.wtell s.st - L.rpos s.st)) hw.inv hR.exact hcl h4
        (by omega) (fun i hi => hw.wW _ (by omega)) with this | hc
      · exact .inl ⟨h5, by rw [hL.len]; omega⟩
      · exact .inr hc
    · have hle2 := normalize_le_self c (L.rpos s.st + len)
      rcases L.read_len (m := c.normalize (L.rpos s.st + len) - L.rpos s.st) hw.inv hR.exact hcl h4
        (by omega) (fun i hi => hw.wW _ (by omega)) with this | hc
      · left
        unfold Cfg.normalize at this
        split at this
        · next N hN' => exact ⟨N, hN', by omega⟩
        · omega
      · exact .inr (.inr hc)
  · intro hx
    have := hE.ending (h.seen hx)
    rw [tr_chunk ht hl] at this
    cases this
  · trivial

theorem line_end_log {P : Provider} {c : Cfg} {full : Bool} (LP : LawfulProvider P full c.contentLength)
    (PP : PositionalProvider P c.contentLength) (hb : c.batchSize ≠ 0)
    (hk : c.KeepsErrors) {s0 s : Sys P.S} (h0 : Starts P c s0) (h : Reach c NoSeek s0 s) :
    Always (lineEndRule LP.law.Cut c) s.log := by
  generalize he : (full = true → ∀ st, P.create c.contentLength = .ok st → ∀ q, LP.law.cell st q = none) = e
  have hi : Line e c LP.law ∅ s0 := by rw [← he]; exact Line.init LP h0
  have hch : ∀ s, Reach c NoSeek s0 s → Chunks s := fun s h => (Chunks.reach hb PP h0 (fun s p hs hm _ => by
    obtain ⟨-, st, hc, rfl⟩ := h0
    exact absurd hm ((noSeek_src hs).2.2 p)) h).1
  have : ((∃ W, Line e c LP.law W s) ∧ WinRdr c LP.law s ∧ Tok s ∧ EndInv s ∧ LineEnd c LP.law s) ∧
      Always (lineEndRule LP.law.Cut c) s.log := by
    induction h with
    | refl =>
      refine ⟨⟨⟨∅, hi⟩, WinRdr.init LP h0, ?_, ?_, ?_⟩, ?_⟩
      · obtain ⟨-, st, -, rfl⟩ := h0; exact Tok.init c st
      · obtain ⟨-, st, -, rfl⟩ := h0; exact EndInv.init c st
      · obtain ⟨-, st, -, rfl⟩ := h0
        constructor <;> simp [SD.init, endedOk, SrcPc.normal]
      · obtain ⟨-, st, -, rfl⟩ := h0; trivial
    | @step s s' a hs hg hst ih =>
      obtain ⟨⟨⟨W, hW⟩, hR, hT, hE, hL⟩, hl⟩ := ih
      have ht := tr_of_step hst
      have hfw : Forward c s a := fun f p hf => absurd hf (hg f)
      exact ⟨⟨hW.step (fun _ => hg) ht, hR.step hW.contig hT hE hfw ht, hT.step ht, hE.step hk ht,
        hL.step hk hW.contig hR hE (hch _ (.step hs hg hst)) ht⟩,
        always_step ht hl fun ev hev => hL.rule hW hR hE ht hev⟩
  exact this.2

end SD
