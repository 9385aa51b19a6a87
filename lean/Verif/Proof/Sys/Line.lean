import Verif.Proof.Sys.Windowed

/-!
# What is read is what was stored, for any transport

A download that the consumer does not direct elsewhere is contiguous from 0, whatever the transport
delivers: the byte that is stored for position `q` is the `q`-th byte that the storage accepted.
-/

namespace SD

variable {S : Storage}

/-- The storage holds what it accepted, in order; `e`: it started empty. -/
structure Line (e : Prop) (c : Cfg) {full : Bool} (L : Lawful S full) (W : Finset Nat) (s : Sys S) : Prop where
  seq : Seq c s
  inv : L.Inv s.st W
  clean : CleanInv L s
  len : (accepted s.log).length = S.wtell s.st
  cells : ∀ q b, q < S.wtell s.st → L.cell s.st q = some b → (accepted s.log)[q]? = some b
  out : e → ∀ q, L.cell s.st q ≠ none → q < S.wtell s.st
  wW : ∀ q, q < S.wtell s.st → q ∈ W

theorem accepted_rdr {es l : List Ev} (h : ∀ e ∈ es, e.isRdr = true) : accepted (es ++ l) = accepted l := by
  induction es with
  | nil => rfl
  | cons e es ih =>
    have h1 := h e (by simp)
    have h2 := ih fun e he => h e (by simp [he])
    cases e <;> simp_all [accepted, Ev.isRdr]

/-- What one write of the task does. -/
theorem Line.write {e : Prop} {c : Cfg} {full : Bool} {L : Lawful S full} {W : Finset Nat} {s : Sys S} {st' : S.σ}
    {bs : List Byte} {k pos : Nat} (h : Line e c L W s) (hw : S.write s.st bs = .ok (k, st')) :
    L.Inv st' (W ∪ Finset.Ico (S.wtell s.st) (S.wtell s.st + k)) ∧
    (accepted (.write pos bs k :: s.log)).length = S.wtell st' ∧
    (∀ q b, q < S.wtell st' → L.cell st' q = some b → (accepted (.write pos bs k :: s.log))[q]? = some b) ∧
    (e → ∀ q, L.cell st' q ≠ none → q < S.wtell st') ∧
    (∀ q, q < S.wtell st' → q ∈ W ∪ Finset.Ico (S.wtell s.st) (S.wtell s.st + k)) := by
  obtain ⟨h1, h2, h3, h4, h5, h6, h7⟩ := L.write_ok h.inv hw
  have hl := h.len
  have new : ∀ i b, i < k → L.cell st' (S.wtell s.st + i) = some b →
      (accepted (.write pos bs k :: s.log))[S.wtell s.st + i]? = some b := by
    intro i b hi hc
    rw [h6 i hi] at hc
    simp only [accepted]
    rw [List.getElem?_append_right (by omega), ← hl, Nat.add_sub_cancel_left, List.getElem?_take, if_pos hi]
    exact hc
  have old : ∀ q b, q < S.wtell s.st → L.cell s.st q = some b → (accepted (.write pos bs k :: s.log))[q]? = some b := by
    intro q b hq hc
    have := h.cells q b hq hc
    simp only [accepted]
    have hq := (List.getElem?_eq_some_iff.mp this).1
    rw [List.getElem?_append_left hq]
    exact this
  refine ⟨h2, ?_, ?_, ?_, ?_⟩
  · simp only [accepted, List.length_append, List.length_take, h5, hl]; omega
  · intro q b hlt hc
    rw [h5] at hlt
    by_cases hq : S.wtell s.st ≤ q ∧ q < S.wtell s.st + k
    · obtain ⟨i, rfl⟩ := Nat.exists_eq_add_of_le hq.1
      exact new i b (by omega) hc
    · cases full with
      | true =>
        have hne : L.cell s.st q ≠ none := by
          rcases h7 q (by simp [hc]) with h8 | h8
          · exact h8
          · exact L.written_some rfl h.inv (h.wW q (by omega))
        obtain ⟨b', hb'⟩ := Option.ne_none_iff_exists'.mp hne
        have h9 := (L.write_full rfl h.inv hw).2 q b' (by omega) hb'
        rw [hc] at h9
        cases h9
        exact old q b (by omega) hb'
      | false =>
        rcases (L.write_window rfl h.inv hw).1 q b hc with ⟨i, h8, rfl, -⟩ | h8
        · exact absurd ⟨Nat.le_add_right _ _, by omega⟩ hq
        · exact old q b (by omega) h8
  · intro he q hq
    rw [h5]
    rcases h7 q hq with h8 | h8
    · have := h.out he q h8; omega
    · exact h8
  · intro q hq
    rw [h5] at hq
    rw [Finset.mem_union, Finset.mem_Ico]
    by_cases h8 : q < S.wtell s.st
    · exact .inl (h.wW q h8)
    · exact .inr ⟨by omega, hq⟩

theorem Line.step {e : Prop} {c : Cfg} {full : Bool} {L : Lawful S full} {W : Finset Nat} {s s' : Sys S} {a : Act}
    (hG : c.supportsSeek = true → NoSeek s a) (h : Line e c L W s) (ht : Tr c s a s') : ∃ W', Line e c L W' s' := by
  have hseq := h.seq.step hG h.inv h.clean ht
  cases ha : a.isRdr
  · have hfr := src_frame L ha ht h.inv (fun a b hs => Or.inr (h.seq.seekAt a b hs).1)
    have hcl := h.clean.src hfr
    have same : s'.st = s.st → accepted s'.log = accepted s.log → ∃ W', Line e c L W' s' := by
      intro e1 e2
      exact ⟨W, hseq, by rw [e1]; exact h.inv, hcl, by rw [e1, e2]; exact h.len, by rw [e1, e2]; exact h.cells,
        by rw [e1]; exact h.out, by rw [e1]; exact h.wW⟩
    cases ht
    case pfWriteMore hw _ =>
      obtain ⟨w1, w2, w3, w4, w5⟩ := h.write hw
      exact ⟨_, hseq, w1, hcl, w2, w3, w4, w5⟩
    case pfWriteEnd hw =>
      obtain ⟨w1, w2, w3, w4, w5⟩ := h.write hw
      exact ⟨_, hseq, w1, hcl, w2, w3, w4, w5⟩
    case wWriteMore hw _ =>
      obtain ⟨w1, w2, w3, w4, w5⟩ := h.write hw
      exact ⟨_, hseq, w1, hcl, w2, w3, w4, w5⟩
    case wWriteEnd hw =>
      obtain ⟨w1, w2, w3, w4, w5⟩ := h.write hw
      exact ⟨_, hseq, w1, hcl, w2, w3, w4, w5⟩
    case seekOk start stp pos st' heq hw =>
      obtain ⟨e1, e2, -⟩ := h.seq.seekAt start stp heq
      subst e1
      obtain ⟨k1, k2, k3, k4, k5⟩ := L.wseek_ok h.inv (Or.inr rfl) hw
      exact ⟨W, hseq, k1, hcl, by simpa [k4] using h.len, fun q b hl hc => h.cells q b (by rwa [k4] at hl) (by rwa [k5] at hc),
        fun he q hc => by rw [k4]; exact h.out he q (by rwa [k5] at hc), by simpa [k4] using h.wW⟩
    all_goals first
      | exact same rfl rfl
      | (simp [Act.isRdr] at ha; done)
  · obtain ⟨f, hi, hc⟩ := rdr_frame L ha ht h.inv h.clean
    obtain ⟨es, e1, e2⟩ := f.log
    have e3 : accepted s'.log = accepted s.log := by rw [e1]; exact accepted_rdr e2
    exact ⟨W, hseq, hi, hc, by rw [f.wtell, e3]; exact h.len, fun q b hl hq => by rw [e3]; exact h.cells q b (by rwa [f.wtell] at hl) (by rwa [f.cell] at hq),
      fun he q hq => by rw [f.wtell]; exact h.out he q (by rwa [f.cell] at hq),
      by rw [f.wtell]; exact h.wW⟩

theorem Line.init {c : Cfg} {P : Provider} {full : Bool} (LP : LawfulProvider P full c.contentLength)
    {s0 : Sys P.S} (h : Starts P c s0) :
    Line (full = true → ∀ st, P.create c.contentLength = .ok st → ∀ q, LP.law.cell st q = none) c LP.law ∅ s0 := by
  obtain ⟨-, st, hc, rfl⟩ := h
  obtain ⟨h1, h2, h3, h4, h5, h6⟩ := LP.create_ok hc
  refine ⟨Seq.init h5, h1, ?_, ?_, ?_, ?_, ?_⟩
  · intro hh; simp [SD.init, RdrPc.inRead] at hh
  · simp [SD.init, accepted, h5]
  · intro q b hq; simp [SD.init, h5] at hq
  · intro he q hq
    exact absurd (he (h6 q hq).1 st hc q) hq
  · intro q hq; simp [SD.init, h5] at hq

/-- A read returned what the storage accepted at its position, as far as there was something; beyond that it
returned something only if the storage did not start empty (`e`). -/
def lineRule (e : Prop) : Ev → List Ev → Prop
  | .readRet pos _ _ (.ok bs), l =>
    (bs <+: (accepted l).drop pos ∨ (accepted l).drop pos <+: bs) ∧ (e → bs <+: (accepted l).drop pos)
  | _, _ => True

theorem Line.read {e : Prop} {c : Cfg} {full : Bool} {L : Lawful S full} {W : Finset Nat} {s s' : Sys S} {a : Act}
    {pos len : Nat} {fast : Bool} {bs : List Byte} (h : Line e c L W s) (ht : Tr c s a s')
    (hl : s'.log = .readRet pos len fast (.ok bs) :: s.log) :
    (bs <+: (accepted s.log).drop pos ∨ (accepted s.log).drop pos <+: bs) ∧ (e → bs <+: (accepted s.log).drop pos) := by
  obtain ⟨-, h2, h3, h4, -⟩ := tr_readRet ht hl
  obtain ⟨t1, -⟩ := L.tell_ok h.inv
  rw [t1] at h3; subst h3
  have hcl := h.clean (by simp [h2, RdrPc.inRead])
  obtain ⟨r1, r2, -⟩ := L.read_ok h.inv (L.clean_fresh h.inv hcl) h4
  have hlen := h.len
  have key : L.rpos s.st + bs.length ≤ S.wtell s.st ∨ bs = [] → bs <+: (accepted s.log).drop (L.rpos s.st) := by
    rintro (hle | rfl)
    · rw [List.prefix_iff_getElem?]
      intro i hi
      have h5 := r2 i hi
      rw [List.getElem?_drop]
      apply h.cells _ _ (by omega)
      rw [h5, List.getElem?_eq_getElem hi]
    · exact List.nil_prefix
  constructor
  · by_cases hle : L.rpos s.st + bs.length ≤ S.wtell s.st
    · exact .inl (key (.inl hle))
    · refine .inr ?_
      rw [List.prefix_iff_getElem?]
      intro i hi
      rw [List.length_drop, hlen] at hi
      have h5 := r2 i (by omega)
      rw [List.getElem?_eq_getElem (show i < bs.length by omega)] at h5 ⊢
      have h6 := h.cells _ _ (by omega) h5
      rw [← List.getElem?_drop, List.getElem?_eq_getElem (by rw [List.length_drop, hlen]; exact hi)] at h6
      exact h6.symm
  · intro he
    apply key
    by_cases hb : bs = []
    · exact .inr hb
    · left
      have hp := List.length_pos_iff.mpr hb
      have h5 := r2 (bs.length - 1) (by omega)
      have := h.out he (L.rpos s.st + (bs.length - 1)) (by
        rw [h5, List.getElem?_eq_getElem (by omega)]; simp)
      omega

theorem line_log {P : Provider} {c : Cfg} {full : Bool} (LP : LawfulProvider P full c.contentLength)
    {G : Sys P.S → Act → Prop} (hG : ∀ s a, G s a → c.supportsSeek = true → NoSeek s a)
    {s0 s : Sys P.S} (h0 : Starts P c s0) (h : Reach c G s0 s) :
    Always (lineRule (full = true → ∀ st, P.create c.contentLength = .ok st → ∀ q, LP.law.cell st q = none)) s.log := by
  generalize he : (full = true → ∀ st, P.create c.contentLength = .ok st → ∀ q, LP.law.cell st q = none) = e
  have hi : Line e c LP.law ∅ s0 := by rw [← he]; exact Line.init LP h0
  have : (∃ W, Line e c LP.law W s) ∧ Always (lineRule e) s.log := by
    refine Reach.inv (P := fun s => (∃ W, Line e c LP.law W s) ∧ Always (lineRule e) s.log) h ⟨⟨∅, hi⟩, ?_⟩ ?_
    · obtain ⟨-, st, -, rfl⟩ := h0; trivial
    · rintro s s' a ⟨⟨W, hW⟩, hl⟩ hg ht
      refine ⟨hW.step (hG _ _ hg) ht, always_step ht hl ?_⟩
      intro e he
      unfold lineRule
      split
      · exact hW.read ht he
      · trivial
  exact this.2

end SD
