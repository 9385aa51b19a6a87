import Verif.Proof.Sys.Forward

/-! # From state invariants to the log of reads -/

set_option linter.unusedSimpArgs false
set_option linter.unusedVariables false

namespace SD

variable {S : Storage}

/-- A step adds at most one event. -/
theorem log_step {c : Cfg} {s s' : Sys S} {a : Act} (ht : Tr c s a s') :
    s'.log = s.log ∨ ∃ e, s'.log = e :: s.log := by
  cases ht <;> first
    | exact Or.inl rfl
    | exact Or.inr ⟨_, rfl⟩

theorem always_step {c : Cfg} {s s' : Sys S} {a : Act} {P : Ev → List Ev → Prop}
    (ht : Tr c s a s') (h : Always P s.log) (hn : ∀ e, s'.log = e :: s.log → P e s.log) :
    Always P s'.log := by
  rcases log_step ht with hl | ⟨e, hl⟩
  · rw [hl]; exact h
  · rw [hl]; exact ⟨hn e hl, h⟩

theorem Always.mem {P : Ev → List Ev → Prop} {log : List Ev} (h : Always P log) {e : Ev}
    (he : e ∈ log) : ∃ l1 l2, log = l1 ++ e :: l2 ∧ P e l2 := by
  induction log with
  | nil => simp at he
  | cons x l ih =>
    rcases List.mem_cons.mp he with rfl | he
    · exact ⟨[], l, rfl, h.1⟩
    · obtain ⟨l1, l2, h1, h2⟩ := ih h.2 he
      exact ⟨x :: l1, l2, by rw [h1]; rfl, h2⟩

theorem always_of_split {P : Ev → List Ev → Prop} {log : List Ev}
    (h : ∀ l1 e l2, log = l1 ++ e :: l2 → P e l2) : Always P log := by
  induction log with
  | nil => trivial
  | cons x l ih =>
    refine ⟨h [] x l rfl, ih ?_⟩
    intro l1 e l2 hl
    exact h (x :: l1) e l2 (by rw [hl]; rfl)

theorem Always.split {P : Ev → List Ev → Prop} {log : List Ev} (h : Always P log)
    {l1 l2 : List Ev} {e : Ev} (hl : log = l1 ++ e :: l2) : P e l2 := by
  subst hl
  induction l1 with
  | nil => exact h.1
  | cons x l ih => exact ih h.2

/-- The step that returns from `read`. -/
theorem tr_readRet {c : Cfg} {s s' : Sys S} {a : Act} {pos len : Nat} {fast : Bool}
    {bs : List Byte} (ht : Tr c s a s')
    (hl : s'.log = .readRet pos len fast (.ok bs) :: s.log) :
    a = .rdr ∧ s.rpc = .rRead len fast ∧ pos = (S.tell s.st).1 ∧
      S.read s.st len = .ok (bs, s'.st) ∧ s'.rpc = .rSwap := by
  cases ht
  case rRead n fast' bs' st' heq hr =>
    simp only [List.cons.injEq, Ev.readRet.injEq, Res.ok.injEq, and_true] at hl
    obtain ⟨rfl, rfl, rfl, rfl⟩ := hl
    exact ⟨rfl, heq, rfl, hr, rfl⟩
  all_goals first
    | (simp at hl; done)

/-- What a read of a storage that keeps everything returns. -/
theorem read_exact {c : Cfg} {L : Lawful S true} {W : Finset Nat} {st st' : S.σ} {n : Nat}
    {bs : List Byte} (hi : L.Inv st W) (hcl : L.Clean st) (hr : S.read st n = .ok (bs, st'))
    (hN : ∀ N, c.contentLength = some N → ∀ q, L.cell st q ≠ none → q < N)
    (hg : ∀ q, L.rpos st ≤ q → q < c.normalize (L.rpos st + n) → L.cell st q ≠ none →
      GoodAt c L W st q) :
    bs = slice c.remote (L.rpos st) bs.length := by
  obtain ⟨r1, r2, -⟩ := L.read_ok hi (L.clean_fresh hi hcl) hr
  apply slice_ext
  intro i hi'
  have h2 := r2 i hi'
  have hne : L.cell st (L.rpos st + i) ≠ none := by
    rw [h2]; simp [List.getElem?_eq_none_iff]; omega
  have hlt : L.rpos st + i < c.normalize (L.rpos st + n) := by
    unfold Cfg.normalize
    split
    · next N hcN =>
      have := hN N hcN _ hne
      omega
    · omega
  rw [← h2]
  exact (hg _ (by omega) hlt hne).2

/-- The length of a read whose range is stored. -/
theorem read_exact_len {c : Cfg} {L : Lawful S true} {W : Finset Nat} {st st' : S.σ} {n : Nat}
    {bs : List Byte} (hi : L.Inv st W) (hcl : L.Clean st) (hr : S.read st n = .ok (bs, st'))
    (hN : ∀ N, c.contentLength = some N → ∀ q, L.cell st q ≠ none → q < N)
    (hg : ∀ q, L.rpos st ≤ q → q < c.normalize (L.rpos st + n) → GoodAt c L W st q) :
    bs.length = c.normalize (L.rpos st + n) - L.rpos st ∨ L.Cut n bs.length := by
  obtain ⟨r1, r2, -⟩ := L.read_ok hi (L.clean_fresh hi hcl) hr
  have hle := normalize_le_self c (L.rpos st + n)
  have h1 := L.read_len (m := c.normalize (L.rpos st + n) - L.rpos st) hi (L.exact_full rfl st) hcl hr
    (by omega) (fun i hi' => (hg (L.rpos st + i) (by omega) (by omega)).1)
  rcases h1 with h1 | h1
  case inr => exact Or.inr h1
  left
  by_contra hne
  have hlt : c.normalize (L.rpos st + n) - L.rpos st < bs.length := by omega
  have h2 := r2 (bs.length - 1) (by omega)
  have hcell : L.cell st (L.rpos st + (bs.length - 1)) ≠ none := by
    rw [h2]; simp [List.getElem?_eq_none_iff]; omega
  unfold Cfg.normalize at hlt
  split at hlt
  · next N hcN =>
    have := hN N hcN _ hcell
    omega
  · omega

theorem full_bnd {c : Cfg} {L : Lawful S true} {W : Finset Nat} {s : Sys S} (h : Full c L W s) :
    ∀ N, c.contentLength = some N → ∀ q, L.cell s.st q ≠ none → q < N :=
  fun N hN => (h.src.bnd N hN).2.2.2

/-- A read that did not wait is exact, and complete unless the storage returns less. -/
theorem Full.fast_read {c : Cfg} {L : Lawful S true} {W : Finset Nat} {s s' : Sys S} {a : Act}
    {pos len : Nat} {bs : List Byte} (h : Full c L W s) (ht : Tr c s a s')
    (hl : s'.log = .readRet pos len true (.ok bs) :: s.log) :
    bs = slice c.remote pos bs.length ∧
      (bs.length = c.normalize (pos + len) - pos ∨ L.Cut len bs.length) := by
  obtain ⟨-, h2, h3, h4, -⟩ := tr_readRet ht hl
  obtain ⟨t1, -⟩ := L.tell_ok h.src.inv
  rw [t1] at h3; subst h3
  have hcl := h.rdr.clean (by simp [h2, RdrPc.inRead])
  obtain ⟨f1, f2⟩ := h.rdr.fast len h2
  have hg : ∀ q, L.rpos s.st ≤ q → q < c.normalize (L.rpos s.st + len) → GoodAt c L W s.st q :=
    fun q a1 a2 => h.src.good q (f2 q a1 a2)
  have hlen := read_exact_len h.src.inv hcl h4 (full_bnd h) hg
  exact ⟨read_exact h.src.inv hcl h4 (full_bnd h) (fun q a1 a2 _ => hg q a1 a2), hlen⟩

/-- Every read is exact, in histories where the consumer does not go back. -/
theorem FwdAll.read {E : Prop} {c : Cfg} {L : Lawful S true} {W : Finset Nat} {s s' : Sys S}
    {a : Act} {pos len : Nat} {fast : Bool} {bs : List Byte} (h : FwdAll E c L W s)
    (ht : Tr c s a s') (hl : s'.log = .readRet pos len fast (.ok bs) :: s.log) :
    bs = slice c.remote pos bs.length ∧
      (bs.length < len → (∃ N, c.contentLength = some N ∧ N ≤ pos + bs.length) ∨ Ev.eof ∈ s.log ∨
        L.Cut len bs.length) := by
  obtain ⟨-, h2, h3, h4, -⟩ := tr_readRet ht hl
  obtain ⟨t1, -⟩ := L.tell_ok h.full.src.inv
  have hcl := h.full.rdr.clean (by simp [h2, RdrPc.inRead])
  have hshort : bs.length = c.normalize (pos + len) - pos → bs.length < len →
      ∃ N, c.contentLength = some N ∧ N ≤ pos + bs.length := by
    intro hlen hlt
    unfold Cfg.normalize at hlen
    split at hlen
    · next N hN => exact ⟨N, hN, by omega⟩
    · omega
  cases fast with
  | true =>
    obtain ⟨h5, h6⟩ := h.full.fast_read ht hl
    exact ⟨h5, fun hlt => h6.elim (fun hlen => Or.inl (hshort hlen hlt)) (fun hc => Or.inr (Or.inr hc))⟩
  | false =>
    rw [t1] at h3; subst h3
    refine ⟨read_exact h.full.src.inv hcl h4 (full_bnd h.full) (h.fwd.slow len h2), fun hlt => ?_⟩
    rcases h.fwd.len len h2 with he | hg
    · exact Or.inr (Or.inl he)
    · exact (read_exact_len h.full.src.inv hcl h4 (full_bnd h.full) hg).elim
        (fun hlen => Or.inl (hshort hlen hlt)) (fun hc => Or.inr (Or.inr hc))

end SD
