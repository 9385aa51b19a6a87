import Verif.Proof.Ring

/-!
# What the window of a bounded storage holds, in every history

`RingCells` adds the contents to `Ring`: also after the writer was moved, the bytes of the
last writes are found at the positions they were written for.
-/

set_option linter.unusedSimpArgs false
set_option linter.unusedVariables false

namespace SD

/-- `slot s q` is what the storage holds in the place that position `q` shares with the
positions that differ from it by a multiple of the size. -/
structure RingCells (S : Storage) where
  ring : Ring S false
  slot : S.σ → Nat → Option Byte
  tell : ∀ {s}, ring.Ok s → ∀ q, slot (S.tell s).2 q = slot s q
  read : ∀ {s n bs s'}, ring.Ok s → S.read s n = .ok (bs, s') →
    (∀ i, i < bs.length → ring.rp s + i < S.wtell s ∧ slot s (ring.rp s + i) = bs[i]?) ∧
    ∀ q, slot s' q = slot s q
  rseek : ∀ {s p s'}, ring.Ok s → S.rseek s p = .ok s' → ∀ q, slot s' q = slot s q
  rseek_fwd : ∀ {s p}, ring.Ok s → ring.rp s ≤ p → ∃ s', S.rseek s p = .ok s'
  write : ∀ {s bs k s'}, ring.Ok s → S.write s bs = .ok (k, s') →
    (∀ i, i < k → slot s' (S.wtell s + i) = bs[i]?) ∧
    ∀ q b, q < S.wtell s → (k = 0 ∨ S.wtell s + k ≤ q + ring.size s) → slot s q = some b → slot s' q = some b
  wseek : ∀ {s p s'}, ring.Ok s → S.wseek s p = .ok s' → ∀ q, slot s' q = slot s q

theorem Bnd.readOp_slots {I : Storage} (L : Lawful I true) {checks : Bool} {s s' : Bnd I} {n : Nat}
    {bs : List Byte} {W : Finset Nat} (hinv : L.Inv s.inner W)
    (h : Bnd.readOp checks s n = .ok (bs, s')) :
    (∀ i, i < bs.length → s.rp + i < s.wp ∧ L.cell s.inner ((s.rp + i) % s.size) = bs[i]?) ∧
    ∀ q, L.cell s'.inner q = L.cell s.inner q := by
  unfold Bnd.readOp at h
  split at h
  · simp at h
  · next hn =>
    split at h
    · simp at h
    · next hw =>
      split at h
      · simp only [Res.ok.injEq, Prod.mk.injEq] at h
        obtain ⟨rfl, rfl⟩ := h
        exact ⟨by simp, fun _ => rfl⟩
      · dsimp only at h
        split at h
        · simp only [Res.ok.injEq, Prod.mk.injEq] at h
          obtain ⟨rfl, rfl⟩ := h
          exact ⟨by simp, fun _ => rfl⟩
        · next hk =>
          split at h
          · next start last hst hla =>
            split at h
            · simp at h
            · simp at h
            · next bs1 i1 hri =>
              simp only [Res.ok.injEq, Prod.mk.injEq] at h
              obtain ⟨rfl, rfl⟩ := h
              have hml : s.rp % s.size ≤ s.rp := Nat.mod_le _ _
              obtain ⟨a1, a2, a3, a4, a5⟩ :=
                Bnd.readInner_ok L hinv (by omega) (by omega) hst hla (by omega) hri
              exact ⟨fun i hi => ⟨by omega, a2 i (by omega)⟩, a5⟩
          · simp at h

theorem Bnd.writeOp_slots {I : Storage} (L : Lawful I true) {checks : Bool} {s s' : Bnd I}
    {bs : List Byte} {k : Nat} {W : Finset Nat} (hinv : L.Inv s.inner W)
    (h : Bnd.writeOp checks s bs = .ok (k, s')) :
    (∀ i, i < k → L.cell s'.inner ((s.wp + i) % s.size) = bs[i]?) ∧
    (∀ q b, q < s.wp → (k = 0 ∨ s.wp + k ≤ q + s.size) → L.cell s.inner (q % s.size) = some b →
      L.cell s'.inner (q % s.size) = some b) ∧ s'.size = s.size := by
  unfold Bnd.writeOp at h
  dsimp only at h
  split at h
  · next hk =>
    simp only [Res.ok.injEq, Prod.mk.injEq] at h
    obtain ⟨rfl, rfl⟩ := h
    exact ⟨by simp, fun q b _ _ hb => hb, rfl⟩
  · next hk =>
    split at h
    · next start last hst hla =>
      split at h
      · simp at h
      · simp at h
      · next i1 hwi =>
        simp only [Res.ok.injEq, Prod.mk.injEq] at h
        obtain ⟨rfl, rfl⟩ := h
        have hlen : (bs.take (min (s.size - (s.wp - s.rp)) bs.length)).length =
            min (s.size - (s.wp - s.rp)) bs.length := by simp
        rw [← hlen] at hla
        obtain ⟨-, -, a3, a4, -, -⟩ :=
          Bnd.writeInner_ok L hinv (by omega) (by omega) hst hla hwi
        rw [hlen] at a3 a4
        refine ⟨?_, ?_, rfl⟩
        · intro i hi
          rw [a3 i hi, List.getElem?_take, if_pos hi]
        · intro q b hq hqs hb
          have hS : 0 < s.size := by omega
          refine a4 _ b (Nat.mod_lt _ hS) ?_ hb
          intro j hj hEq
          exact ring_ne (a := q) (b := s.wp + j) (S := s.size) (by omega) (by omega) hEq.symm
    · simp at h

def bndCells (checks : Bool) {I : Storage} (L : Lawful I true) (T : Total L)
    (hle : ∀ {s n bs s'}, I.read s n = .ok (bs, s') → bs.length ≤ n) :
    RingCells (bndStorage checks I) where
  ring := { bndRing checks L T hle with wseek_safe := by simp }
  slot s q := L.cell s.inner (q % s.size)
  tell := fun _ _ => rfl
  read := by
    intro s n bs s' hok h
    obtain ⟨W, hW⟩ := hok
    have hsz := ((bndRing checks L T hle).read ⟨W, hW⟩ h).2.2.2
    obtain ⟨h1, h2⟩ := Bnd.readOp_slots L hW h
    have hsz : s'.size = s.size := hsz
    exact ⟨h1, fun q => by rw [h2, hsz]⟩
  rseek := by
    intro s p s' hok h q
    have h : Bnd.rseek checks s p = .ok s' := h
    simp only [Bnd.rseek] at h
    split at h <;> try (simp at h; done)
    simp only [Res.ok.injEq] at h; subst h
    rfl
  rseek_fwd := by
    intro s p hok hp
    have hp : s.rp ≤ p := hp
    exact ⟨_, show Bnd.rseek checks s p = _ by
      simp only [Bnd.rseek]
      rw [show s.rp - p = 0 by omega, Bnd.subCnt_zero]⟩
  write := by
    intro s bs k s' hok h
    obtain ⟨W, hW⟩ := hok
    obtain ⟨h1, h2, h3⟩ := Bnd.writeOp_slots L hW h
    refine ⟨?_, ?_⟩
    · intro i hi
      have := h1 i hi
      rw [h3]; exact this
    · intro q b hq hqs hb
      have := h2 q b hq hqs hb
      rw [h3]; exact this
  wseek := by
    intro s p s' hok h q
    have h : Bnd.wseek checks s p = .ok s' := h
    simp only [Bnd.wseek] at h
    split at h <;> try (simp at h; done)
    simp only [Res.ok.injEq] at h; subst h
    rfl

def adpCells (checks : Bool) {F : Storage} (V : Storage) (R : RingCells (bndStorage checks F)) :
    RingCells (adpStorage checks F V) where
  ring := adpRing checks V R.ring
  slot
    | .bounded s, q => R.slot s q
    | _, _ => none
  tell := by
    intro s h
    cases s with
    | bounded s => exact R.tell h
    | fixed s => exact h.elim
    | «variable» s => exact h.elim
  read := by
    intro s n bs s' hi h
    cases s with
    | bounded s =>
      obtain ⟨⟨bs', t⟩, h1, h2⟩ := Res.map_inv h
      simp only [Prod.mk.injEq] at h2; obtain ⟨rfl, rfl⟩ := h2
      exact R.read hi h1
    | fixed s => exact hi.elim
    | «variable» s => exact hi.elim
  rseek := by
    intro s p s' hi h
    cases s with
    | bounded s =>
      obtain ⟨t, h1, rfl⟩ := Res.map_inv h
      exact R.rseek hi h1
    | fixed s => exact hi.elim
    | «variable» s => exact hi.elim
  rseek_fwd := by
    intro s p hi hp
    cases s with
    | bounded s =>
      obtain ⟨r, hr⟩ := R.rseek_fwd hi hp
      exact ⟨.bounded r, congrArg (Res.map Adp.bounded) hr⟩
    | fixed s => exact hi.elim
    | «variable» s => exact hi.elim
  write := by
    intro s bs k s' hi h
    cases s with
    | bounded s =>
      obtain ⟨⟨k', t⟩, h1, h2⟩ := Res.map_inv h
      simp only [Prod.mk.injEq] at h2; obtain ⟨rfl, rfl⟩ := h2
      exact R.write hi h1
    | fixed s => exact hi.elim
    | «variable» s => exact hi.elim
  wseek := by
    intro s p s' hi h
    cases s with
    | bounded s =>
      obtain ⟨t, h1, rfl⟩ := Res.map_inv h
      exact R.wseek hi h1
    | fixed s => exact hi.elim
    | «variable» s => exact hi.elim

/-- What a windowed provider creates: an empty window. -/
theorem windowed_cells {cl : Option Nat} {P : Provider} (h : Windowed cl P) :
    ∃ R : RingCells P.S, ∀ s, P.create cl = .ok s → R.ring.Ok s ∧ R.ring.rp s = 0 ∧ P.S.wtell s = 0 := by
  cases h with
  | bounded _ checks F bufferSize hF =>
    obtain ⟨LF, TF, -⟩ := keeps_lawful hF
    refine ⟨bndCells checks LF.law TF (keeps_read_le hF), ?_⟩
    intro s h
    have h' : Bnd.mk? F bufferSize cl = .ok s := h
    simp only [Bnd.mk?] at h'
    split at h' <;> try (simp at h'; done)
    next i hc =>
    simp only [Res.ok.injEq] at h'; subst h'
    exact ⟨⟨_, (LF.create_ok hc).1⟩, rfl, rfl⟩
  | adaptive checks F V bufferSize hF hV =>
    obtain ⟨LF, TF, -⟩ := keeps_lawful hF
    refine ⟨adpCells checks V.S (bndCells checks LF.law TF (keeps_read_le hF)), ?_⟩
    intro s h
    simp only [Adp.mk?] at h
    split at h <;> try (simp at h; done)
    next t ht =>
    simp only [Res.ok.injEq] at h; subst h
    simp only [Bnd.mk?] at ht
    split at ht <;> try (simp at ht; done)
    next i hc =>
    simp only [Res.ok.injEq] at ht; subst ht
    exact ⟨⟨_, (LF.create_ok hc).1⟩, rfl, rfl⟩

end SD
