import Verif.Proof.Positional
import Verif.Proof.Providers

/-!
# The window of a bounded storage, in every history

Unlike `Lawful`, this also describes a windowed storage whose writer was moved; it
says how much a write accepts, not what the storage holds.
-/

set_option linter.unusedSimpArgs false
set_option linter.unusedVariables false

namespace SD

/-- `seekable`: moving the writer never panics. -/
structure Ring (S : Storage) (seekable : Bool) where
  Ok : S.σ → Prop
  size : S.σ → Nat
  rp : S.σ → Nat
  tell : ∀ {s}, Ok s → (S.tell s).1 = rp s ∧ Ok (S.tell s).2 ∧ rp (S.tell s).2 = rp s ∧
    S.wtell (S.tell s).2 = S.wtell s ∧ size (S.tell s).2 = size s
  read : ∀ {s n bs s'}, Ok s → S.read s n = .ok (bs, s') →
    Ok s' ∧ rp s' = rp s + bs.length ∧ S.wtell s' = S.wtell s ∧ size s' = size s
  rseek : ∀ {s p s'}, Ok s → S.rseek s p = .ok s' →
    Ok s' ∧ rp s' = p ∧ S.wtell s' = S.wtell s ∧ size s' = size s
  write : ∀ {s bs k s'}, Ok s → S.write s bs = .ok (k, s') →
    Ok s' ∧ k = min (size s - (S.wtell s - rp s)) bs.length ∧ rp s' = rp s ∧
    S.wtell s' = S.wtell s + k ∧ size s' = size s
  wseek : ∀ {s p s'}, Ok s → S.wseek s p = .ok s' →
    Ok s' ∧ rp s' = rp s ∧ S.wtell s' = p ∧ size s' = size s
  write_safe : ∀ {s bs}, Ok s → S.write s bs ≠ .panic
  wseek_here : ∀ {s}, Ok s → S.wseek s (S.wtell s) ≠ .panic
  wseek_safe : seekable = true → ∀ {s p}, Ok s → S.wseek s p ≠ .panic

theorem ne_panic {α : Type} {x : Res α} (h : ∃ r, x = .ok r) : x ≠ .panic := by
  obtain ⟨r, h⟩ := h
  rw [h]; exact fun h => by cases h

theorem map_ne_panic {α β : Type} {f : α → β} {x : Res α} (h : x ≠ .panic) : Res.map f x ≠ .panic := by
  cases x with
  | ok a => exact fun h => by cases h
  | err k => exact fun h => by cases h
  | panic => exact absurd rfl h

namespace Bnd

theorem readInner_inv {I : Storage} {L : Lawful I true} {checks : Bool} {i i' : I.σ} {W : Finset Nat}
    {start endd size k : Nat} {bs : List Byte} (hi : L.Inv i W)
    (h : readInner checks I i start endd size k = .ok (bs, i')) : L.Inv i' W := by
  unfold readInner at h
  split at h <;> try (simp at h; done)
  next i1 h1 =>
  obtain ⟨a1, a2, -⟩ := L.rseek_ok hi h1
  split at h
  · exact (readExact_ok L a1 (L.clean_fresh a1 a2) h).2.2.1
  · split at h <;> try (simp at h; done)
    split at h <;> try (simp at h; done)
    split at h <;> try (simp at h; done)
    next i2 h2 =>
    have b1 := (readExact_ok L a1 (L.clean_fresh a1 a2) h2).2.2.1
    split at h <;> try (simp at h; done)
    next i3 h3 =>
    obtain ⟨c1, c2, -⟩ := L.rseek_ok b1 h3
    split at h <;> try (simp at h; done)
    next i4 h4 =>
    have d1 := (readExact_ok L c1 (L.clean_fresh c1 c2) h4).2.2.1
    simp only [Res.ok.injEq, Prod.mk.injEq] at h
    rw [← h.2]; exact d1

theorem writeInner_inv {I : Storage} {L : Lawful I true} {checks : Bool} {i i' : I.σ} {W : Finset Nat}
    {start endd size : Nat} {bs : List Byte} (hi : L.Inv i W)
    (h : writeInner checks I i start endd size bs = .ok i') : ∃ W', L.Inv i' W' := by
  unfold writeInner at h
  split at h <;> try (simp at h; done)
  next i1 h1 =>
  have a1 := (L.wseek_ok hi (Or.inl rfl) h1).1
  split at h
  · exact ⟨_, (writeAll_ok L a1 h).1⟩
  · split at h <;> try (simp at h; done)
    split at h <;> try (simp at h; done)
    split at h <;> try (simp at h; done)
    next i2 h2 =>
    have b1 := (writeAll_ok L a1 h2).1
    split at h <;> try (simp at h; done)
    next i3 h3 =>
    have c1 := (L.wseek_ok b1 (Or.inl rfl) h3).1
    exact ⟨_, (writeAll_ok L c1 h).1⟩

end Bnd

def bndRing (checks : Bool) {I : Storage} (L : Lawful I true) (T : Total L)
    (hle : ∀ {s n bs s'}, I.read s n = .ok (bs, s') → bs.length ≤ n) :
    Ring (bndStorage checks I) (!checks) where
  Ok s := ∃ W, L.Inv s.inner W
  size s := s.size
  rp s := s.rp
  tell := fun h => ⟨rfl, h, rfl, rfl, rfl⟩
  read := by
    intro s n bs s' hok h
    have h : Bnd.readOp checks s n = .ok (bs, s') := h
    simp only [Bnd.readOp] at h
    repeat' split at h
    all_goals try (simp at h; done)
    all_goals simp only [Res.ok.injEq, Prod.mk.injEq] at h
    all_goals obtain ⟨rfl, rfl⟩ := h
    · exact ⟨hok, rfl, rfl, rfl⟩
    · exact ⟨hok, rfl, rfl, rfl⟩
    · next hr =>
      obtain ⟨W, hW⟩ := hok
      exact ⟨⟨W, Bnd.readInner_inv hW hr⟩, by rw [readInner_length hle hr], rfl, rfl⟩
  rseek := by
    intro s p s' hok h
    have h : Bnd.rseek checks s p = .ok s' := h
    simp only [Bnd.rseek] at h
    split at h <;> try (simp at h; done)
    simp only [Res.ok.injEq] at h; subst h
    exact ⟨hok, rfl, rfl, rfl⟩
  write := by
    intro s bs k s' hok h
    have h : Bnd.writeOp checks s bs = .ok (k, s') := h
    simp only [Bnd.writeOp] at h
    repeat' split at h
    all_goals try (simp at h; done)
    all_goals simp only [Res.ok.injEq, Prod.mk.injEq] at h
    all_goals obtain ⟨rfl, rfl⟩ := h
    · next hk => exact ⟨hok, hk.symm, rfl, rfl, rfl⟩
    · next hw =>
      obtain ⟨W, hW⟩ := hok
      exact ⟨Bnd.writeInner_inv hW hw, rfl, rfl, rfl, rfl⟩
  wseek := by
    intro s p s' hok h
    have h : Bnd.wseek checks s p = .ok s' := h
    simp only [Bnd.wseek] at h
    split at h <;> try (simp at h; done)
    simp only [Res.ok.injEq] at h; subst h
    exact ⟨hok, rfl, rfl, rfl⟩
  write_safe := by
    intro s bs hok
    obtain ⟨W, hW⟩ := hok
    exact ne_panic (Bnd.writeOp_total' T hW)
  wseek_here := by
    intro s _
    exact ne_panic ⟨{ s with written := s.written, wp := s.wp },
      show Bnd.wseek checks s s.wp = _ by simp [Bnd.wseek, Bnd.subCnt_zero]⟩
  wseek_safe := by
    intro hc s p hok
    apply ne_panic
    simp only [Bool.not_eq_true'] at hc
    subst hc
    have : ∀ a b, ∃ r, Bnd.subCnt false a b = .ok r := by
      intro a b; exact ⟨_, by unfold Bnd.subCnt; rw [if_neg (by simp)]⟩
    obtain ⟨r, hr⟩ := this s.written (s.wp - p)
    exact ⟨{ s with written := r, wp := p }, by simp [Bnd.wseek, hr]⟩

def adpRing (checks : Bool) {F : Storage} (V : Storage) {b : Bool} (R : Ring (bndStorage checks F) b) :
    Ring (adpStorage checks F V) b where
  Ok
    | .bounded s => R.Ok s
    | _ => False
  size
    | .bounded s => R.size s
    | _ => 0
  rp
    | .bounded s => R.rp s
    | _ => 0
  tell := by
    intro s h
    cases s with
    | bounded s => exact R.tell h
    | fixed s => exact h.elim
    | «variable» s => exact h.elim
  read := by
    intro s n bs s' hi h
    cases s with
    | bounded s =>
      obtain ⟨⟨bs', t⟩, h1, h2⟩ := Res.map_inv h
      simp only [Prod.mk.injEq] at h2; obtain ⟨rfl, rfl⟩ := h2
      exact R.read hi h1
    | fixed s => exact hi.elim
    | «variable» s => exact hi.elim
  rseek := by
    intro s p s' hi h
    cases s with
    | bounded s =>
      obtain ⟨t, h1, rfl⟩ := Res.map_inv h
      exact R.rseek hi h1
    | fixed s => exact hi.elim
    | «variable» s => exact hi.elim
  write := by
    intro s bs k s' hi h
    cases s with
    | bounded s =>
      obtain ⟨⟨k', t⟩, h1, h2⟩ := Res.map_inv h
      simp only [Prod.mk.injEq] at h2; obtain ⟨rfl, rfl⟩ := h2
      exact R.write hi h1
    | fixed s => exact hi.elim
    | «variable» s => exact hi.elim
  wseek := by
    intro s p s' hi h
    cases s with
    | bounded s =>
      obtain ⟨t, h1, rfl⟩ := Res.map_inv h
      exact R.wseek hi h1
    | fixed s => exact hi.elim
    | «variable» s => exact hi.elim
  write_safe := by
    intro s bs hi
    cases s with
    | bounded s => exact map_ne_panic (R.write_safe (bs := bs) hi)
    | fixed s => exact hi.elim
    | «variable» s => exact hi.elim
  wseek_here := by
    intro s hi
    cases s with
    | bounded s =>
      exact map_ne_panic (R.wseek_here hi)
    | fixed s => exact hi.elim
    | «variable» s => exact hi.elim
  wseek_safe := by
    intro hc s p hi
    cases s with
    | bounded s => exact map_ne_panic (R.wseek_safe hc (p := p) hi)
    | fixed s => exact hi.elim
    | «variable» s => exact hi.elim

/-- What a windowed provider creates: an empty ring of at most `bufferSize` bytes,
smaller only if the content is. -/
structure RingProvider (P : Provider) (cl : Option Nat) (seekable : Bool) where
  ring : Ring P.S seekable
  bufferSize : Nat
  cap : ∀ n, P.maxCapacity = some n → n = bufferSize
  create : ∀ {s}, P.create cl = .ok s → ring.Ok s ∧ ring.rp s = 0 ∧ P.S.wtell s = 0 ∧
    ring.size s = Bnd.sizeFor bufferSize cl

def bndRingProvider (checks : Bool) {F : Provider} (bufferSize : Nat) (cl : Option Nat)
    (LF : LawfulProvider F true (some (Bnd.sizeFor bufferSize cl))) (TF : Total LF.law)
    (hle : ∀ {s n bs s'}, F.S.read s n = .ok (bs, s') → bs.length ≤ n) :
    RingProvider (bndProvider checks F bufferSize) cl (!checks) where
  ring := bndRing checks LF.law TF hle
  bufferSize := bufferSize
  cap := fun n h => by simpa using h.symm
  create := by
    intro s h
    have h' : Bnd.mk? F bufferSize cl = .ok s := h
    simp only [Bnd.mk?] at h'
    split at h' <;> try (simp at h'; done)
    next i hc =>
    simp only [Res.ok.injEq] at h'; subst h'
    exact ⟨⟨_, (LF.create_ok hc).1⟩, rfl, rfl, rfl⟩

def RingProvider.weak {P : Provider} {cl : Option Nat} {b : Bool} (R : RingProvider P cl b) :
    RingProvider P cl false where
  ring := { R.ring with wseek_safe := by simp }
  bufferSize := R.bufferSize
  cap := R.cap
  create := R.create

theorem windowed_ring {cl : Option Nat} {P : Provider} (h : Windowed cl P) :
    Nonempty (RingProvider P cl false) := by
  cases h with
  | bounded _ checks F bufferSize hF =>
    obtain ⟨LF, TF, -⟩ := keeps_lawful hF
    exact ⟨(bndRingProvider checks bufferSize cl LF TF (keeps_read_le hF)).weak⟩
  | adaptive checks F V bufferSize hF hV =>
    obtain ⟨LF, TF, -⟩ := keeps_lawful hF
    let R := adpRing checks V.S (bndRing checks LF.law TF (keeps_read_le hF))
    refine ⟨⟨{ R with wseek_safe := by simp }, bufferSize, fun n h => by simp at h, ?_⟩⟩
    intro s h
    simp only [Adp.mk?] at h
    split at h <;> try (simp at h; done)
    next t ht =>
    simp only [Res.ok.injEq] at h; subst h
    simp only [Bnd.mk?] at ht
    split at ht <;> try (simp at ht; done)
    next i hc =>
    simp only [Res.ok.injEq] at ht; subst ht
    exact ⟨⟨_, (LF.create_ok hc).1⟩, rfl, rfl, rfl⟩

end SD
