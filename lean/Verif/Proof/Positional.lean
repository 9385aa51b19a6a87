import Verif.Proof.ShortOps
import Verif.Spec.Providers

/-!
# Reader and writer positions of every storage, in every history

`Lawful` describes what a windowed storage holds only while its writer is not
moved.  The positions follow simple rules in every history.
-/

set_option linter.unusedSimpArgs false
set_option linter.unusedVariables false

namespace SD

structure Positional (S : Storage) where
  Ok : S.σ → Prop
  rp : S.σ → Nat
  read_le : ∀ {s n bs s'}, S.read s n = .ok (bs, s') → bs.length ≤ n
  tell : ∀ {s}, Ok s → (S.tell s).1 = rp s ∧ Ok (S.tell s).2 ∧ rp (S.tell s).2 = rp s ∧
    S.wtell (S.tell s).2 = S.wtell s
  read : ∀ {s n bs s'}, Ok s → S.read s n = .ok (bs, s') →
    Ok s' ∧ rp s' = rp s + bs.length ∧ S.wtell s' = S.wtell s
  rseek : ∀ {s p s'}, Ok s → S.rseek s p = .ok s' → Ok s' ∧ rp s' = p ∧ S.wtell s' = S.wtell s
  write : ∀ {s bs k s'}, Ok s → S.write s bs = .ok (k, s') →
    Ok s' ∧ k ≤ bs.length ∧ rp s' = rp s ∧ S.wtell s' = S.wtell s + k
  wseek : ∀ {s p s'}, Ok s → S.wseek s p = .ok s' → Ok s' ∧ rp s' = rp s ∧ S.wtell s' = p

structure PositionalProvider (P : Provider) (cl : Option Nat) where
  pos : Positional P.S
  create : ∀ {s}, P.create cl = .ok s → pos.Ok s ∧ pos.rp s = 0 ∧ P.S.wtell s = 0

def memPositional : Positional memStorage where
  Ok _ := True
  rp s := s.rp
  read_le := by
    intro s n bs s' h
    have h : Mem.read s n = .ok (bs, s') := h
    simp only [Mem.read] at h
    split at h <;> simp at h
    obtain ⟨rfl, -⟩ := h
    simp; omega
  tell := by intro s _; exact ⟨rfl, trivial, rfl, rfl⟩
  read := by
    intro s n bs s' _ h
    have h : Mem.read s n = .ok (bs, s') := h
    simp only [Mem.read] at h
    split at h
    · simp at h
    · next hlt =>
      simp only [Res.ok.injEq, Prod.mk.injEq] at h
      obtain ⟨rfl, rfl⟩ := h
      refine ⟨trivial, ?_, rfl⟩
      simp; omega
  rseek := by
    intro s p s' _ h
    simp only [Res.ok.injEq] at h; subst h
    exact ⟨trivial, rfl, rfl⟩
  write := by
    intro s bs k s' _ h
    have h : Mem.write s bs = .ok (k, s') := h
    simp only [Mem.write, Res.ok.injEq, Prod.mk.injEq] at h
    obtain ⟨rfl, rfl⟩ := h
    exact ⟨trivial, Nat.le_refl _, rfl, rfl⟩
  wseek := by
    intro s p s' _ h
    simp only [Res.ok.injEq] at h; subst h
    exact ⟨trivial, rfl, rfl⟩

def tmpPositional : Positional tmpStorage where
  Ok s := s.rbuf.length ≤ s.fp
  rp s := s.fp - s.rbuf.length
  read_le := by
    intro s n bs s' h
    have h : Tmp.read s n = .ok (bs, s') := h
    simp only [Tmp.read] at h
    split at h
    · split at h <;> (simp only [Res.ok.injEq, Prod.mk.injEq] at h; obtain ⟨rfl, -⟩ := h; simp; omega)
    · simp only [Res.ok.injEq, Prod.mk.injEq] at h; obtain ⟨rfl, -⟩ := h; simp; omega
  tell := by
    intro s h
    have h : s.rbuf.length ≤ s.fp := h
    simp [Tmp.tell]
  read := by
    intro s n bs s' hi h
    have hi : s.rbuf.length ≤ s.fp := hi
    have h : Tmp.read s n = .ok (bs, s') := h
    simp only [Tmp.read] at h
    split at h
    · next he =>
      split at h
      · simp only [Res.ok.injEq, Prod.mk.injEq] at h; obtain ⟨rfl, rfl⟩ := h
        simp [he]
      · simp only [Res.ok.injEq, Prod.mk.injEq] at h; obtain ⟨rfl, rfl⟩ := h
        simp [he]; omega
    · simp only [Res.ok.injEq, Prod.mk.injEq] at h; obtain ⟨rfl, rfl⟩ := h
      simp; omega
  rseek := by
    intro s p s' _ h
    have h : Tmp.rseek s p = .ok s' := h
    simp only [Tmp.rseek, Res.ok.injEq] at h; subst h
    simp
  write := by
    intro s bs k s' hi h
    have h : Tmp.write s bs = .ok (k, s') := h
    simp only [Tmp.write] at h
    split at h
    · simp only [Res.ok.injEq, Prod.mk.injEq] at h; obtain ⟨rfl, rfl⟩ := h
      exact ⟨hi, by simp, rfl, rfl⟩
    · simp only [Res.ok.injEq, Prod.mk.injEq] at h; obtain ⟨rfl, rfl⟩ := h
      exact ⟨hi, Nat.le_refl _, rfl, rfl⟩
  wseek := by
    intro s p s' hi h
    simp only [Res.ok.injEq] at h; subst h
    exact ⟨hi, rfl, rfl⟩

theorem readExactF_length {S : Storage}
    (hle : ∀ {s n bs s'}, S.read s n = .ok (bs, s') → bs.length ≤ n) (fuel : Nat) :
    ∀ {s : S.σ} {n : Nat} {bs : List Byte} {s' : S.σ},
      readExactF S fuel s n = .ok (bs, s') → bs.length = n := by
  induction fuel with
  | zero =>
    intro s n bs s' h
    cases n with
    | zero => simp [readExactF] at h; simp [← h.1]
    | succ n => simp [readExactF] at h
  | succ fuel ih =>
    intro s n bs s' h
    cases n with
    | zero => simp [readExactF] at h; simp [← h.1]
    | succ n =>
      simp only [readExactF] at h
      split at h <;> try (simp at h; done)
      next bs1 s1 h1 =>
      split at h <;> try (simp at h; done)
      split at h <;> try (simp at h; done)
      next rest s2 h2 =>
      simp only [Res.ok.injEq, Prod.mk.injEq] at h
      obtain ⟨rfl, -⟩ := h
      have := ih h2
      have := hle h1
      simp; omega

theorem readInner_length {I : Storage}
    (hle : ∀ {s n bs s'}, I.read s n = .ok (bs, s') → bs.length ≤ n) {checks : Bool} {i i' : I.σ}
    {start endd size k : Nat} {bs : List Byte}
    (h : Bnd.readInner checks I i start endd size k = .ok (bs, i')) : bs.length = k := by
  simp only [Bnd.readInner] at h
  split at h <;> try (simp at h; done)
  split at h
  · exact readExactF_length hle _ h
  · split at h <;> try (simp at h; done)
    split at h <;> try (simp at h; done)
    split at h <;> try (simp at h; done)
    next h1 =>
    split at h <;> try (simp at h; done)
    split at h <;> try (simp at h; done)
    next h2 =>
    simp only [Res.ok.injEq, Prod.mk.injEq] at h
    obtain ⟨rfl, -⟩ := h
    have := readExactF_length hle _ h1
    have := readExactF_length hle _ h2
    simp; omega

def bndPositional (checks : Bool) {I : Storage}
    (hle : ∀ {s n bs s'}, I.read s n = .ok (bs, s') → bs.length ≤ n) :
    Positional (bndStorage checks I) where
  Ok _ := True
  rp s := s.rp
  read_le := by
    intro s n bs s' h
    have h : Bnd.readOp checks s n = .ok (bs, s') := h
    simp only [Bnd.readOp] at h
    repeat' split at h
    all_goals try (simp at h; done)
    all_goals simp only [Res.ok.injEq, Prod.mk.injEq] at h
    all_goals obtain ⟨rfl, -⟩ := h
    · simp
    · simp
    · next hr => have := readInner_length hle hr; omega
  tell := by intro s _; exact ⟨rfl, trivial, rfl, rfl⟩
  read := by
    intro s n bs s' _ h
    have h : Bnd.readOp checks s n = .ok (bs, s') := h
    simp only [Bnd.readOp] at h
    repeat' split at h
    all_goals try (simp at h; done)
    all_goals simp only [Res.ok.injEq, Prod.mk.injEq] at h
    all_goals obtain ⟨rfl, rfl⟩ := h
    · exact ⟨trivial, rfl, rfl⟩
    · exact ⟨trivial, rfl, rfl⟩
    · next hr => exact ⟨trivial, by rw [readInner_length hle hr], rfl⟩
  rseek := by
    intro s p s' _ h
    have h : Bnd.rseek checks s p = .ok s' := h
    simp only [Bnd.rseek] at h
    split at h <;> try (simp at h; done)
    simp only [Res.ok.injEq] at h; subst h
    exact ⟨trivial, rfl, rfl⟩
  write := by
    intro s bs k s' _ h
    have h : Bnd.writeOp checks s bs = .ok (k, s') := h
    simp only [Bnd.writeOp] at h
    repeat' split at h
    all_goals try (simp at h; done)
    all_goals simp only [Res.ok.injEq, Prod.mk.injEq] at h
    all_goals obtain ⟨rfl, rfl⟩ := h
    · exact ⟨trivial, by simp, rfl, rfl⟩
    · exact ⟨trivial, by omega, rfl, rfl⟩
  wseek := by
    intro s p s' _ h
    have h : Bnd.wseek checks s p = .ok s' := h
    simp only [Bnd.wseek] at h
    split at h <;> try (simp at h; done)
    simp only [Res.ok.injEq] at h; subst h
    exact ⟨trivial, rfl, rfl⟩

theorem Res.map_inv {α β : Type} {f : α → β} {x : Res α} {y : β} (h : x.map f = .ok y) :
    ∃ a, x = .ok a ∧ f a = y := by
  cases x with
  | ok a => exact ⟨a, rfl, by simpa [Res.map] using h⟩
  | err k => simp [Res.map] at h
  | panic => simp [Res.map] at h

def adpPositional (checks : Bool) {F V : Storage} (PF : Positional F) (PV : Positional V) :
    Positional (adpStorage checks F V) where
  Ok
    | .bounded _ => True
    | .fixed s => PF.Ok s
    | .variable s => PV.Ok s
  rp
    | .bounded s => s.rp
    | .fixed s => PF.rp s
    | .variable s => PV.rp s
  read_le := by
    intro s n bs s' h
    cases s with
    | bounded s =>
      obtain ⟨⟨bs', t⟩, h1, h2⟩ := Res.map_inv h
      simp only [Prod.mk.injEq] at h2; obtain ⟨rfl, rfl⟩ := h2
      exact (bndPositional checks PF.read_le).read_le h1
    | fixed s =>
      obtain ⟨⟨bs', t⟩, h1, h2⟩ := Res.map_inv h
      simp only [Prod.mk.injEq] at h2; obtain ⟨rfl, rfl⟩ := h2
      exact PF.read_le h1
    | «variable» s =>
      obtain ⟨⟨bs', t⟩, h1, h2⟩ := Res.map_inv h
      simp only [Prod.mk.injEq] at h2; obtain ⟨rfl, rfl⟩ := h2
      exact PV.read_le h1
  tell := by
    intro s h
    cases s with
    | bounded s => exact ⟨rfl, trivial, rfl, rfl⟩
    | fixed s => exact PF.tell h
    | «variable» s => exact PV.tell h
  read := by
    intro s n bs s' hi h
    cases s with
    | bounded s =>
      obtain ⟨⟨bs', t⟩, h1, h2⟩ := Res.map_inv h
      simp only [Prod.mk.injEq] at h2; obtain ⟨rfl, rfl⟩ := h2
      exact (bndPositional checks PF.read_le).read trivial h1
    | fixed s =>
      obtain ⟨⟨bs', t⟩, h1, h2⟩ := Res.map_inv h
      simp only [Prod.mk.injEq] at h2; obtain ⟨rfl, rfl⟩ := h2
      exact PF.read hi h1
    | «variable» s =>
      obtain ⟨⟨bs', t⟩, h1, h2⟩ := Res.map_inv h
      simp only [Prod.mk.injEq] at h2; obtain ⟨rfl, rfl⟩ := h2
      exact PV.read hi h1
  rseek := by
    intro s p s' hi h
    cases s with
    | bounded s =>
      obtain ⟨t, h1, rfl⟩ := Res.map_inv h
      exact (bndPositional checks PF.read_le).rseek trivial h1
    | fixed s =>
      obtain ⟨t, h1, rfl⟩ := Res.map_inv h
      exact PF.rseek hi h1
    | «variable» s =>
      obtain ⟨t, h1, rfl⟩ := Res.map_inv h
      exact PV.rseek hi h1
  write := by
    intro s bs k s' hi h
    cases s with
    | bounded s =>
      obtain ⟨⟨k', t⟩, h1, h2⟩ := Res.map_inv h
      simp only [Prod.mk.injEq] at h2; obtain ⟨rfl, rfl⟩ := h2
      exact (bndPositional checks PF.read_le).write trivial h1
    | fixed s =>
      obtain ⟨⟨k', t⟩, h1, h2⟩ := Res.map_inv h
      simp only [Prod.mk.injEq] at h2; obtain ⟨rfl, rfl⟩ := h2
      exact PF.write hi h1
    | «variable» s =>
      obtain ⟨⟨k', t⟩, h1, h2⟩ := Res.map_inv h
      simp only [Prod.mk.injEq] at h2; obtain ⟨rfl, rfl⟩ := h2
      exact PV.write hi h1
  wseek := by
    intro s p s' hi h
    cases s with
    | bounded s =>
      obtain ⟨t, h1, rfl⟩ := Res.map_inv h
      exact (bndPositional checks PF.read_le).wseek trivial h1
    | fixed s =>
      obtain ⟨t, h1, rfl⟩ := Res.map_inv h
      exact PF.wseek hi h1
    | «variable» s =>
      obtain ⟨t, h1, rfl⟩ := Res.map_inv h
      exact PV.wseek hi h1

def slowPositional {S : Storage} (Q : Positional S) : Positional (slow S) where
  Ok s := Q.Ok s.st
  rp s := Q.rp s.st
  read_le h := by
    obtain ⟨st, hx, rfl⟩ := slow_read h
    exact Q.read_le hx
  tell h := Q.tell h
  read h1 h2 := by
    obtain ⟨st, hx, rfl⟩ := slow_read h2
    exact Q.read h1 hx
  rseek h1 h2 := by
    obtain ⟨st, hx, rfl⟩ := slow_rseek h2
    exact Q.rseek h1 hx
  write h1 h2 := by
    obtain ⟨st, hx, rfl⟩ := slow_write h2
    obtain ⟨r1, r2, r3, r4⟩ := Q.write h1 hx
    rw [List.length_take] at r2
    exact ⟨r1, by omega, r3, r4⟩
  wseek h1 h2 := by
    obtain ⟨st, hx, rfl⟩ := slow_wseek h2
    exact Q.wseek h1 hx

def shortPositional {S : Storage} (Q : Positional S) : Positional (short S) where
  Ok s := Q.Ok s.st
  rp s := Q.rp s.st
  read_le h := by
    obtain ⟨st, hx, rfl⟩ := short_read h
    have := Q.read_le hx
    omega
  tell h := Q.tell h
  read h1 h2 := by
    obtain ⟨st, hx, rfl⟩ := short_read h2
    exact Q.read h1 hx
  rseek h1 h2 := by
    obtain ⟨st, hx, rfl⟩ := short_rseek h2
    exact Q.rseek h1 hx
  write h1 h2 := by
    obtain ⟨st, hx, rfl⟩ := short_write h2
    exact Q.write h1 hx
  wseek h1 h2 := by
    obtain ⟨st, hx, rfl⟩ := short_wseek h2
    exact Q.wseek h1 hx

theorem keeps_positional {eager blank : Bool} {cl : Option Nat} {P : Provider} (h : Keeps eager blank cl P) :
    Nonempty (PositionalProvider P cl) := by
  induction h with
  | memory cl _ =>
    refine ⟨⟨memPositional, ?_⟩⟩
    intro s h
    have h : Mem.mk? cl = Res.ok s := h
    simp only [Mem.mk?, Res.ok.injEq] at h
    subst h
    exact ⟨trivial, rfl, rfl⟩
  | temp cl =>
    refine ⟨⟨tmpPositional, ?_⟩⟩
    intro s h
    have h : Tmp.mk? cl = Res.ok s := h
    simp only [Tmp.mk?, Res.ok.injEq] at h
    subst h
    exact ⟨by simp [tmpPositional], rfl, rfl⟩
  | adaptive checks F V bufferSize n _ _ ihF ihV =>
    obtain ⟨LF⟩ := ihF
    obtain ⟨LV⟩ := ihV
    refine ⟨⟨adpPositional checks LF.pos LV.pos, ?_⟩⟩
    intro s h
    simp only [Adp.mk?] at h
    split at h
    · split at h <;> try (simp at h; done)
      next t ht =>
      simp only [Res.ok.injEq] at h; subst h
      exact LF.create ht
    · split at h <;> try (simp at h; done)
      next t ht =>
      simp only [Res.ok.injEq] at h; subst h
      exact LV.create ht
  | slow cl takes P _ ih =>
    obtain ⟨LP⟩ := ih
    refine ⟨⟨slowPositional LP.pos, ?_⟩⟩
    intro s h
    obtain ⟨st, h1, rfl⟩ := slow_create h
    exact LP.create h1
  | short cl gives P _ _ ih =>
    obtain ⟨LP⟩ := ih
    refine ⟨⟨shortPositional LP.pos, ?_⟩⟩
    intro s h
    obtain ⟨st, h1, rfl⟩ := short_create h
    exact LP.create h1

theorem bnd_create {P : Provider} {bufferSize : Nat} {cl : Option Nat} {s : Bnd P.S}
    (h : Bnd.mk? P bufferSize cl = .ok s) :
    s.rp = 0 ∧ s.wp = 0 ∧ s.read = 0 ∧ s.written = 0 ∧ s.size = Bnd.sizeFor bufferSize cl := by
  simp only [Bnd.mk?] at h
  split at h <;> try (simp at h; done)
  simp only [Res.ok.injEq] at h; subst h
  simp

theorem keeps_read_le {eager blank : Bool} {cl : Option Nat} {P : Provider} (h : Keeps eager blank cl P) :
    ∀ {s n bs s'}, P.S.read s n = .ok (bs, s') → bs.length ≤ n := by
  obtain ⟨PP⟩ := keeps_positional h
  exact PP.pos.read_le

theorem windowed_positional {cl : Option Nat} {P : Provider} (h : Windowed cl P) :
    Nonempty (PositionalProvider P cl) := by
  cases h with
  | bounded _ checks F bufferSize hF =>
    refine ⟨⟨bndPositional checks (keeps_read_le hF), ?_⟩⟩
    intro s h
    obtain ⟨h1, h2, -⟩ := bnd_create h
    exact ⟨trivial, h1, h2⟩
  | adaptive checks F V bufferSize hF hV =>
    obtain ⟨LF⟩ := keeps_positional hF
    obtain ⟨LV⟩ := keeps_positional hV
    refine ⟨⟨adpPositional checks LF.pos LV.pos, ?_⟩⟩
    intro s h
    simp only [Adp.mk?] at h
    split at h <;> try (simp at h; done)
    next t ht =>
    simp only [Res.ok.injEq] at h; subst h
    obtain ⟨h1, h2, -⟩ := bnd_create ht
    exact ⟨trivial, h1, h2⟩

end SD
