import Verif.Proof.Adaptive
import Verif.Proof.BoundedTotal
import Verif.Proof.Positional

/-!
# Storages whose reads do not panic

`Ok` holds from the start and is kept by every operation, except that the reader may only be moved to positions up to
`N`.  If `seeks` is set, moving it there does not panic either.
-/

set_option linter.unusedSimpArgs false
set_option linter.unusedVariables false

namespace SD

structure Gentle (S : Storage) (seeks : Bool) (N : Nat) where
  Ok : S.σ → Prop
  tell : ∀ {s}, Ok s → Ok (S.tell s).2
  read : ∀ {s n bs s'}, Ok s → S.read s n = .ok (bs, s') → Ok s'
  write : ∀ {s bs k s'}, Ok s → S.write s bs = .ok (k, s') → Ok s'
  wseek : ∀ {s p s'}, Ok s → S.wseek s p = .ok s' → Ok s'
  rseek : ∀ {s p s'}, Ok s → p ≤ N → S.rseek s p = .ok s' → Ok s'
  rseek_safe : seeks = true → ∀ {s p}, Ok s → p ≤ N → S.rseek s p ≠ .panic
  read_safe : ∀ {s n}, Ok s → S.read s n ≠ .panic

theorem splice_length (f : List Byte) (p : Nat) (bs : List Byte) : f.length ≤ (splice f p bs).length := by
  simp only [splice, List.length_append, List.length_take, List.length_replicate, List.length_drop]; omega

def memGentle (N : Nat) : Gentle memStorage true N where
  Ok s := s.rp ≤ s.buf.length ∧ N ≤ s.buf.length
  tell h := h
  read {s n bs s'} h hr := by
    have hr : Mem.read s n = .ok (bs, s') := hr
    simp only [Mem.read] at hr
    split at hr
    · simp at hr
    · next hlt =>
      simp only [Res.ok.injEq, Prod.mk.injEq] at hr
      obtain ⟨-, rfl⟩ := hr
      exact ⟨by simp only; omega, h.2⟩
  write {s bs k s'} h hw := by
    have hw : Mem.write s bs = .ok (k, s') := hw
    simp only [Mem.write, Res.ok.injEq, Prod.mk.injEq] at hw
    obtain ⟨-, rfl⟩ := hw
    have := splice_length s.buf s.wp bs
    exact ⟨by simp only; omega, by simp only; omega⟩
  wseek h hw := by cases hw; exact h
  rseek h hp hr := by cases hr; exact ⟨Nat.le_trans hp h.2, h.2⟩
  rseek_safe _ _ _ _ _ := by simp [memStorage]
  read_safe {s n} h := by
    show Mem.read s n ≠ .panic
    simp only [Mem.read]
    split
    · omega
    · simp

def tmpGentle (N : Nat) : Gentle tmpStorage true N where
  Ok _ := True
  tell _ := trivial
  read _ _ := trivial
  write _ _ := trivial
  wseek _ _ := trivial
  rseek _ _ _ := trivial
  rseek_safe _ _ _ _ _ := by simp [tmpStorage, Tmp.rseek]
  read_safe {s n} _ := by
    show Tmp.read s n ≠ .panic
    simp only [Tmp.read]
    split
    · split <;> simp
    · simp

theorem bind_ne_panic {α β : Type} {x : Res α} {f : α → Res β} (h : x ≠ .panic) (hf : ∀ a, f a ≠ .panic) :
    x.bind f ≠ .panic := by
  cases x with
  | ok a => exact hf a
  | err k => exact fun h => by cases h
  | panic => exact absurd rfl h

theorem map_ne_panic' {α β : Type} {x : Res α} {f : α → β} (h : x ≠ .panic) : x.map f ≠ .panic := by
  cases x with
  | ok a => exact fun h => by cases h
  | err k => exact fun h => by cases h
  | panic => exact absurd rfl h

def slowGentle {S : Storage} {b : Bool} {N : Nat} (Q : Gentle S b N) : Gentle (slow S) b N where
  Ok s := Q.Ok s.st
  tell h := Q.tell h
  read h hr := by obtain ⟨st, hx, rfl⟩ := slow_read hr; exact Q.read h hx
  write h hw := by obtain ⟨st, hx, rfl⟩ := slow_write hw; exact Q.write h hx
  wseek h hw := by obtain ⟨st, hx, rfl⟩ := slow_wseek hw; exact Q.wseek h hx
  rseek h hp hr := by obtain ⟨st, hx, rfl⟩ := slow_rseek hr; exact Q.rseek h hp hx
  rseek_safe hb _ _ h hp := bind_ne_panic (Q.rseek_safe hb h hp) (fun _ h => by cases h)
  read_safe h := bind_ne_panic (Q.read_safe h) (fun _ h => by cases h)

def shortGentle {S : Storage} {b : Bool} {N : Nat} (Q : Gentle S b N) : Gentle (short S) b N where
  Ok s := Q.Ok s.st
  tell h := Q.tell h
  read h hr := by obtain ⟨st, hx, rfl⟩ := short_read hr; exact Q.read h hx
  write h hw := by obtain ⟨st, hx, rfl⟩ := short_write hw; exact Q.write h hx
  wseek h hw := by obtain ⟨st, hx, rfl⟩ := short_wseek hw; exact Q.wseek h hx
  rseek h hp hr := by obtain ⟨st, hx, rfl⟩ := short_rseek hr; exact Q.rseek h hp hx
  rseek_safe hb _ _ h hp := bind_ne_panic (Q.rseek_safe hb h hp) (fun _ h => by cases h)
  read_safe h := bind_ne_panic (Q.read_safe h) (fun _ h => by cases h)

/-! ### Bounded storage -/

section
variable {I : Storage} {b : Bool} {M : Nat} (Q : Gentle I b M)
include Q

theorem Gentle.readExactF (fuel : Nat) : ∀ {s : I.σ} {n : Nat}, Q.Ok s →
    SD.readExactF I fuel s n ≠ .panic ∧ ∀ r, SD.readExactF I fuel s n = .ok r → Q.Ok r.2 := by
  induction fuel with
  | zero =>
    intro s n h
    cases n with
    | zero => exact ⟨fun h => by simp [SD.readExactF] at h, fun r hr => by simp only [SD.readExactF, Res.ok.injEq] at hr; subst hr; exact h⟩
    | succ n => exact ⟨fun h => by simp [SD.readExactF] at h, fun r hr => by simp [SD.readExactF] at hr⟩
  | succ fuel ih =>
    intro s n h
    cases n with
    | zero => exact ⟨fun h => by simp [SD.readExactF] at h, fun r hr => by simp only [SD.readExactF, Res.ok.injEq] at hr; subst hr; exact h⟩
    | succ n =>
      simp only [SD.readExactF]
      cases hr : I.read s (n + 1) with
      | err k => simp
      | panic => exact absurd hr (Q.read_safe h)
      | ok x =>
        obtain ⟨bs, s1⟩ := x
        have h1 := Q.read h hr
        dsimp only
        by_cases hb : bs = []
        · simp [hb]
        · rw [if_neg hb]
          obtain ⟨i1, i2⟩ := ih (s := s1) (n := n + 1 - bs.length) h1
          cases hx : SD.readExactF I fuel s1 (n + 1 - bs.length) with
          | err k => simp
          | panic => exact absurd hx i1
          | ok y =>
            refine ⟨by simp, fun r hr => ?_⟩
            simp only [Res.ok.injEq] at hr
            subst hr
            exact i2 y hx

theorem Gentle.readExact {s : I.σ} {n : Nat} (h : Q.Ok s) :
    SD.readExact I s n ≠ .panic ∧ ∀ r, SD.readExact I s n = .ok r → Q.Ok r.2 := Q.readExactF n h

theorem Gentle.writeAllF (fuel : Nat) : ∀ {s s' : I.σ} {bs : List Byte}, Q.Ok s →
    SD.writeAllF I fuel s bs = .ok s' → Q.Ok s' := by
  induction fuel with
  | zero =>
    intro s s' bs h hw
    cases bs with
    | nil => simp only [SD.writeAllF, Res.ok.injEq] at hw; subst hw; exact h
    | cons b bs => simp [SD.writeAllF] at hw
  | succ fuel ih =>
    intro s s' bs h hw
    cases bs with
    | nil => simp only [SD.writeAllF, Res.ok.injEq] at hw; subst hw; exact h
    | cons b bs =>
      simp only [SD.writeAllF] at hw
      split at hw <;> try (simp at hw; done)
      next k s1 hx => exact ih (Q.write h hx) hw

theorem Gentle.readInner (hb : b = true) {checks : Bool} {i : I.σ} {start endd size k : Nat} (h : Q.Ok i)
    (h1 : start ≤ M) (h2 : endd ≤ start → start ≤ size ∧ size - start ≤ k) :
    Bnd.readInner checks I i start endd size k ≠ .panic ∧
      ∀ r, Bnd.readInner checks I i start endd size k = .ok r → Q.Ok r.2 := by
  unfold Bnd.readInner
  cases h3 : I.rseek i start with
  | err k => simp
  | panic => exact absurd h3 (Q.rseek_safe hb h h1)
  | ok i1 =>
    have k1 := Q.rseek h h1 h3
    dsimp only
    by_cases hlt : start < endd
    · rw [if_pos hlt]; exact Q.readExact k1
    · rw [if_neg hlt]
      obtain ⟨h4, h5⟩ := h2 (by omega)
      rw [Bnd.subU64_le h4]
      dsimp only
      rw [if_neg (by omega)]
      obtain ⟨a1, a2⟩ := Q.readExact (n := size - start) k1
      cases h6 : SD.readExact I i1 (size - start) with
      | err k => simp
      | panic => exact absurd h6 a1
      | ok x =>
        obtain ⟨bs1, i2⟩ := x
        have k2 := a2 _ h6
        dsimp only
        cases h7 : I.rseek i2 0 with
        | err k => simp
        | panic => exact absurd h7 (Q.rseek_safe hb k2 (Nat.zero_le _))
        | ok i3 =>
          have k3 := Q.rseek k2 (Nat.zero_le _) h7
          dsimp only
          obtain ⟨b1, b2⟩ := Q.readExact (n := k - (size - start)) k3
          cases h8 : SD.readExact I i3 (k - (size - start)) with
          | err k => simp
          | panic => exact absurd h8 b1
          | ok y =>
            refine ⟨by simp, fun r hr => ?_⟩
            simp only [Res.ok.injEq] at hr
            subst hr
            exact b2 y h8

theorem Gentle.readOp (hb : b = true) {checks : Bool} {s : Bnd I} {n : Nat} (h : Q.Ok s.inner) (hs : s.size ≤ M) :
    Bnd.readOp checks s n ≠ .panic ∧ ∀ r, Bnd.readOp checks s n = .ok r → Q.Ok r.2.inner ∧ r.2.size = s.size := by
  unfold Bnd.readOp
  have same : ∀ r, (Res.ok (([] : List Byte), s)) = .ok r → Q.Ok r.2.inner ∧ r.2.size = s.size := by
    intro r hr
    simp only [Res.ok.injEq] at hr
    subst hr
    exact ⟨h, rfl⟩
  by_cases h1 : s.size < n
  · rw [if_pos h1]; exact ⟨by simp, by simp⟩
  rw [if_neg h1]
  by_cases h2 : s.size < s.wp - s.rp
  · rw [if_pos h2]; exact ⟨by simp, by simp⟩
  rw [if_neg h2]
  by_cases h3 : Bnd.cnt s.written ≤ Bnd.cnt s.read
  · rw [if_pos h3]; exact ⟨by simp, same⟩
  rw [if_neg h3]
  dsimp only
  generalize hk : min (s.wp - s.rp) n = k
  by_cases h4 : k = 0
  · rw [if_pos h4]; exact ⟨by simp, same⟩
  rw [if_neg h4]
  have hpos : 0 < s.size := by omega
  rw [Bnd.mapped_eq hpos, Bnd.mapped_eq hpos]
  dsimp only
  have m1 : s.rp % s.size < s.size := Nat.mod_lt _ hpos
  have m2 : (0 + s.rp % s.size) % s.size = s.rp % s.size := by rw [Nat.zero_add, Nat.mod_mod]
  have key : (k - 1 + s.rp % s.size) % s.size + 1 ≤ s.rp % s.size →
      s.rp % s.size ≤ min s.size s.wp ∧ min s.size s.wp - s.rp % s.size ≤ k := by
    intro hle
    have hge : s.size ≤ s.rp % s.size + (k - 1) := by
      by_contra hlt
      rw [Nat.mod_eq_of_lt (by omega)] at hle
      omega
    have hwp : s.size ≤ s.wp := by
      by_contra hlt
      have : s.rp % s.size ≤ s.rp := Nat.mod_le _ _
      omega
    rw [Nat.min_eq_left hwp]
    omega
  obtain ⟨a1, a2⟩ := Q.readInner hb (checks := checks) (k := k) (start := s.rp % s.size)
    (endd := (k - 1 + s.rp % s.size) % s.size + 1) (size := min s.size s.wp) h (by omega) key
  rw [m2]
  cases hr : Bnd.readInner checks I s.inner (s.rp % s.size) ((k - 1 + s.rp % s.size) % s.size + 1) (min s.size s.wp) k with
  | err e => simp
  | panic => exact absurd hr a1
  | ok x =>
    refine ⟨by simp, fun r hr' => ?_⟩
    simp only [Res.ok.injEq] at hr'
    subst hr'
    exact ⟨a2 x hr, rfl⟩

theorem Gentle.writeOp {checks : Bool} {s s' : Bnd I} {bs : List Byte} {k : Nat} (h : Q.Ok s.inner)
    (hw : Bnd.writeOp checks s bs = .ok (k, s')) : Q.Ok s'.inner ∧ s'.size = s.size := by
  simp only [Bnd.writeOp] at hw
  split at hw
  · simp only [Res.ok.injEq, Prod.mk.injEq] at hw
    obtain ⟨-, rfl⟩ := hw
    exact ⟨h, rfl⟩
  · split at hw <;> try (simp at hw; done)
    split at hw <;> try (simp at hw; done)
    next i hi =>
    simp only [Res.ok.injEq, Prod.mk.injEq] at hw
    obtain ⟨-, rfl⟩ := hw
    refine ⟨?_, rfl⟩
    simp only [Bnd.writeInner] at hi
    split at hi <;> try (simp at hi; done)
    next i1 h1 =>
    have k1 := Q.wseek h h1
    split at hi
    · exact Q.writeAllF _ k1 hi
    · split at hi <;> try (simp at hi; done)
      split at hi
      · simp at hi
      · split at hi <;> try (simp at hi; done)
        next i2 h2 =>
        have k2 := Q.writeAllF _ k1 h2
        split at hi <;> try (simp at hi; done)
        next i3 h3 => exact Q.writeAllF _ (Q.wseek k2 h3) hi

end

def bndGentle (checks : Bool) {I : Storage} {M : Nat} (Q : Gentle I true M) (N : Nat) :
    Gentle (bndStorage checks I) (!checks) N where
  Ok s := Q.Ok s.inner ∧ s.size ≤ M
  tell h := h
  read h hr := by
    obtain ⟨h1, h2⟩ := (Q.readOp rfl h.1 h.2).2 _ hr
    exact ⟨h1, by rw [h2]; exact h.2⟩
  write h hw := by
    obtain ⟨h1, h2⟩ := Q.writeOp h.1 hw
    exact ⟨h1, by rw [h2]; exact h.2⟩
  wseek {s p s'} h hw := by
    have hw : Bnd.wseek checks s p = .ok s' := hw
    simp only [Bnd.wseek] at hw
    split at hw <;> try (simp at hw; done)
    simp only [Res.ok.injEq] at hw
    subst hw
    exact h
  rseek {s p s'} h _ hw := by
    have hw : Bnd.rseek checks s p = .ok s' := hw
    simp only [Bnd.rseek] at hw
    split at hw <;> try (simp at hw; done)
    simp only [Res.ok.injEq] at hw
    subst hw
    exact h
  rseek_safe hc s p h _ := by
    have hc : checks = false := by simpa using hc
    subst hc
    show Bnd.rseek false s p ≠ .panic
    simp [Bnd.rseek, Bnd.subCnt]
  read_safe h := (Q.readOp rfl h.1 h.2).1

/-! ### Adaptive storage -/

def adpGentle (checks : Bool) {F V : Storage} {b : Bool} {N : Nat} (QF : Gentle F b N) (QV : Gentle V b N) :
    Gentle (adpStorage checks F V) b N where
  Ok s := match s with
    | .bounded _ => False
    | .fixed s => QF.Ok s
    | .variable s => QV.Ok s
  tell {s} h := by
    cases s with
    | bounded s => exact h.elim
    | fixed s => exact QF.tell h
    | «variable» s => exact QV.tell h
  read {s n bs s'} h hr := by
    cases s with
    | bounded s => exact h.elim
    | fixed s =>
      obtain ⟨⟨bs', t⟩, h1, h2⟩ := Res.map_ok hr
      simp only [Prod.mk.injEq] at h2
      obtain ⟨rfl, rfl⟩ := h2
      exact QF.read h h1
    | «variable» s =>
      obtain ⟨⟨bs', t⟩, h1, h2⟩ := Res.map_ok hr
      simp only [Prod.mk.injEq] at h2
      obtain ⟨rfl, rfl⟩ := h2
      exact QV.read h h1
  write {s bs k s'} h hr := by
    cases s with
    | bounded s => exact h.elim
    | fixed s =>
      obtain ⟨⟨bs', t⟩, h1, h2⟩ := Res.map_ok hr
      simp only [Prod.mk.injEq] at h2
      obtain ⟨rfl, rfl⟩ := h2
      exact QF.write h h1
    | «variable» s =>
      obtain ⟨⟨bs', t⟩, h1, h2⟩ := Res.map_ok hr
      simp only [Prod.mk.injEq] at h2
      obtain ⟨rfl, rfl⟩ := h2
      exact QV.write h h1
  wseek {s p s'} h hr := by
    cases s with
    | bounded s => exact h.elim
    | fixed s => obtain ⟨t, h1, rfl⟩ := Res.map_ok hr; exact QF.wseek h h1
    | «variable» s => obtain ⟨t, h1, rfl⟩ := Res.map_ok hr; exact QV.wseek h h1
  rseek {s p s'} h hp hr := by
    cases s with
    | bounded s => exact h.elim
    | fixed s => obtain ⟨t, h1, rfl⟩ := Res.map_ok hr; exact QF.rseek h hp h1
    | «variable» s => obtain ⟨t, h1, rfl⟩ := Res.map_ok hr; exact QV.rseek h hp h1
  rseek_safe hb s p h hp := by
    cases s with
    | bounded s => exact h.elim
    | fixed s => exact map_ne_panic' (QF.rseek_safe hb h hp)
    | «variable» s => exact map_ne_panic' (QV.rseek_safe hb h hp)
  read_safe {s n} h := by
    cases s with
    | bounded s => exact h.elim
    | fixed s => exact map_ne_panic' (QF.read_safe h)
    | «variable» s => exact map_ne_panic' (QV.read_safe h)

def adpBndGentle (checks : Bool) {F : Storage} (V : Storage) {b : Bool} {N : Nat}
    (Q : Gentle (bndStorage checks F) b N) : Gentle (adpStorage checks F V) b N where
  Ok s := match s with
    | .bounded s => Q.Ok s
    | _ => False
  tell {s} h := by
    cases s with
    | bounded s => exact Q.tell h
    | _ => exact h.elim
  read {s n bs s'} h hr := by
    cases s with
    | bounded s =>
      obtain ⟨⟨bs', t⟩, h1, h2⟩ := Res.map_ok hr
      simp only [Prod.mk.injEq] at h2
      obtain ⟨rfl, rfl⟩ := h2
      exact Q.read h h1
    | _ => exact h.elim
  write {s bs k s'} h hr := by
    cases s with
    | bounded s =>
      obtain ⟨⟨bs', t⟩, h1, h2⟩ := Res.map_ok hr
      simp only [Prod.mk.injEq] at h2
      obtain ⟨rfl, rfl⟩ := h2
      exact Q.write h h1
    | _ => exact h.elim
  wseek {s p s'} h hr := by
    cases s with
    | bounded s => obtain ⟨t, h1, rfl⟩ := Res.map_ok hr; exact Q.wseek h h1
    | _ => exact h.elim
  rseek {s p s'} h hp hr := by
    cases s with
    | bounded s => obtain ⟨t, h1, rfl⟩ := Res.map_ok hr; exact Q.rseek h hp h1
    | _ => exact h.elim
  rseek_safe hb s p h hp := by
    cases s with
    | bounded s => exact map_ne_panic' (Q.rseek_safe hb h hp)
    | _ => exact h.elim
  read_safe {s n} h := by
    cases s with
    | bounded s => exact map_ne_panic' (Q.read_safe h)
    | _ => exact h.elim

/-! ### Providers -/

structure GentleProvider (P : Provider) (cl : Option Nat) (seeks : Bool) (N : Nat) where
  law : Gentle P.S seeks N
  create : ∀ {s}, P.create cl = .ok s → law.Ok s

theorem keeps_gentle {eager blank : Bool} {cl : Option Nat} {P : Provider} (h : Keeps eager blank cl P) :
    Nonempty (GentleProvider P cl true (cl.getD 0)) := by
  induction h with
  | memory cl _ =>
    refine ⟨⟨memGentle _, ?_⟩⟩
    intro s h
    have h : Mem.mk? cl = Res.ok s := h
    simp only [Mem.mk?, Res.ok.injEq] at h
    subst h
    simp [memGentle]
  | temp cl => exact ⟨⟨tmpGentle _, fun _ => trivial⟩⟩
  | adaptive checks F V bufferSize n _ _ ihF ihV =>
    obtain ⟨LF⟩ := ihF
    obtain ⟨LV⟩ := ihV
    refine ⟨⟨adpGentle checks LF.law LV.law, ?_⟩⟩
    intro s h
    simp only [Adp.mk?] at h
    split at h
    · split at h <;> try (simp at h; done)
      next t ht =>
      simp only [Res.ok.injEq] at h; subst h
      exact LF.create ht
    · split at h <;> try (simp at h; done)
      next t ht =>
      simp only [Res.ok.injEq] at h; subst h
      exact LV.create ht
  | slow cl takes P _ ih =>
    obtain ⟨L⟩ := ih
    refine ⟨⟨slowGentle L.law, ?_⟩⟩
    intro s h
    obtain ⟨st, h1, rfl⟩ := slow_create h
    exact L.create h1
  | short cl gives P _ _ ih =>
    obtain ⟨L⟩ := ih
    refine ⟨⟨shortGentle L.law, ?_⟩⟩
    intro s h
    obtain ⟨st, h1, rfl⟩ := short_create h
    exact L.create h1

theorem bnd_gentle {F : Provider} (checks : Bool) (bufferSize : Nat) (cl : Option Nat) (N : Nat)
    (hF : Sparing (some (Bnd.sizeFor bufferSize cl)) F) :
    ∃ Q : Gentle (bndStorage checks F.S) (!checks) N, ∀ {s}, Bnd.mk? F bufferSize cl = .ok s → Q.Ok s := by
  obtain ⟨L⟩ := keeps_gentle hF
  refine ⟨bndGentle checks L.law N, ?_⟩
  intro s h
  simp only [Bnd.mk?] at h
  split at h <;> try (simp at h; done)
  next i hc =>
  simp only [Res.ok.injEq] at h; subst h
  exact ⟨L.create hc, Nat.le_refl _⟩

def Gentle.weak {S : Storage} {b : Bool} {N : Nat} (Q : Gentle S b N) : Gentle S false N :=
  { Q with rseek_safe := by simp }

/-- A smaller bound. -/
def GentleProvider.down {P : Provider} {cl : Option Nat} {b : Bool} {N : Nat} (Q : GentleProvider P cl b N) :
    GentleProvider P cl false 0 where
  law := { Q.law with rseek := fun h hp => Q.law.rseek h (by omega), rseek_safe := by simp }
  create := Q.create

theorem windowed_gentle {cl : Option Nat} {P : Provider} (h : Windowed cl P) (N : Nat) :
    Nonempty (GentleProvider P cl false N) := by
  cases h with
  | bounded _ checks F bufferSize hF =>
    obtain ⟨Q, hQ⟩ := bnd_gentle checks bufferSize cl N hF
    exact ⟨⟨Q.weak, fun h => hQ h⟩⟩
  | adaptive checks F V bufferSize hF hV =>
    obtain ⟨Q, hQ⟩ := bnd_gentle checks bufferSize none N hF
    refine ⟨⟨(adpBndGentle checks V.S Q).weak, ?_⟩⟩
    intro s h
    simp only [Adp.mk?] at h
    split at h <;> try (simp at h; done)
    next t ht =>
    simp only [Res.ok.injEq] at h; subst h
    exact hQ ht

theorem supported_gentle {cl : Option Nat} {P : Provider} (h : Supported cl P) :
    Nonempty (GentleProvider P cl false 0) := by
  rcases h with h | h
  · obtain ⟨Q⟩ := keeps_gentle h
    exact ⟨Q.down⟩
  · exact windowed_gentle h 0

end SD
