import Verif.Proof.BoundedTotal
import Verif.Proof.Memory
import Verif.Proof.Temp
import Verif.Model.Adaptive

/-! # Adaptive storage is lawful -/

set_option linter.unusedSimpArgs false
set_option linter.unusedVariables false

namespace SD

theorem Res.map_ok {α β : Type} {f : α → β} {x : Res α} {y : β} (h : x.map f = .ok y) :
    ∃ a, x = .ok a ∧ f a = y := by
  cases x with
  | ok a => exact ⟨a, rfl, by simpa [Res.map] using h⟩
  | err k => simp [Res.map] at h
  | panic => simp [Res.map] at h

namespace Adp

variable {F V : Storage}

/-- With a known length adaptive storage is one of the two storages that keep
everything. -/
def fullLawful (checks : Bool) (LF : Lawful F true) (LV : Lawful V true) :
    Lawful (adpStorage checks F V) true where
  Inv s W := match s with
    | .bounded _ => False
    | .fixed s => LF.Inv s W
    | .variable s => LV.Inv s W
  cell s q := match s with
    | .bounded _ => none
    | .fixed s => LF.cell s q
    | .variable s => LV.cell s q
  rpos s := match s with
    | .bounded s => s.rp
    | .fixed s => LF.rpos s
    | .variable s => LV.rpos s
  Clean s := match s with
    | .bounded _ => True
    | .fixed s => LF.Clean s
    | .variable s => LV.Clean s
  Fresh s := match s with
    | .bounded _ => True
    | .fixed s => LF.Fresh s
    | .variable s => LV.Fresh s
  Exact _ := True
  Cut n k := LF.Cut n k ∨ LV.Cut n k
  cut_pos h := h.elim LF.cut_pos LV.cut_pos
  cut_full _ := rfl
  exact_full _ _ := trivial
  exact_tell _ _ := trivial
  exact_read _ _ _ := trivial
  exact_write _ _ _ := trivial
  exact_rseek _ _ _ _ := trivial
  exact_wseek _ _ _ := trivial
  clean_fresh := by
    intro s W hi hc
    cases s with
    | bounded s => exact hi.elim
    | fixed s => exact LF.clean_fresh hi hc
    | «variable» s => exact LV.clean_fresh hi hc
  written_some := by
    intro _ s W q hi hq
    cases s with
    | bounded s => exact hi.elim
    | fixed s => exact LF.written_some rfl hi hq
    | «variable» s => exact LV.written_some rfl hi hq
  tell_ok := by
    intro s W hi
    cases s with
    | bounded s => exact hi.elim
    | fixed s => exact LF.tell_ok hi
    | «variable» s => exact LV.tell_ok hi
  read_ok := by
    intro s W n bs s' hi hf h
    cases s with
    | bounded s => exact hi.elim
    | fixed s =>
      obtain ⟨⟨bs', t⟩, h1, h2⟩ := Res.map_ok h
      simp only [Prod.mk.injEq] at h2
      obtain ⟨rfl, rfl⟩ := h2
      exact LF.read_ok hi hf h1
    | «variable» s =>
      obtain ⟨⟨bs', t⟩, h1, h2⟩ := Res.map_ok h
      simp only [Prod.mk.injEq] at h2
      obtain ⟨rfl, rfl⟩ := h2
      exact LV.read_ok hi hf h1
  read_len := by
    intro s W n bs s' m hi he hc h hm hW
    cases s with
    | bounded s => exact hi.elim
    | fixed s =>
      obtain ⟨⟨bs', t⟩, h1, h2⟩ := Res.map_ok h
      simp only [Prod.mk.injEq] at h2
      obtain ⟨rfl, rfl⟩ := h2
      exact (LF.read_len hi (LF.exact_full rfl s) hc h1 hm hW).imp_right Or.inl
    | «variable» s =>
      obtain ⟨⟨bs', t⟩, h1, h2⟩ := Res.map_ok h
      simp only [Prod.mk.injEq] at h2
      obtain ⟨rfl, rfl⟩ := h2
      exact (LV.read_len hi (LV.exact_full rfl s) hc h1 hm hW).imp_right Or.inr
  read_some := by
    intro _ s W n bs s' hi hf h
    cases s with
    | bounded s => exact hi.elim
    | fixed s =>
      obtain ⟨⟨bs', t⟩, h1, h2⟩ := Res.map_ok h
      simp only [Prod.mk.injEq] at h2
      obtain ⟨rfl, rfl⟩ := h2
      exact LF.read_some rfl hi hf h1
    | «variable» s =>
      obtain ⟨⟨bs', t⟩, h1, h2⟩ := Res.map_ok h
      simp only [Prod.mk.injEq] at h2
      obtain ⟨rfl, rfl⟩ := h2
      exact LV.read_some rfl hi hf h1
  rseek_ok := by
    intro s W p s' hi h
    cases s with
    | bounded s => exact hi.elim
    | fixed s =>
      obtain ⟨t, h1, rfl⟩ := Res.map_ok h
      exact LF.rseek_ok hi h1
    | «variable» s =>
      obtain ⟨t, h1, rfl⟩ := Res.map_ok h
      exact LV.rseek_ok hi h1
  write_ok := by
    intro s W bs k s' hi h
    cases s with
    | bounded s => exact hi.elim
    | fixed s =>
      obtain ⟨⟨k', t⟩, h1, h2⟩ := Res.map_ok h
      simp only [Prod.mk.injEq] at h2
      obtain ⟨rfl, rfl⟩ := h2
      exact LF.write_ok hi h1
    | «variable» s =>
      obtain ⟨⟨k', t⟩, h1, h2⟩ := Res.map_ok h
      simp only [Prod.mk.injEq] at h2
      obtain ⟨rfl, rfl⟩ := h2
      exact LV.write_ok hi h1
  write_full := by
    intro _ s W bs k s' hi h
    cases s with
    | bounded s => exact hi.elim
    | fixed s =>
      obtain ⟨⟨k', t⟩, h1, h2⟩ := Res.map_ok h
      simp only [Prod.mk.injEq] at h2
      obtain ⟨rfl, rfl⟩ := h2
      exact LF.write_full rfl hi h1
    | «variable» s =>
      obtain ⟨⟨k', t⟩, h1, h2⟩ := Res.map_ok h
      simp only [Prod.mk.injEq] at h2
      obtain ⟨rfl, rfl⟩ := h2
      exact LV.write_full rfl hi h1
  write_window := by simp
  wseek_ok := by
    intro s W p s' hi hp h
    cases s with
    | bounded s => exact hi.elim
    | fixed s =>
      obtain ⟨t, h1, rfl⟩ := Res.map_ok h
      exact LF.wseek_ok hi (Or.inl rfl) h1
    | «variable» s =>
      obtain ⟨t, h1, rfl⟩ := Res.map_ok h
      exact LV.wseek_ok hi (Or.inl rfl) h1

theorem fullTotal (checks : Bool) {LF : Lawful F true} {LV : Lawful V true} (TF : Total LF)
    (TV : Total LV) : Total (fullLawful checks LF LV) where
  read_total := by
    intro s W n hi hr
    cases s with
    | bounded s => exact hi.elim
    | fixed s =>
      obtain ⟨r, h⟩ := TF.read_total (n := n) hi hr
      exact ⟨(r.1, .fixed r.2), by simp [adpStorage, h, Res.map]⟩
    | «variable» s =>
      obtain ⟨r, h⟩ := TV.read_total (n := n) hi hr
      exact ⟨(r.1, .variable r.2), by simp [adpStorage, h, Res.map]⟩
  rseek_total := by
    intro s W n hi
    cases s with
    | bounded s => exact hi.elim
    | fixed s =>
      obtain ⟨r, h⟩ := TF.rseek_total (p := n) hi
      exact ⟨.fixed r, by simp [adpStorage, h, Res.map]⟩
    | «variable» s =>
      obtain ⟨r, h⟩ := TV.rseek_total (p := n) hi
      exact ⟨.variable r, by simp [adpStorage, h, Res.map]⟩
  write_total := by
    intro s W bs hi
    cases s with
    | bounded s => exact hi.elim
    | fixed s =>
      obtain ⟨r, h⟩ := TF.write_total (bs := bs) hi
      exact ⟨(r.1, .fixed r.2), by simp [adpStorage, h, Res.map]⟩
    | «variable» s =>
      obtain ⟨r, h⟩ := TV.write_total (bs := bs) hi
      exact ⟨(r.1, .variable r.2), by simp [adpStorage, h, Res.map]⟩
  wseek_total := by
    intro s W n hi
    cases s with
    | bounded s => exact hi.elim
    | fixed s =>
      obtain ⟨r, h⟩ := TF.wseek_total (p := n) hi
      exact ⟨.fixed r, by simp [adpStorage, h, Res.map]⟩
    | «variable» s =>
      obtain ⟨r, h⟩ := TV.wseek_total (p := n) hi
      exact ⟨.variable r, by simp [adpStorage, h, Res.map]⟩

/-- With an unknown length adaptive storage is the bounded storage. -/
def windowLawful (checks : Bool) (V : Storage) (LB : Lawful (bndStorage checks F) false) :
    Lawful (adpStorage checks F V) false where
  Inv s W := match s with
    | .bounded s => LB.Inv s W
    | _ => False
  cell s q := match s with
    | .bounded s => LB.cell s q
    | _ => none
  rpos s := match s with
    | .bounded s => LB.rpos s
    | _ => 0
  Clean s := match s with
    | .bounded s => LB.Clean s
    | _ => True
  Fresh s := match s with
    | .bounded s => LB.Fresh s
    | _ => True
  Exact s := match s with
    | .bounded s => LB.Exact s
    | _ => True
  Cut := LB.Cut
  cut_pos := LB.cut_pos
  cut_full := LB.cut_full
  exact_full := by simp
  exact_tell := by
    intro s W hi he
    cases s with
    | bounded s => exact LB.exact_tell hi he
    | _ => exact hi.elim
  exact_read := by
    intro s W n bs s' hi he h
    cases s with
    | bounded s =>
      obtain ⟨⟨bs', t⟩, h1, h2⟩ := Res.map_ok h
      simp only [Prod.mk.injEq] at h2
      obtain ⟨rfl, rfl⟩ := h2
      exact LB.exact_read hi he h1
    | _ => exact hi.elim
  exact_write := by
    intro s W n bs s' hi he h
    cases s with
    | bounded s =>
      obtain ⟨⟨bs', t⟩, h1, h2⟩ := Res.map_ok h
      simp only [Prod.mk.injEq] at h2
      obtain ⟨rfl, rfl⟩ := h2
      exact LB.exact_write hi he h1
    | _ => exact hi.elim
  exact_rseek := by
    intro s W p s' hi he hp h
    cases s with
    | bounded s =>
      obtain ⟨t, h1, rfl⟩ := Res.map_ok h
      exact LB.exact_rseek hi he hp h1
    | _ => exact hi.elim
  exact_wseek := by
    intro s W s' hi he h
    cases s with
    | bounded s =>
      obtain ⟨t, h1, rfl⟩ := Res.map_ok h
      exact LB.exact_wseek hi he h1
    | _ => exact hi.elim
  clean_fresh := by
    intro s W hi hc
    cases s with
    | bounded s => exact LB.clean_fresh hi hc
    | _ => exact hi.elim
  written_some := by simp
  tell_ok := by
    intro s W hi
    cases s with
    | bounded s => exact LB.tell_ok hi
    | _ => exact hi.elim
  read_ok := by
    intro s W n bs s' hi hf h
    cases s with
    | bounded s =>
      obtain ⟨⟨bs', t⟩, h1, h2⟩ := Res.map_ok h
      simp only [Prod.mk.injEq] at h2
      obtain ⟨rfl, rfl⟩ := h2
      exact LB.read_ok hi hf h1
    | _ => exact hi.elim
  read_len := by
    intro s W n bs s' m hi he hc h
    cases s with
    | bounded s =>
      obtain ⟨⟨bs', t⟩, h1, h2⟩ := Res.map_ok h
      simp only [Prod.mk.injEq] at h2
      obtain ⟨rfl, rfl⟩ := h2
      exact LB.read_len hi he hc h1
    | _ => exact hi.elim
  read_some := by simp
  rseek_ok := by
    intro s W p s' hi h
    cases s with
    | bounded s =>
      obtain ⟨t, h1, rfl⟩ := Res.map_ok h
      exact LB.rseek_ok hi h1
    | _ => exact hi.elim
  write_ok := by
    intro s W bs k s' hi h
    cases s with
    | bounded s =>
      obtain ⟨⟨k', t⟩, h1, h2⟩ := Res.map_ok h
      simp only [Prod.mk.injEq] at h2
      obtain ⟨rfl, rfl⟩ := h2
      exact LB.write_ok hi h1
    | _ => exact hi.elim
  write_full := by simp
  write_window := by
    intro _ s W bs k s' hi h
    cases s with
    | bounded s =>
      obtain ⟨⟨k', t⟩, h1, h2⟩ := Res.map_ok h
      simp only [Prod.mk.injEq] at h2
      obtain ⟨rfl, rfl⟩ := h2
      exact LB.write_window rfl hi h1
    | _ => exact hi.elim
  wseek_ok := by
    intro s W p s' hi hp h
    cases s with
    | bounded s =>
      obtain ⟨t, h1, rfl⟩ := Res.map_ok h
      exact LB.wseek_ok hi hp h1
    | _ => exact hi.elim

/-- Known length. -/
def fullLawfulProvider (checks : Bool) {F V : Provider} (bufferSize n : Nat)
    (LF : LawfulProvider F true (some n)) (LV : LawfulProvider V true (some n)) :
    LawfulProvider (adpProvider checks F V bufferSize) true (some n) where
  law := fullLawful checks LF.law LV.law
  create_ok := by
    intro s h
    simp only [Adp.mk?] at h
    split at h
    · split at h <;> try (simp at h; done)
      next t ht =>
      simp only [Res.ok.injEq] at h; subst h
      obtain ⟨h1, h2, h3, h4, h5, h6⟩ := LF.create_ok ht
      exact ⟨h1, trivial, h3, h4, h5, h6⟩
    · split at h <;> try (simp at h; done)
      next t ht =>
      simp only [Res.ok.injEq] at h; subst h
      obtain ⟨h1, h2, h3, h4, h5, h6⟩ := LV.create_ok ht
      exact ⟨h1, trivial, h3, h4, h5, h6⟩

/-- Unknown length. -/
def windowLawfulProvider (checks : Bool) {F : Provider} (V : Provider) (bufferSize : Nat)
    (LF : LawfulProvider F true (some bufferSize)) :
    LawfulProvider (adpProvider checks F V bufferSize) false none where
  law := windowLawful checks V.S (bndLawful checks LF.law)
  create_ok := by
    intro s h
    simp only [Adp.mk?] at h
    split at h <;> try (simp at h; done)
    next t ht =>
    simp only [Res.ok.injEq] at h; subst h
    exact (bndLawfulProvider checks bufferSize none LF).create_ok ht

end Adp

end SD
