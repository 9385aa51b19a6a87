import Verif.Spec.Providers
import Verif.Proof.Adaptive
import Verif.Proof.Short
import Verif.Proof.Sys.Forward

/-! # The providers of the crate are lawful -/

namespace SD

theorem keeps_lawful {eager blank : Bool} {cl : Option Nat} {P : Provider} (h : Keeps eager blank cl P) :
    ∃ LP : LawfulProvider P true cl, Total LP.law ∧ (eager = true → Eager LP.law) ∧
      (blank = true → StartsEmpty LP) := by
  induction h with
  | memory cl hb =>
    exact ⟨memLawfulProvider cl, memTotal, fun _ _ _ h => h, fun h => startsEmpty_none _ (hb h)⟩
  | temp cl =>
    refine ⟨tmpLawfulProvider cl, tmpTotal, fun _ _ _ h => h, ?_⟩
    intro _ st h q
    have h : Tmp.mk? cl = Res.ok st := h
    simp only [Tmp.mk?, Res.ok.injEq] at h
    subst h
    simp [tmpLawfulProvider, tmpLawful]
  | adaptive checks F V bufferSize n _ _ ihF ihV =>
    obtain ⟨LF, TF, CF, EF⟩ := ihF
    obtain ⟨LV, TV, CV, EV⟩ := ihV
    refine ⟨Adp.fullLawfulProvider checks bufferSize n LF LV, Adp.fullTotal checks TF TV,
      fun he a b h => h.elim (CF he a b) (CV he a b), ?_⟩
    intro hb st h q
    simp only [Adp.mk?] at h
    split at h
    · split at h <;> try (simp at h; done)
      next t ht =>
      simp only [Res.ok.injEq] at h; subst h
      exact EF hb t ht q
    · split at h <;> try (simp at h; done)
      next t ht =>
      simp only [Res.ok.injEq] at h; subst h
      exact EV hb t ht q
  | slow cl takes P _ ih =>
    obtain ⟨LP, T, C, E⟩ := ih
    refine ⟨slowLawfulProvider takes LP, slowTotal T, C, ?_⟩
    intro hb st h q
    obtain ⟨st', h1, rfl⟩ := slow_create h
    exact E hb st' h1 q
  | short cl gives P he _ ih =>
    obtain ⟨LP, T, C, E⟩ := ih
    refine ⟨shortLawfulProvider gives LP, shortTotal T, by simp [he], ?_⟩
    intro hb st h q
    obtain ⟨st', h1, rfl⟩ := short_create h
    exact E hb st' h1 q

/-- Eagerness is only an additional demand. -/
theorem Keeps.sparing {eager blank : Bool} {cl : Option Nat} {P : Provider} (h : Keeps eager blank cl P) :
    Keeps false blank cl P := by
  induction h with
  | memory cl hb => exact .memory cl hb
  | temp cl => exact .temp cl
  | adaptive checks F V bufferSize n _ _ ihF ihV => exact .adaptive checks F V bufferSize n ihF ihV
  | slow cl takes P _ ih => exact .slow cl takes P ih
  | short cl gives P _ _ ih => exact .short cl gives P rfl ih

theorem windowed_lawful {cl : Option Nat} {P : Provider} (h : Windowed cl P) :
    Nonempty (LawfulProvider P false cl) := by
  cases h with
  | bounded _ checks F bufferSize hF =>
    obtain ⟨LF, -, -⟩ := keeps_lawful hF
    exact ⟨bndLawfulProvider checks bufferSize cl LF⟩
  | adaptive checks F V bufferSize hF hV =>
    obtain ⟨LF, -, -⟩ := keeps_lawful hF
    exact ⟨Adp.windowLawfulProvider checks V bufferSize LF⟩

end SD
