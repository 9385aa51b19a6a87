import Verif.Proof.Memory
import Verif.Model.Temp

/-! # Temp-file storage is lawful -/

set_option linter.unusedSimpArgs false

namespace SD

namespace Tmp

/-- Logical position of the buffered reader. -/
def pos (s : Tmp) : Nat := s.fp - s.rbuf.length

/-- The buffer agrees with the file. -/
def Agrees (s : Tmp) : Prop := s.rbuf.length ≤ s.fp ∧
  ∀ i, i < s.rbuf.length → s.rbuf[i]? = s.file[s.pos + i]?

theorem read_spec {s : Tmp} {n : Nat} {bs : List Byte} {s' : Tmp} (hf : s.Agrees)
    (h : s.read n = .ok (bs, s')) :
    bs.length ≤ n ∧ (∀ i, i < bs.length → s.file[s.pos + i]? = bs[i]?) ∧ s'.Agrees ∧
    s'.pos = s.pos + bs.length ∧ s'.file = s.file ∧ s'.wp = s.wp ∧
    (s.rbuf = [] → bs.length = min n (min (s.file.length - s.fp) (max n bufCap))) ∧
    (0 < n → s.pos < s.file.length → 0 < bs.length) := by
  obtain ⟨hle, hag⟩ := hf
  unfold Tmp.read at h
  split at h
  · next hnil =>
    simp only [hnil, pos, List.length_nil, Nat.sub_zero, Agrees] at *
    split at h
    · simp only [Res.ok.injEq, Prod.mk.injEq] at h
      obtain ⟨rfl, rfl⟩ := h
      refine ⟨by simp, ?_, ⟨by simp [hnil], by simp [hnil]⟩, by simp [hnil], rfl, rfl, ?_, ?_⟩
      · intro i hi
        simp only [List.length_take, List.length_drop] at hi
        rw [List.getElem?_take, if_pos (by omega), List.getElem?_drop]
      · intro _; simp; omega
      · intro h1 h2; simp; omega
    · simp only [Res.ok.injEq, Prod.mk.injEq] at h
      obtain ⟨rfl, rfl⟩ := h
      refine ⟨by simp, ?_, ⟨by simp; omega, ?_⟩, by simp; omega, rfl, rfl, ?_, ?_⟩
      · intro i hi
        simp only [List.length_take, List.length_drop] at hi
        rw [List.getElem?_take, if_pos (by omega), List.getElem?_take, if_pos (by omega),
          List.getElem?_drop]
      · intro i hi
        simp only [List.length_take, List.length_drop] at *
        rw [List.getElem?_drop, List.getElem?_take, if_pos (by omega), List.getElem?_drop]
        congr 1; omega
      · intro _; simp; omega
      · intro h1 h2; simp [bufCap] at *; omega
  · next hnil =>
    simp only [Res.ok.injEq, Prod.mk.injEq] at h
    obtain ⟨rfl, rfl⟩ := h
    have hpos : 0 < s.rbuf.length := List.length_pos_iff.mpr hnil
    refine ⟨by simp, ?_, ⟨by simp; omega, ?_⟩, by simp [pos]; omega, rfl, rfl, ?_, ?_⟩
    · intro i hi
      simp only [List.length_take] at hi
      rw [← hag i (by omega), List.getElem?_take, if_pos (by omega)]
    · intro i hi
      simp only [List.length_drop, pos] at *
      rw [List.getElem?_drop, hag _ (by omega)]
      congr 1; omega
    · intro hc; exact absurd hc hnil
    · intro h1 h2; simp; omega

theorem tell_spec (s : Tmp) : s.tell.1 = s.pos ∧ s.tell.2.rbuf = [] ∧ s.tell.2.pos = s.pos ∧
    s.tell.2.file = s.file ∧ s.tell.2.wp = s.wp := by
  simp [tell, pos]

end Tmp

/-- Temp-file storage keeps everything. -/
def tmpLawful : Lawful tmpStorage true where
  Inv s W := (Tmp.rbuf s).length ≤ Tmp.fp s ∧ ∀ q ∈ W, q < (Tmp.file s).length
  cell s q := (Tmp.file s)[q]?
  rpos s := Tmp.pos s
  Clean s := Tmp.rbuf s = []
  Fresh s := Tmp.Agrees s
  clean_fresh := by
    intro s W hi h
    refine ⟨hi.1, ?_⟩
    rw [h]; simp
  Exact _ := True
  Cut _ _ := False
  cut_pos h := h.elim
  cut_full h := h.elim
  exact_full _ _ := trivial
  exact_tell _ _ := trivial
  exact_read _ _ _ := trivial
  exact_write _ _ _ := trivial
  exact_rseek _ _ _ _ := trivial
  exact_wseek _ _ _ := trivial
  written_some := by
    intro _ s W q hinv hq
    have := hinv.2 q hq
    simp; omega
  tell_ok := by
    intro s W hinv
    refine ⟨rfl, ⟨by simp [Tmp.tell], hinv.2⟩, rfl, by simp [Tmp.tell, Tmp.pos], rfl, fun _ => rfl⟩
  read_ok := by
    intro s W n bs s' hinv hf h
    obtain ⟨h1, h2, h3, h4, h5, h6, _⟩ := Tmp.read_spec hf h
    refine ⟨h1, h2, ⟨h3.1, by rw [h5]; exact hinv.2⟩, h3, h4, h6, ?_⟩
    intro q; rw [h5]
  read_len := by
    intro s W n bs s' m hinv _ hc h hmn hW
    left
    have hc : s.rbuf = [] := hc
    have hag : s.Agrees := ⟨hinv.1, by rw [hc]; simp⟩
    obtain ⟨_, _, _, _, _, _, h7, _⟩ := Tmp.read_spec hag h
    have h7 := h7 hc
    by_cases hm : m = 0
    · omega
    have hlast := hinv.2 _ (hW (m - 1) (by omega))
    simp only [Tmp.pos, hc, List.length_nil, Nat.sub_zero] at hlast
    omega
  read_some := by
    intro _ s W n bs s' hinv hf h hn hW
    obtain ⟨_, _, _, _, _, _, h7, h8⟩ := Tmp.read_spec hf h
    exact List.length_pos_iff.mp (h8 hn (hinv.2 _ hW))
  rseek_ok := by
    intro s W p s' hinv h
    have h : Tmp.rseek s p = Res.ok s' := h
    simp only [Tmp.rseek, Res.ok.injEq] at h
    subst h
    exact ⟨⟨by simp, hinv.2⟩, rfl, by simp [Tmp.pos], rfl, fun _ => rfl⟩
  write_ok := by
    intro s W bs k s' hinv h
    have h : Tmp.write s bs = Res.ok (k, s') := h
    unfold Tmp.write at h
    split at h
    · next hnil =>
      simp only [Res.ok.injEq, Prod.mk.injEq] at h
      obtain ⟨rfl, rfl⟩ := h
      refine ⟨Nat.zero_le _, ⟨hinv.1, ?_⟩, id, rfl, rfl, ?_, ?_⟩
      · intro q hq
        simp at hq
        exact hinv.2 q hq
      · intro i hi; omega
      · intro q hq; exact Or.inl hq
    · simp only [Res.ok.injEq, Prod.mk.injEq] at h
      obtain ⟨rfl, rfl⟩ := h
      refine ⟨Nat.le_refl _, ⟨hinv.1, ?_⟩, id, rfl, rfl, ?_, ?_⟩
      · intro q hq
        rw [Finset.mem_union, Finset.mem_Ico] at hq
        simp only [length_splice]
        dsimp only at hq
        rcases hq with hq | hq
        · have := hinv.2 q hq; omega
        · omega
      · intro i hi
        simp only [getElem?_splice]
        rw [if_neg (by omega), if_pos (by omega)]
        congr 1; omega
      · intro q hq
        simp only [getElem?_splice] at hq
        dsimp only
        by_cases h1 : q < s.wp + bs.length
        · exact Or.inr h1
        · rw [if_neg (by omega), if_neg (by omega)] at hq
          exact Or.inl hq
  write_full := by
    intro _ s W bs k s' hinv h
    have h : Tmp.write s bs = Res.ok (k, s') := h
    unfold Tmp.write at h
    split at h
    · next hnil =>
      simp only [Res.ok.injEq, Prod.mk.injEq] at h
      obtain ⟨rfl, rfl⟩ := h
      exact ⟨fun h => absurd hnil h, fun q b _ hb => hb⟩
    · simp only [Res.ok.injEq, Prod.mk.injEq] at h
      obtain ⟨rfl, rfl⟩ := h
      refine ⟨List.length_pos_iff.mpr, ?_⟩
      intro q b hq hb
      dsimp only at hq
      simp only [getElem?_splice]
      have hlt : q < s.file.length := by
        by_contra hcon
        have : (s.file)[q]? = none := by simp; omega
        rw [this] at hb; simp at hb
      by_cases h1 : q < s.wp
      · rw [if_pos h1, if_pos hlt]; exact hb
      · rw [if_neg h1, if_neg (by omega)]; exact hb
  write_window := by intro h; simp at h
  wseek_ok := by
    intro s W p s' hinv _ h
    have h : Res.ok { s with wp := p } = Res.ok s' := h
    simp only [Res.ok.injEq] at h
    subst h
    exact ⟨hinv, id, rfl, rfl, fun _ => rfl⟩

theorem tmpTotal : Total tmpLawful where
  read_total := by
    intro s W n hinv hW
    have h2 : ∃ r, Tmp.read s n = .ok r := by
      unfold Tmp.read
      split
      · split
        · exact ⟨_, rfl⟩
        · exact ⟨_, rfl⟩
      · exact ⟨_, rfl⟩
    exact h2
  rseek_total := fun _ => ⟨_, rfl⟩
  write_total := by
    intro s W bs _
    have h2 : ∃ r, Tmp.write s bs = .ok r := by
      unfold Tmp.write
      split
      · exact ⟨_, rfl⟩
      · exact ⟨_, rfl⟩
    exact h2
  wseek_total := fun _ => ⟨_, rfl⟩

/-- `TempStorageProvider` creates a lawful storage. -/
def tmpLawfulProvider (cl : Option Nat) : LawfulProvider tmpProvider true cl where
  law := tmpLawful
  create_ok := by
    intro s h
    have h : Tmp.mk? cl = Res.ok s := h
    simp only [Tmp.mk?, Res.ok.injEq] at h
    subst h
    refine ⟨⟨by simp, by simp⟩, trivial, rfl, rfl, rfl, ?_⟩
    intro q hq
    simp [tmpLawful] at hq

end SD
