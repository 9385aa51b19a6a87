import Verif.Spec.Storage
import Verif.Model.Memory

/-! # Memory storage is lawful -/

set_option linter.unusedSimpArgs false

namespace SD

theorem length_splice (f : List Byte) (p : Nat) (bs : List Byte) :
    (splice f p bs).length = max f.length (p + bs.length) := by
  simp [splice]; omega

theorem getElem?_splice (f : List Byte) (p : Nat) (bs : List Byte) (q : Nat) :
    (splice f p bs)[q]? =
      if q < p then (if q < f.length then f[q]? else some 0)
      else if q < p + bs.length then bs[q - p]? else f[q]? := by
  unfold splice
  by_cases h1 : q < p
  · simp only [h1, if_true]
    by_cases h2 : q < f.length
    · simp only [h2, if_true]
      rw [List.append_assoc, List.append_assoc, List.getElem?_append_left (by simp; omega)]
      simp [h1]
    · simp only [h2, if_false]
      rw [List.append_assoc, List.getElem?_append_left (by simp; omega),
        List.getElem?_append_right (by simp; omega)]
      rw [List.getElem?_replicate]
      simp; omega
  · simp only [h1, if_false]
    by_cases h2 : q < p + bs.length
    · simp only [h2, if_true]
      rw [List.getElem?_append_left (by simp; omega), List.getElem?_append_right (by simp; omega)]
      congr 1; simp; omega
    · simp only [h2, if_false]
      rw [List.getElem?_append_right (by simp; omega), List.getElem?_drop]
      congr 1; simp; omega

/-- `stream_position()` is `seek(SeekFrom::Current(0))`; it returns the position. -/
theorem addCast_zero (checks : Bool) {p : Nat} (h : p < two63) : addCast checks p 0 = .ok p := by
  have h1 : toI64 p = (p : Int) := by
    unfold toI64; simp only [two63, two64] at *; omega
  unfold addCast
  rw [h1]
  have h2 : toU64 ((p : Int) + 0) = p := by
    unfold toU64; simp only [two63, two64] at *; omega
  rw [h2]
  simp only [two63] at *
  have : ¬ (9223372036854775808 : Int) ≤ (p : Int) := by omega
  have : ¬ ((p : Int) < -9223372036854775808) := by omega
  simp [*]

theorem Mem.seekPos_current_zero (checks : Bool) (s : Mem) {p : Nat} (h : p < two63) :
    Mem.seekPos checks s p (.current 0) = .ok p := addCast_zero checks h

theorem Mem.read_eq {s : Mem} {n : Nat} {bs : List Byte} {s' : Mem} (h : s.read n = .ok (bs, s')) :
    s.rp ≤ s.buf.length ∧ bs.length = min (min (s.buf.length - s.rp) s.written) n ∧
    bs = (s.buf.drop s.rp).take bs.length ∧ s' = { s with rp := s.rp + bs.length } := by
  unfold Mem.read at h
  dsimp only at h
  split at h
  · simp at h
  · next hle =>
    simp only [Res.ok.injEq, Prod.mk.injEq] at h
    obtain ⟨rfl, rfl⟩ := h
    have hl : ((s.buf.drop s.rp).take (min (min (s.buf.length - s.rp) s.written) n)).length =
        min (min (s.buf.length - s.rp) s.written) n := by simp
    rw [hl]
    exact ⟨by omega, rfl, rfl, rfl⟩

/-- Memory storage keeps everything. -/
def memLawful : Lawful memStorage true where
  Inv s W := W.card ≤ Mem.written s ∧ ∀ q ∈ W, q < (Mem.buf s).length
  cell s q := (Mem.buf s)[q]?
  rpos s := Mem.rp s
  Clean _ := True
  Fresh _ := True
  clean_fresh _ _ := trivial
  Exact _ := True
  Cut _ _ := False
  cut_pos h := h.elim
  cut_full h := h.elim
  exact_full _ _ := trivial
  exact_tell _ _ := trivial
  exact_read _ _ _ := trivial
  exact_write _ _ _ := trivial
  exact_rseek _ _ _ _ := trivial
  exact_wseek _ _ _ := trivial
  written_some := by
    intro _ s W q hinv hq
    have := hinv.2 q hq
    simp; omega
  tell_ok h := ⟨rfl, h, trivial, rfl, rfl, fun _ => rfl⟩
  read_ok := by
    intro s W n bs s' hinv _ h
    obtain ⟨h1, h2, h3, h4⟩ := Mem.read_eq h
    subst h4
    refine ⟨by omega, ?_, hinv, trivial, rfl, rfl, fun _ => rfl⟩
    intro i hi
    conv => rhs; rw [h3]
    rw [List.getElem?_take, List.getElem?_drop]
    simp [hi]
  read_len := by
    intro s W n bs s' m hinv _ _ h hmn hW
    left
    obtain ⟨h1, h2, h3, h4⟩ := Mem.read_eq h
    by_cases hm : m = 0
    · omega
    have hlast := hinv.2 _ (hW (m - 1) (by omega))
    have hsub : Finset.Ico (Mem.rp s) (Mem.rp s + m) ⊆ W := by
      intro q hq
      rw [Finset.mem_Ico] at hq
      have := hW (q - Mem.rp s) (by omega)
      rwa [Nat.add_sub_cancel' hq.1] at this
    have hc := Finset.card_le_card hsub
    rw [Nat.card_Ico] at hc
    have := hinv.1
    omega
  read_some := by
    intro _ s W n bs s' hinv _ h hn hW
    obtain ⟨h1, h2, h3, h4⟩ := Mem.read_eq h
    have h5 := hinv.2 _ hW
    have h6 := Finset.card_pos.mpr ⟨_, hW⟩
    have h7 := hinv.1
    intro h8
    rw [h8, List.length_nil] at h2
    omega
  rseek_ok := by
    intro s W p s' hinv h
    have h : Res.ok { s with rp := p } = Res.ok s' := h
    simp only [Res.ok.injEq] at h
    subst h
    exact ⟨hinv, trivial, rfl, rfl, fun _ => rfl⟩
  write_ok := by
    intro s W bs k s' hinv h
    have h : Mem.write s bs = Res.ok (k, s') := h
    simp only [Mem.write, Res.ok.injEq, Prod.mk.injEq] at h
    obtain ⟨rfl, rfl⟩ := h
    refine ⟨Nat.le_refl _, ⟨?_, ?_⟩, fun _ => trivial, rfl, rfl, ?_, ?_⟩
    · refine Nat.le_trans (Finset.card_union_le _ _) ?_
      rw [Nat.card_Ico]
      have := hinv.1
      dsimp only
      omega
    · intro q hq
      rw [Finset.mem_union, Finset.mem_Ico] at hq
      simp only [length_splice]
      dsimp only at hq
      rcases hq with hq | hq
      · have := hinv.2 q hq; omega
      · omega
    · intro i hi
      simp only [getElem?_splice]
      rw [if_neg (by omega), if_pos (by omega)]
      congr 1; omega
    · intro q hq
      simp only [getElem?_splice] at hq
      dsimp only
      by_cases h1 : q < s.wp + bs.length
      · exact Or.inr h1
      · rw [if_neg (by omega), if_neg (by omega)] at hq
        exact Or.inl hq
  write_full := by
    intro _ s W bs k s' hinv h
    have h : Mem.write s bs = Res.ok (k, s') := h
    simp only [Mem.write, Res.ok.injEq, Prod.mk.injEq] at h
    obtain ⟨rfl, rfl⟩ := h
    refine ⟨List.length_pos_iff.mpr, ?_⟩
    intro q b hq hb
    dsimp only at hq
    simp only [getElem?_splice]
    have hlt : q < s.buf.length := by
      by_contra hcon
      have : (s.buf)[q]? = none := by simp; omega
      rw [this] at hb; simp at hb
    by_cases h1 : q < s.wp
    · rw [if_pos h1, if_pos hlt]; exact hb
    · rw [if_neg h1, if_neg (by omega)]; exact hb
  write_window := by intro h; simp at h
  wseek_ok := by
    intro s W p s' hinv _ h
    have h : Res.ok { s with wp := p } = Res.ok s' := h
    simp only [Res.ok.injEq] at h
    subst h
    exact ⟨hinv, fun _ => trivial, rfl, rfl, fun _ => rfl⟩

theorem memTotal : Total memLawful where
  read_total := by
    intro s W n hinv hW
    have h1 := hinv.2 _ hW
    have h1 : s.rp < s.buf.length := h1
    have h2 : ∃ r, Mem.read s n = .ok r := by
      unfold Mem.read
      dsimp only
      rw [if_neg (by omega)]
      exact ⟨_, rfl⟩
    exact h2
  rseek_total := fun _ => ⟨_, rfl⟩
  write_total := fun _ => ⟨_, rfl⟩
  wseek_total := fun _ => ⟨_, rfl⟩

/-- `MemoryStorageProvider` creates a lawful storage. -/
def memLawfulProvider (cl : Option Nat) : LawfulProvider memProvider true cl where
  law := memLawful
  create_ok := by
    intro s h
    have h : Mem.mk? cl = Res.ok s := h
    simp only [Mem.mk?, Res.ok.injEq] at h
    subst h
    refine ⟨⟨by simp, by simp⟩, trivial, trivial, rfl, rfl, ?_⟩
    intro q hq
    refine ⟨rfl, ?_⟩
    cases cl with
    | none => simp [memLawful] at hq
    | some n =>
      refine ⟨n, rfl, ?_⟩
      by_contra hcon
      apply hq
      simp [memLawful]; omega

end SD
