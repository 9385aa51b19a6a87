import Verif.Spec.ByteMap
import Verif.Proof.Memory
import Verif.Proof.Temp

/-! # Memory and temp-file storage refine the abstract file -/

set_option linter.unusedSimpArgs false

namespace SD

/-- `l` holds the contents of the abstract file. -/
def BMap.Holds (f : BMap) (l : List Byte) : Prop :=
  l.length = f.len ∧ ∀ q, q < f.len → l[q]? = some ((f.val q).getD 0)

theorem BMap.Holds.bytes {f : BMap} {l : List Byte} (h : f.Holds l) {p m : Nat}
    (hm : p + m ≤ f.len ∨ m = 0) : (l.drop p).take m = f.bytes p m := by
  apply List.ext_getElem?
  intro i
  simp only [BMap.bytes, List.getElem?_map]
  by_cases hi : i < m
  · rw [List.getElem?_take, if_pos hi, List.getElem?_drop, h.2 _ (by omega),
      List.getElem?_range hi]
    rfl
  · rw [List.getElem?_eq_none (by simp; omega), List.getElem?_eq_none (by simp; omega)]
    rfl

theorem BMap.Holds.write {f : BMap} {l : List Byte} (h : f.Holds l)
    (hn : ∀ q, f.len ≤ q → f.val q = none) (bs : List Byte) :
    (f.write bs).Holds (splice l f.wp bs) ∧ ∀ q, (f.write bs).len ≤ q → (f.write bs).val q = none := by
  refine ⟨⟨?_, ?_⟩, ?_⟩
  · rw [length_splice, h.1]
    simp only [BMap.write]
  · intro q hq
    rw [getElem?_splice]
    simp only [BMap.write, BMap.put] at hq ⊢
    by_cases h1 : q < f.wp
    · rw [if_pos h1, if_neg (show ¬(f.wp ≤ q ∧ q < f.wp + bs.length) by omega), h.1]
      by_cases h2 : q < f.len
      · rw [if_pos h2, h.2 q h2]
      · rw [if_neg h2, hn q (by omega)]; rfl
    · rw [if_neg h1]
      by_cases h2 : q < f.wp + bs.length
      · rw [if_pos h2, if_pos ⟨by omega, h2⟩]
        have : q - f.wp < bs.length := by omega
        simp [this]
      · rw [if_neg h2, if_neg (by omega)]
        exact h.2 q (by omega)
  · intro q hq
    simp only [BMap.write, BMap.put] at hq ⊢
    rw [if_neg (by omega)]
    exact hn q (by omega)

/-- A memory storage represents an abstract file. -/
structure Mem.Sim (s : Mem) (f : BMap) : Prop where
  holds : f.Holds s.buf
  none : ∀ q, f.len ≤ q → f.val q = none
  total : s.written = f.total
  rp : s.rp = f.rp
  wp : s.wp = f.wp

theorem Mem.Sim.step {s : Mem} {f : BMap} (h : s.Sim f) (op : FOp) :
    (memStorage.doF s op).1 = (f.memStep op).1 ∧ Mem.Sim (memStorage.doF s op).2 (f.memStep op).2 := by
  obtain ⟨h1, h2, h3, h4, h5⟩ := h
  cases op with
  | write bs =>
    obtain ⟨a1, a2⟩ := h1.write h2 bs
    refine ⟨rfl, ⟨?_, a2, ?_, h4, ?_⟩⟩
    · simp only [Storage.doF, Mem.write, h5]; exact a1
    · simp only [Storage.doF, Mem.write, BMap.memStep, BMap.write, h3]
    · simp only [Storage.doF, Mem.write, BMap.memStep, BMap.write, h5]
  | wseek p => exact ⟨rfl, ⟨h1, h2, h3, h4, rfl⟩⟩
  | rseek p => exact ⟨rfl, ⟨h1, h2, h3, rfl, h5⟩⟩
  | read n =>
    have hl := h1.1
    by_cases hc : f.len < f.rp
    · have hr : s.read n = .panic := by
        unfold Mem.read
        dsimp only
        rw [if_pos (by omega)]
      simp only [Storage.doF, hr, BMap.memStep, if_pos hc, true_and]
      exact ⟨h1, h2, h3, h4, h5⟩
    · have hr : s.read n = .ok (f.bytes f.rp (min (min (f.len - f.rp) f.total) n),
          { s with rp := s.rp + min (min (f.len - f.rp) f.total) n }) := by
        unfold Mem.read
        dsimp only
        rw [if_neg (by omega), hl, h3, h4, h1.bytes (by omega)]
      simp only [Storage.doF, hr, BMap.memStep, if_neg hc, true_and]
      exact ⟨h1, h2, h3, by simp only [h4], h5⟩

theorem Mem.Sim.outputs (ops : List FOp) : ∀ {s : Mem} {f : BMap}, s.Sim f →
    memStorage.outputsF s ops = f.outputs BMap.memStep ops ∧
    Mem.Sim (memStorage.afterF s ops) (f.after BMap.memStep ops) := by
  induction ops with
  | nil => intro s f h; exact ⟨rfl, h⟩
  | cons op ops ih =>
    intro s f h
    obtain ⟨a1, a2⟩ := h.step op
    obtain ⟨b1, b2⟩ := ih a2
    exact ⟨by simp only [Storage.outputsF, BMap.outputs, a1, b1], b2⟩

theorem Mem.Sim.init {cl : Option Nat} {s : Mem} (h : Mem.mk? cl = .ok s) :
    s.Sim (BMap.empty (cl.getD 0)) := by
  simp only [Mem.mk?, Res.ok.injEq] at h
  subst h
  refine ⟨⟨by simp [BMap.empty], ?_⟩, fun _ _ => rfl, rfl, rfl, rfl⟩
  intro q hq
  simp only [BMap.empty] at hq
  simp [hq, BMap.empty]

/-- A temp-file storage represents an abstract file. -/
structure Tmp.Sim (s : Tmp) (f : BMap) : Prop where
  holds : f.Holds s.file
  none : ∀ q, f.len ≤ q → f.val q = none
  buf : s.rbuf.length ≤ s.fp
  rp : s.fp - s.rbuf.length = f.rp
  wp : s.wp = f.wp

theorem Tmp.Sim.step {s : Tmp} {f : BMap} (h : s.Sim f) (op : FOp) :
    (tmpStorage.doF s op).1 = (f.fileStep op).1 ∧
    Tmp.Sim (tmpStorage.doF s op).2 (f.fileStep op).2 := by
  obtain ⟨h1, h2, h3, h4, h5⟩ := h
  cases op with
  | write bs =>
    by_cases hb : bs = []
    · simp only [Storage.doF, Tmp.write, BMap.fileStep, if_pos hb, true_and]
      exact ⟨h1, h2, h3, h4, h5⟩
    · simp only [Storage.doF, Tmp.write, BMap.fileStep, if_neg hb, true_and]
      obtain ⟨a1, a2⟩ := h1.write h2 bs
      rw [← h5] at a1
      exact ⟨a1, a2, h3, h4, by simp only [BMap.write, h5]⟩
  | wseek p => exact ⟨rfl, ⟨h1, h2, h3, h4, rfl⟩⟩
  | rseek p => exact ⟨rfl, ⟨h1, h2, by simp [Storage.doF, Tmp.rseek], by simp [Storage.doF, Tmp.rseek, BMap.fileStep], h5⟩⟩
  | read n =>
    have hl := h1.1
    have hb := h1.bytes (p := f.rp) (m := min n (f.len - f.rp)) (by omega)
    have ht : (s.file.drop f.rp).take (min n (f.len - f.rp)) = (s.file.drop f.rp).take n := by
      by_cases hn : n ≤ f.len - f.rp
      · rw [Nat.min_eq_left hn]
      · rw [Nat.min_eq_right (by omega), List.take_of_length_le (by simp; omega),
          List.take_of_length_le (by simp; omega)]
    rw [ht] at hb
    by_cases hcap : Tmp.bufCap ≤ n
    · simp only [Storage.doF, Tmp.tell, Tmp.read, if_true, if_pos hcap, h4, BMap.fileStep, hb,
        true_and]
      have hbl : (f.bytes f.rp (min n (f.len - f.rp))).length = min n (f.len - f.rp) := by
        simp [BMap.bytes]
      refine ⟨h1, h2, by simp, ?_, h5⟩
      simp only [List.length_nil, Nat.sub_zero, hbl]
    · simp only [Storage.doF, Tmp.tell, Tmp.read, if_true, if_neg hcap, h4, BMap.fileStep]
      refine ⟨?_, h1, h2, by simp; omega, ?_, h5⟩
      · rw [List.take_take, Nat.min_eq_left (by omega), hb]
      · simp only [List.length_drop, List.length_take]; omega

theorem Tmp.Sim.outputs (ops : List FOp) : ∀ {s : Tmp} {f : BMap}, s.Sim f →
    tmpStorage.outputsF s ops = f.outputs BMap.fileStep ops ∧
    Tmp.Sim (tmpStorage.afterF s ops) (f.after BMap.fileStep ops) := by
  induction ops with
  | nil => intro s f h; exact ⟨rfl, h⟩
  | cons op ops ih =>
    intro s f h
    obtain ⟨a1, a2⟩ := h.step op
    obtain ⟨b1, b2⟩ := ih a2
    exact ⟨by simp only [Storage.outputsF, BMap.outputs, a1, b1], b2⟩

theorem Tmp.Sim.init {cl : Option Nat} {s : Tmp} (h : Tmp.mk? cl = .ok s) :
    s.Sim (BMap.empty 0) := by
  simp only [Tmp.mk?, Res.ok.injEq] at h
  subst h
  exact ⟨⟨rfl, fun q hq => absurd hq (Nat.not_lt_zero _)⟩, fun _ _ => rfl, Nat.le_refl _, rfl, rfl⟩

end SD
