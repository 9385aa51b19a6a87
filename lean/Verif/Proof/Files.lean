import Verif.Spec.Files

/-! # Invariants of temporary files on a shared disk -/

namespace SD

namespace Files

/-- Names lead to files that exist, no two streams have the same file, and only its reader's
name leads to a stream's file. -/
structure FInv (w : Files) : Prop where
  lt : ∀ p n, w.names p = some n → n < w.next
  slt : ∀ i s, w.streams i = some s → s.ino < w.next
  inj : ∀ i j s t, w.streams i = some s → w.streams j = some t → s.ino = t.ino → i = j
  named : ∀ i s p, w.streams i = some s → w.names p = some s.ino → p = s.path ∧ s.reader = true

/-- What a step changes. -/
theorem step_inv {osDir : String} {w w' : Files} {a : FileAct} {out}
    (hs : w.step osDir a = some (out, w')) :
    match a with
    | .make i o rand => w.streams i = none ∧ w.names (o.place osDir rand) = none ∧ out = none ∧
        (∀ x, w'.names x = if x = o.place osDir rand then some w.next else w.names x) ∧
        (∀ x, w'.data x = if x = w.next then [] else w.data x) ∧
        w'.next = w.next + 1 ∧ (∀ x, w'.streams x = if x = i then (some
          { path := o.place osDir rand, ino := w.next, isOpen := false, reader := true
            writer := false, wp := 0, fp := 0, rbuf := [] }) else w.streams x)
    | .finish i _ => ∃ s, w.streams i = some s ∧ s.reader = true ∧ out = none ∧
        (∀ x, w'.data x = w.data x) ∧
        w'.next = w.next ∧
        (((∀ x, w'.names x = w.names x) ∧
            (∀ x, w'.streams x = if x = i then some { s with isOpen := true, writer := true }
              else w.streams x)) ∨
          ((∀ x, w'.names x = if x = s.path then none else w.names x) ∧
            (∀ x, w'.streams x = if x = i then some { s with reader := false } else w.streams x)))
    | .op i o => ∃ s, w.streams i = some s ∧ out = some (i, ((w.view s).op o).1) ∧
        (∀ x, w'.names x = w.names x) ∧ w'.next = w.next ∧
        (∀ x, w'.data x = if x = s.ino then ((w.view s).op o).2.file else w.data x) ∧
        (∀ x, w'.streams x = if x = i then (some { s with
          wp := ((w.view s).op o).2.wp, fp := ((w.view s).op o).2.fp
          rbuf := ((w.view s).op o).2.rbuf }) else w.streams x)
    | .dropReader i => ∃ s, w.streams i = some s ∧ s.reader = true ∧ out = none ∧
        (∀ x, w'.data x = w.data x) ∧
        w'.next = w.next ∧ (∀ x, w'.names x = if x = s.path then none else w.names x) ∧
        (∀ x, w'.streams x = if x = i then some { s with reader := false } else w.streams x)
    | .dropWriter i => ∃ s, w.streams i = some s ∧ out = none ∧ (∀ x, w'.data x = w.data x) ∧
        w'.next = w.next ∧ (∀ x, w'.names x = w.names x) ∧
        (∀ x, w'.streams x = if x = i then some { s with writer := false } else w.streams x)
    | .otherMakes p => w.names p = none ∧ out = none ∧
        (∀ x, w'.names x = if x = p then some w.next else w.names x) ∧
        (∀ x, w'.data x = if x = w.next then [] else w.data x) ∧ w'.next = w.next + 1 ∧
        (∀ x, w'.streams x = w.streams x)
    | .otherRemoves p => out = none ∧ (∀ x, w'.names x = if x = p then none else w.names x) ∧
        (∀ x, w'.data x = w.data x) ∧ w'.next = w.next ∧ (∀ x, w'.streams x = w.streams x)
    | .otherWrites ino bs => ino < w.next ∧ out = none ∧ (∀ x, w'.names x = w.names x) ∧
        (∀ x, w'.data x = if x = ino then bs else w.data x) ∧ w'.next = w.next ∧
        (∀ x, w'.streams x = w.streams x) := by
  cases a with
  | make i o rand =>
    simp only [Files.step, make] at hs
    split at hs
    · simp only [Option.map_some, Option.some.injEq, Prod.mk.injEq] at hs
      obtain ⟨rfl, rfl⟩ := hs
      exact ⟨by assumption, by assumption, (by intros; rfl), (by intros; rfl), (by intros; rfl),
        (by intros; rfl), (by intros; rfl)⟩
    · simp at hs
  | finish i dup =>
    simp only [Files.step, finish] at hs
    split at hs
    · simp at hs
    · rename_i s he
      split at hs
      · simp at hs
      · rename_i hn
        have hr : s.reader = true := by
          cases h : s.reader
          · exact absurd (Or.inr h) hn
          · rfl
        split at hs
        · simp only [Option.map_some, Option.some.injEq, Prod.mk.injEq] at hs
          obtain ⟨rfl, rfl⟩ := hs
          exact ⟨s, he, hr, (by intros; rfl), (by intros; rfl), (by intros; rfl),
            .inl ⟨(by intros; rfl), (by intros; rfl)⟩⟩
        · simp only [Option.map_some, Option.some.injEq, Prod.mk.injEq] at hs
          obtain ⟨rfl, rfl⟩ := hs
          exact ⟨s, he, hr, (by intros; rfl), (by intros; rfl), (by intros; rfl),
            .inr ⟨(by intros; rfl), (by intros; rfl)⟩⟩
  | op i o =>
    simp only [Files.step, Files.op] at hs
    split at hs
    · simp at hs
    · rename_i s he
      split at hs
      · simp only [Option.map_some, Option.some.injEq, Prod.mk.injEq] at hs
        obtain ⟨rfl, rfl⟩ := hs
        exact ⟨s, he, (by intros; rfl), (by intros; rfl), (by intros; rfl), (by intros; rfl),
          (by intros; rfl)⟩
      · simp at hs
  | dropReader i =>
    simp only [Files.step, Files.dropReader] at hs
    split at hs
    · simp at hs
    · rename_i s he
      split at hs
      · rename_i hc
        simp only [Option.map_some, Option.some.injEq, Prod.mk.injEq] at hs
        obtain ⟨rfl, rfl⟩ := hs
        exact ⟨s, he, hc.2, (by intros; rfl), (by intros; rfl), (by intros; rfl),
          (by intros; rfl), (by intros; rfl)⟩
      · simp at hs
  | dropWriter i =>
    simp only [Files.step, Files.dropWriter] at hs
    split at hs
    · simp at hs
    · rename_i s he
      split at hs
      · simp only [Option.map_some, Option.some.injEq, Prod.mk.injEq] at hs
        obtain ⟨rfl, rfl⟩ := hs
        exact ⟨s, he, (by intros; rfl), (by intros; rfl), (by intros; rfl), (by intros; rfl),
          (by intros; rfl)⟩
      · simp at hs
  | otherMakes p =>
    simp only [Files.step] at hs
    split at hs
    · simp only [Option.some.injEq, Prod.mk.injEq] at hs
      obtain ⟨rfl, rfl⟩ := hs
      exact ⟨by assumption, (by intros; rfl), (by intros; rfl), (by intros; rfl),
        (by intros; rfl), (by intros; rfl)⟩
    · simp at hs
  | otherRemoves p =>
    simp only [Files.step, Option.some.injEq, Prod.mk.injEq] at hs
    obtain ⟨rfl, rfl⟩ := hs
    exact ⟨(by intros; rfl), (by intros; rfl), (by intros; rfl), (by intros; rfl), (by intros; rfl)⟩
  | otherWrites ino bs =>
    simp only [Files.step] at hs
    split at hs
    · simp only [Option.some.injEq, Prod.mk.injEq] at hs
      obtain ⟨rfl, rfl⟩ := hs
      exact ⟨by assumption, (by intros; rfl), (by intros; rfl), (by intros; rfl),
        (by intros; rfl), (by intros; rfl)⟩
    · simp at hs

theorem FInv.before {w : Files} (h : w.Before) : FInv w :=
  ⟨h.2, fun i s hs => by simp [h.1] at hs, fun i j s t hs => by simp [h.1] at hs,
    fun i s p hs => by simp [h.1] at hs⟩

theorem FInv.step {osDir : String} {w w' : Files} {a : FileAct} {out} (h : FInv w)
    (hs : w.step osDir a = some (out, w')) : FInv w' := by
  obtain ⟨h1, h2, h3, h4⟩ := h
  cases a with
  | make i o rand =>
    have hs := step_inv hs
    simp only at hs
    constructor <;> grind
  | finish i dup =>
    have hs := step_inv hs
    simp only at hs
    constructor <;> grind
  | op i o =>
    have hs := step_inv hs
    simp only at hs
    constructor <;> grind
  | dropReader i =>
    have hs := step_inv hs
    simp only at hs
    constructor <;> grind
  | dropWriter i =>
    have hs := step_inv hs
    simp only at hs
    constructor <;> grind
  | otherMakes p =>
    have hs := step_inv hs
    simp only at hs
    constructor <;> grind
  | otherRemoves p =>
    have hs := step_inv hs
    simp only at hs
    constructor <;> grind
  | otherWrites ino bs =>
    have hs := step_inv hs
    simp only at hs
    constructor <;> grind

/-- What stream `i` sees, before it is made too. -/
def seen (w : Files) (i : Nat) : Tmp :=
  match w.streams i with
  | none => { file := [], wp := 0, fp := 0, rbuf := [] }
  | some s => w.view s

/-- A step of stream `i` on its file is one on a file of its own; other steps do not change
what it sees. -/
theorem seen_step {osDir : String} {w w' : Files} {a : FileAct} {out} (h : FInv w)
    (hs : w.step osDir a = some (out, w'))
    (hn : ∀ ino bs, a = .otherWrites ino bs → ∀ i s, w.streams i = some s → s.ino ≠ ino) (i : Nat) :
    (∀ o, a = .op i o → out = some (i, ((w.seen i).op o).1) ∧ w'.seen i = ((w.seen i).op o).2) ∧
    ((∀ o, a ≠ .op i o) → (∀ r, out = some r → r.1 ≠ i) ∧ w'.seen i = w.seen i) := by
  obtain ⟨h1, h2, h3, h4⟩ := h
  cases a with
  | make j o rand =>
    have hs := step_inv hs
    simp only at hs
    grind [seen, view]
  | finish j dup =>
    have hs := step_inv hs
    simp only at hs
    grind [seen, view]
  | op j o =>
    have hs := step_inv hs
    simp only at hs
    constructor
    · rintro o' ⟨⟩
      obtain ⟨s, he, hout, -, -, hd, hst⟩ := hs
      have e : w.seen i = w.view s := by simp [seen, he]
      have e' := hst i
      simp only [if_true] at e'
      rw [e]
      refine ⟨hout, ?_⟩
      simp only [seen, e']
      simp only [view, hd, if_true]
    · intro hne
      have hj : j ≠ i := by
        intro e
        exact hne o (by rw [e])
      grind [seen, view]
  | dropReader j =>
    have hs := step_inv hs
    simp only at hs
    grind [seen, view]
  | dropWriter j =>
    have hs := step_inv hs
    simp only at hs
    grind [seen, view]
  | otherMakes p =>
    have hs := step_inv hs
    simp only at hs
    grind [seen, view]
  | otherRemoves p =>
    have hs := step_inv hs
    simp only at hs
    grind [seen, view]
  | otherWrites ino bs =>
    have hs := step_inv hs
    simp only at hs
    grind [seen, view]

theorem run_cons {osDir : String} {w w' : Files} {a : FileAct} {as : List FileAct} {outs}
    (h : w.run osDir (a :: as) = some (outs, w')) :
    ∃ out w1 rest, w.step osDir a = some (out, w1) ∧ w1.run osDir as = some (rest, w') ∧
      outs = out.toList ++ rest := by
  simp only [Files.run] at h
  split at h
  · cases h
  · rename_i out w1 hs
    cases hr : w1.run osDir as with
    | none => simp [hr] at h
    | some r =>
      simp only [hr, Option.map_some, Option.some.injEq, Prod.mk.injEq] at h
      exact ⟨out, w1, r.1, hs, by rw [hr, ← h.2], h.1.symm⟩

theorem FInv.run {osDir : String} {as : List FileAct} : ∀ {w w' : Files} {outs}, FInv w →
    w.run osDir as = some (outs, w') → FInv w' := by
  induction as with
  | nil =>
    intro w w' outs h hr
    simp only [Files.run, Option.some.injEq, Prod.mk.injEq] at hr
    rwa [← hr.2]
  | cons a as ih =>
    intro w w' outs h hr
    obtain ⟨out, w1, rest, hs, hr', -⟩ := run_cons hr
    exact ih (h.step hs) hr'

theorem alone_run {osDir : String} {as : List FileAct} (i : Nat) : ∀ {w w' : Files} {outs}, FInv w →
    w.NotWritten osDir as → w.run osDir as = some (outs, w') →
    outsOf i outs = alone (w.seen i) (opsOf i as) := by
  induction as with
  | nil =>
    intro w w' outs h hn hr
    simp only [Files.run, Option.some.injEq, Prod.mk.injEq] at hr
    simp [← hr.1, outsOf, opsOf, alone]
  | cons a as ih =>
    intro w w' outs h hn hr
    obtain ⟨out, w1, rest, hs, hr', rfl⟩ := run_cons hr
    have hrec := ih (h.step hs) (hn.2 _ _ hs) hr'
    obtain ⟨k1, k2⟩ := seen_step h hs hn.1 i
    by_cases ho : ∃ o, a = .op i o
    · obtain ⟨o, rfl⟩ := ho
      obtain ⟨e1, e2⟩ := k1 o rfl
      subst e1
      rw [e2] at hrec
      simp only [opsOf, if_true, alone]
      rw [← hrec]
      simp [outsOf]
    · obtain ⟨e1, e2⟩ := k2 (fun o e => ho ⟨o, e⟩)
      rw [e2] at hrec
      have hops : opsOf i (a :: as) = opsOf i as := by
        cases a <;> simp only [opsOf]
        rename_i j o
        have : j ≠ i := fun e => ho ⟨o, by rw [e]⟩
        simp [this]
      rw [hops, ← hrec]
      cases out with
      | none => simp [outsOf]
      | some r => simp [outsOf, e1 r rfl]

/-- As long as nobody takes it away, the name of a file leads to it while it is read. -/
def Kept (w : Files) : Prop :=
  ∀ i s, w.streams i = some s → s.reader = true → w.names s.path = some s.ino

theorem Kept.step {osDir : String} {w w' : Files} {a : FileAct} {out} (h : FInv w) (hk : w.Kept)
    (hn : ∀ p, a = .otherRemoves p → ∀ i s, w.streams i = some s → s.reader = true → s.path ≠ p)
    (hs : w.step osDir a = some (out, w')) : w'.Kept := by
  obtain ⟨h1, h2, h3, h4⟩ := h
  intro i s hi hr
  have hk' := hk i
  cases a with
  | make j o rand =>
    have hs := step_inv hs
    simp only at hs
    grind
  | finish j dup =>
    have hkj := hk j
    have hs := step_inv hs
    simp only at hs
    grind
  | op j o =>
    have hs := step_inv hs
    simp only at hs
    grind
  | dropReader j =>
    have hkj := hk j
    have hs := step_inv hs
    simp only at hs
    grind
  | dropWriter j =>
    have hs := step_inv hs
    simp only at hs
    grind
  | otherMakes p =>
    have hs := step_inv hs
    simp only at hs
    grind
  | otherRemoves p =>
    have hn' := hn p rfl
    have hs := step_inv hs
    simp only at hs
    grind
  | otherWrites ino bs =>
    have hs := step_inv hs
    simp only at hs
    grind

theorem Kept.run {osDir : String} {as : List FileAct} : ∀ {w w' : Files} {outs}, FInv w → w.Kept →
    w.NotRemoved osDir as → w.run osDir as = some (outs, w') → w'.Kept := by
  induction as with
  | nil =>
    intro w w' outs h hk hn hr
    simp only [Files.run, Option.some.injEq, Prod.mk.injEq] at hr
    rwa [← hr.2]
  | cons a as ih =>
    intro w w' outs h hk hn hr
    obtain ⟨out, w1, rest, hs, hr', -⟩ := run_cons hr
    exact ih (h.step hs) (hk.step h hn.1 hs) (hn.2 _ _ hs) hr'

/-- A file that is no stream's and that other programs leave alone. -/
theorem foreign_step {osDir : String} {w w' : Files} {a : FileAct} {out} {p : Path} {n : Nat}
    (h : FInv w) (hk : w.Kept) (hp : w.names p = some n)
    (hf : ∀ i s, w.streams i = some s → s.ino ≠ n)
    (ha : a ≠ .otherRemoves p ∧ ∀ bs, a ≠ .otherWrites n bs)
    (hs : w.step osDir a = some (out, w')) :
    w'.names p = some n ∧ w'.data n = w.data n ∧ ∀ i s, w'.streams i = some s → s.ino ≠ n := by
  obtain ⟨h1, h2, h3, h4⟩ := h
  have hpn := h1 p n hp
  cases a with
  | make j o rand =>
    have hs := step_inv hs
    simp only at hs
    grind
  | finish j dup =>
    have hkj := hk j
    have hs := step_inv hs
    simp only at hs
    grind
  | op j o =>
    have hs := step_inv hs
    simp only at hs
    grind
  | dropReader j =>
    have hkj := hk j
    have hs := step_inv hs
    simp only at hs
    grind
  | dropWriter j =>
    have hs := step_inv hs
    simp only at hs
    grind
  | otherMakes q =>
    have hs := step_inv hs
    simp only at hs
    grind
  | otherRemoves q =>
    have : q ≠ p := fun e => ha.1 (by rw [e])
    have hs := step_inv hs
    simp only at hs
    grind
  | otherWrites ino bs =>
    have : ino ≠ n := fun e => ha.2 bs (by rw [e])
    have hs := step_inv hs
    simp only at hs
    grind

theorem foreign_run {osDir : String} {as : List FileAct} {p : Path} {n : Nat} :
    ∀ {w w' : Files} {outs}, FInv w → w.Kept → w.NotRemoved osDir as → w.names p = some n →
    (∀ i s, w.streams i = some s → s.ino ≠ n) →
    (∀ a ∈ as, a ≠ .otherRemoves p ∧ ∀ bs, a ≠ .otherWrites n bs) →
    w.run osDir as = some (outs, w') → w'.names p = some n ∧ w'.data n = w.data n := by
  induction as with
  | nil =>
    intro w w' outs h hk hn hp hf ha hr
    simp only [Files.run, Option.some.injEq, Prod.mk.injEq] at hr
    rw [← hr.2]
    exact ⟨hp, rfl⟩
  | cons a as ih =>
    intro w w' outs h hk hn hp hf ha hr
    obtain ⟨out, w1, rest, hs, hr', -⟩ := run_cons hr
    obtain ⟨e1, e2, e3⟩ := foreign_step h hk hp hf (ha a (by simp)) hs
    rw [← e2]
    exact ih (h.step hs) (hk.step h hn.1 hs) (hn.2 _ _ hs) e1 e3 (fun b hb => ha b (by simp [hb])) hr'

/-- Where a stream's file was put. -/
theorem placed_step {osDir : String} {w w' : Files} {a : FileAct} {out}
    (hs : w.step osDir a = some (out, w')) {i : Nat} {s : FileStream} (hi : w'.streams i = some s) :
    (∃ s0, w.streams i = some s0 ∧ s0.path = s.path) ∨
      ∃ o rand, a = .make i o rand ∧ s.path = o.place osDir rand := by
  cases a with
  | make j o rand =>
    have hs := step_inv hs
    simp only at hs
    grind
  | finish j dup =>
    have hs := step_inv hs
    simp only at hs
    grind
  | op j o =>
    have hs := step_inv hs
    simp only at hs
    grind
  | dropReader j =>
    have hs := step_inv hs
    simp only at hs
    grind
  | dropWriter j =>
    have hs := step_inv hs
    simp only at hs
    grind
  | otherMakes p =>
    have hs := step_inv hs
    simp only at hs
    grind
  | otherRemoves p =>
    have hs := step_inv hs
    simp only at hs
    grind
  | otherWrites ino bs =>
    have hs := step_inv hs
    simp only at hs
    grind

theorem placed_run {osDir : String} {as : List FileAct} {i : Nat} {s : FileStream} :
    ∀ {w w' : Files} {outs}, w.run osDir as = some (outs, w') → w'.streams i = some s →
    (∃ s0, w.streams i = some s0 ∧ s0.path = s.path) ∨
      ∃ o rand, .make i o rand ∈ as ∧ s.path = o.place osDir rand := by
  induction as with
  | nil =>
    intro w w' outs hr hi
    simp only [Files.run, Option.some.injEq, Prod.mk.injEq] at hr
    exact .inl ⟨s, by rw [hr.2]; exact hi, rfl⟩
  | cons a as ih =>
    intro w w' outs hr hi
    obtain ⟨out, w1, rest, hs, hr', -⟩ := run_cons hr
    rcases ih hr' hi with ⟨s0, h0, e0⟩ | ⟨o, rand, hm, e⟩
    · rcases placed_step hs h0 with ⟨s1, h1, e1⟩ | ⟨o, rand, rfl, e⟩
      · exact .inl ⟨s1, h1, e1.trans e0⟩
      · exact .inr ⟨o, rand, by simp, by rw [← e0, e]⟩
    · exact .inr ⟨o, rand, by simp [hm], e⟩

/-- `NotWritten`, checked on the first `k` streams. -/
def notWrittenB (osDir : String) (k : Nat) (w : Files) : List FileAct → Bool
  | [] => true
  | a :: as =>
    (match a with
      | .make i _ _ => decide (i < k)
      | .otherWrites ino _ => (List.range k).all fun i => (w.streams i).all fun s => decide (s.ino ≠ ino)
      | _ => true) &&
    (match w.step osDir a with
      | none => true
      | some (_, w1) => notWrittenB osDir k w1 as)

/-- `NotRemoved`, checked on the first `k` streams. -/
def notRemovedB (osDir : String) (k : Nat) (w : Files) : List FileAct → Bool
  | [] => true
  | a :: as =>
    (match a with
      | .make i _ _ => decide (i < k)
      | .otherRemoves p =>
        (List.range k).all fun i => (w.streams i).all fun s => !s.reader || decide (s.path ≠ p)
      | _ => true) &&
    (match w.step osDir a with
      | none => true
      | some (_, w1) => notRemovedB osDir k w1 as)

theorem beyond_step {osDir : String} {w w' : Files} {a : FileAct} {out} {k : Nat}
    (h : ∀ i, k ≤ i → w.streams i = none) (hm : ∀ i o rand, a = .make i o rand → i < k)
    (hs : w.step osDir a = some (out, w')) : ∀ i, k ≤ i → w'.streams i = none := by
  intro i hi
  have hi' := h i hi
  have hs := step_inv hs
  cases a with
  | make j o rand =>
    have := hm j o rand rfl
    simp only at hs
    grind
  | finish j dup => simp only at hs; grind
  | op j o => simp only at hs; grind
  | dropReader j => simp only at hs; grind
  | dropWriter j => simp only at hs; grind
  | otherMakes p => simp only at hs; grind
  | otherRemoves p => simp only at hs; grind
  | otherWrites ino bs => simp only at hs; grind

/-- The streams that are made in a history have numbers below `k`. -/
def madeB (k : Nat) (as : List FileAct) : Bool :=
  as.all fun a => match a with | .make i _ _ => decide (i < k) | _ => true

theorem beyond_run {osDir : String} {as : List FileAct} {k : Nat} : ∀ {w w' : Files} {outs},
    (∀ i, k ≤ i → w.streams i = none) → madeB k as = true → w.run osDir as = some (outs, w') →
    ∀ i, k ≤ i → w'.streams i = none := by
  induction as with
  | nil =>
    intro w w' outs h _ hr
    simp only [Files.run, Option.some.injEq, Prod.mk.injEq] at hr
    rwa [← hr.2]
  | cons a as ih =>
    intro w w' outs h hb hr
    obtain ⟨out, w1, rest, hs, hr', -⟩ := run_cons hr
    simp only [madeB, List.all_cons, Bool.and_eq_true] at hb
    refine ih (beyond_step h ?_ hs) hb.2 hr'
    rintro i o rand rfl
    simpa using hb.1

theorem notWritten_of {osDir : String} {k : Nat} {as : List FileAct} : ∀ {w : Files},
    (∀ i, k ≤ i → w.streams i = none) → notWrittenB osDir k w as = true → w.NotWritten osDir as := by
  induction as with
  | nil => intro w _ _; trivial
  | cons a as ih =>
    intro w hk hb
    simp only [notWrittenB, Bool.and_eq_true] at hb
    refine ⟨?_, ?_⟩
    · rintro ino bs rfl i s hs
      have hb := hb.1
      simp only [List.all_eq_true, List.mem_range] at hb
      rcases Nat.lt_or_ge i k with h | h
      · have := hb i h
        simpa [hs] using this
      · simp [hk i h] at hs
    · intro out w1 hs
      have hb2 := hb.2
      simp only [hs] at hb2
      refine ih (beyond_step hk ?_ hs) hb2
      rintro i o rand rfl
      simpa using hb.1

theorem notRemoved_of {osDir : String} {k : Nat} {as : List FileAct} : ∀ {w : Files},
    (∀ i, k ≤ i → w.streams i = none) → notRemovedB osDir k w as = true → w.NotRemoved osDir as := by
  induction as with
  | nil => intro w _ _; trivial
  | cons a as ih =>
    intro w hk hb
    simp only [notRemovedB, Bool.and_eq_true] at hb
    refine ⟨?_, ?_⟩
    · rintro p rfl i s hs hr
      have hb := hb.1
      simp only [List.all_eq_true, List.mem_range] at hb
      rcases Nat.lt_or_ge i k with h | h
      · have := hb i h
        simpa [hs, hr] using this
      · simp [hk i h] at hs
    · intro out w1 hs
      have hb2 := hb.2
      simp only [hs] at hb2
      refine ih (beyond_step hk ?_ hs) hb2
      rintro i o rand rfl
      simpa using hb.1

/-- A run that can be computed, with a test of where it leads. -/
theorem exists_files {osDir : String} {w : Files} {as : List FileAct}
    {p : List (Nat × FileOut) → Files → Bool}
    (h : (match w.run osDir as with | none => false | some r => p r.1 r.2) = true) :
    ∃ outs w', w.run osDir as = some (outs, w') ∧ p outs w' = true := by
  split at h
  · cases h
  · rename_i r hr
    exact ⟨r.1, r.2, hr, h⟩

end Files

end SD
