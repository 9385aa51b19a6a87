import Verif.Spec.System

/-! # Concrete histories

Used for witnesses and for the examples beside the theorems. -/

namespace SD

variable {S : Storage}

/-- `Honest` as a test. -/
def honestB (s : Sys S) (a : Act) : Bool :=
  match a, s.spc with
  | .seekOk pos, .seeking start _ => decide (pos = start)
  | .reconnOk pos, .reconn p => decide (pos = p)
  | _, _ => true

/-- `NoSeek` as a test. -/
def noSeekB (_ : Sys S) (a : Act) : Bool :=
  match a with
  | .seek _ => false
  | _ => true

/-- `Forward` as a test. -/
def forwardB (c : Cfg) (s : Sys S) (a : Act) : Bool :=
  match a with
  | .seek f =>
    match c.absolute (S.tell s.st).1 f with
    | .ok p => decide ((S.tell s.st).1 ≤ c.normalize p)
    | _ => true
  | _ => true

/-- `Connected` as a test. -/
def connectedB (c : Cfg) (s : Sys S) (a : Act) : Bool :=
  match a with
  | .seek f =>
    match c.absolute (S.tell s.st).1 f with
    | .ok p => (List.range (S.tell s.st).1).all fun q =>
        decide (q < c.normalize p) ||
        s.log.any (fun e => match e with
          | .readRet pos _ _ (.ok bs) => decide (pos ≤ q ∧ q < pos + bs.length)
          | _ => false) ||
        s.dl.any fun r => decide (r.1 ≤ q ∧ q < r.2)
    | _ => true
  | _ => true

/-- `Delivers` as a test. -/
def deliversB (c : Cfg) (s : Sys S) (a : Act) : Bool :=
  match a with
  | .eof =>
    match c.supportsSeek, c.contentLength with
    | false, some n => decide (n ≤ s.tpos)
    | _, _ => true
  | _ => true

/-- `CleanReconnect` as a test. -/
def cleanB (s : Sys S) (a : Act) : Bool :=
  match a with
  | .reconnOk _ => s.rem.isNone
  | _ => true

theorem honest_of {s : Sys S} {a : Act} (h : honestB s a = true) : Honest s a := by
  constructor
  · intro start stop pos h1 h2
    subst h2
    simpa [honestB, h1] using h
  · intro p pos h1 h2
    subst h2
    simpa [honestB, h1] using h

theorem noSeek_of {s : Sys S} {a : Act} (h : noSeekB s a = true) : NoSeek s a := by
  intro f hf
  subst hf
  simp [noSeekB] at h

theorem forward_of {c : Cfg} {s : Sys S} {a : Act} (h : forwardB c s a = true) : Forward c s a := by
  intro f p hf hp
  subst hf
  simpa [forwardB, hp] using h

theorem connected_of {c : Cfg} {s : Sys S} {a : Act} (h : connectedB c s a = true) : Connected c s a := by
  intro f p hf hp q h1 h2
  subst hf
  simp only [connectedB, hp, List.all_eq_true, List.mem_range] at h
  have := h q h2
  rw [Bool.or_eq_true, Bool.or_eq_true, decide_eq_true_eq, List.any_eq_true, List.any_eq_true] at this
  rcases this with (hq | ⟨e, he, hq⟩) | ⟨r, hr, hq⟩
  · omega
  · left
    split at hq
    · next pos len fast bs =>
      have := of_decide_eq_true hq
      exact ⟨pos, len, fast, bs, he, this.1, this.2⟩
    · cases hq
  · exact Or.inr ⟨r, hr, of_decide_eq_true hq⟩

theorem delivers_of {c : Cfg} {s : Sys S} {a : Act} (h : deliversB c s a = true) : Delivers c s a := by
  intro ha hs n hn
  subst ha
  simpa [deliversB, hs, hn] using h

theorem clean_of {s : Sys S} {a : Act} (h : cleanB s a = true) : CleanReconnect s a := by
  intro pos ha
  subst ha
  simpa [cleanB] using h

/-- Run a list of actions, testing `g` before each one. -/
def runG (g : Sys S → Act → Bool) (c : Cfg) : Sys S → List Act → Option (Sys S)
  | s, [] => some s
  | s, a :: as =>
    if g s a then
      match step c s a with
      | some s' => runG g c s' as
      | none => none
    else none

theorem reach_runG' {g : Sys S → Act → Bool} {G : Sys S → Act → Prop} {c : Cfg}
    (hg : ∀ s a, g s a = true → G s a) {s0 : Sys S} (as : List Act) :
    ∀ {s1 s : Sys S}, Reach c G s0 s1 → runG g c s1 as = some s → Reach c G s0 s := by
  induction as with
  | nil => intro s1 s h1 h; simp [runG] at h; subst h; exact h1
  | cons a as ih =>
    intro s1 s h1 h
    simp only [runG] at h
    split at h
    · next hga =>
      split at h
      · next s2 h2 => exact ih (h1.step (hg _ _ hga) h2) h
      · simp at h
    · simp at h

theorem reach_runG {g : Sys S → Act → Bool} {G : Sys S → Act → Prop} {c : Cfg}
    (hg : ∀ s a, g s a = true → G s a) {s0 s : Sys S} {as : List Act}
    (h : runG g c s0 as = some s) : Reach c G s0 s :=
  reach_runG' hg as .refl h

theorem reach_run {c : Cfg} {s0 s : Sys S} {as : List Act} (h : run c s0 as = some s) :
    Reach c Any s0 s := by
  have : ∀ (as : List Act) {s1 : Sys S}, Reach c Any s0 s1 → run c s1 as = some s →
      Reach c Any s0 s := by
    intro as
    induction as with
    | nil => intro s1 h1 h; simp [run] at h; subst h; exact h1
    | cons a as ih =>
      intro s1 h1 h
      simp only [run] at h
      split at h
      · next s2 h2 => exact ih (h1.step trivial h2) h
      · simp at h
  exact this as .refl h

theorem of_any {α : Type} {o : Option α} {p : α → Bool} (h : o.any p = true) :
    ∃ s, o = some s ∧ p s = true := by
  cases o with
  | none => simp at h
  | some s => exact ⟨s, rfl, by simpa using h⟩

/-- A run that satisfies the test `p` at its end gives a reachable state. -/
theorem exists_of_runG {P : Provider} {g : Sys P.S → Act → Bool} {G : Sys P.S → Act → Prop} {c : Cfg}
    (hg : ∀ s a, g s a = true → G s a) (st : P.S.σ) (as : List Act) (p : Sys P.S → Bool)
    (hcap : c.capacity = P.maxCapacity) (hst : P.create c.contentLength = .ok st)
    (h : (runG g c (init c st) as).any p = true) :
    ∃ s0 s, Starts P c s0 ∧ Reach c G s0 s ∧ p s = true := by
  cases hr : runG g c (init c st) as with
  | none => rw [hr] at h; simp at h
  | some s =>
    rw [hr] at h
    exact ⟨init c st, s, ⟨hcap, st, hst, rfl⟩, reach_runG hg hr, by simpa using h⟩

/-- The same without restriction on the history. -/
theorem exists_of_run {P : Provider} {c : Cfg} (st : P.S.σ) (as : List Act) (p : Sys P.S → Bool)
    (hcap : c.capacity = P.maxCapacity) (hst : P.create c.contentLength = .ok st)
    (h : (run c (init c st) as).any p = true) :
    ∃ s0 s, Starts P c s0 ∧ Reach c Any s0 s ∧ p s = true := by
  cases hr : run c (init c st) as with
  | none => rw [hr] at h; simp at h
  | some s =>
    rw [hr] at h
    exact ⟨init c st, s, ⟨hcap, st, hst, rfl⟩, reach_run hr, by simpa using h⟩

/-- `n` steps of the download task. -/
def srcs (n : Nat) : List Act := List.replicate n .src

/-- `n` steps of the consumer. -/
def rdrs (n : Nat) : List Act := List.replicate n .rdr

/-- A small resource: byte `i` is `i + 1`. -/
def demoRemote : Nat → Byte := fun i => UInt8.ofNat (i + 1)

/-- A configuration to vary in examples: 10 bytes, seekable, no prefetch. -/
def demoCfg : Cfg where
  contentLength := some 10
  prefetchBytes := 0
  batchSize := 4096
  capacity := none
  supportsSeek := true
  remote := demoRemote
  remoteLen := some 10
  checks := true
  cancelOnDrop := true
  onFinish := fun r _ => r

theorem demo_keepsErrors : demoCfg.KeepsErrors := by intro k o; simp [demoCfg]

theorem demo_lengthHonest : demoCfg.LengthHonest := by
  intro n hn
  exact ⟨10, rfl, by simp [demoCfg] at hn; omega⟩

end SD
