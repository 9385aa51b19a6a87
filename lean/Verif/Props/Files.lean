import Verif.Proof.Files

/-!
# C85: streams over temporary files do not disturb one another and leave nothing behind

Any number of streams of a process, and other programs, share a disk (Model/Files).
-/

namespace SD

open Files

/-- A disk with one file of somebody else's. -/
def disk0 : Files :=
  { names := fun p => if p = ⟨"/tmp", "notes"⟩ then some 0 else none
    data := fun n => if n = 0 then [9, 9] else []
    next := 1
    streams := fun _ => none }

theorem disk0_before : disk0.Before := by
  refine ⟨fun _ => rfl, fun p n h => ?_⟩
  simp only [disk0] at h ⊢
  split at h <;> simp_all

/-- Two streams of one provider, at the same time; another program takes the name of the
first one's file away and uses it for a file of its own. -/
def twoFiles : List FileAct :=
  [.make 0 (.withPrefix "song") "a", .make 1 (.withPrefix "song") "b", .finish 0 true, .finish 1 true,
    .op 0 (.write [1, 2, 3]), .op 1 (.write [4, 5]), .otherRemoves ⟨"/tmp", "songa"⟩,
    .otherMakes ⟨"/tmp", "songa"⟩, .otherWrites 3 [7, 7, 7, 7], .op 0 (.read 2), .op 1 (.read 9),
    .op 0 (.write [6]), .op 0 .tell, .op 0 (.read 9), .op 1 (.rseek 1), .op 1 (.read 9)]

/-- The disk after it. -/
def afterTwo : Option (List (Nat × FileOut) × Files) := disk0.run "/tmp" twoFiles

/-- The same, without what the other program does to the name. -/
def calmTwo : List FileAct :=
  [.make 0 (.withPrefix "song") "a", .make 1 (.withPrefixIn "song" "/var") "b", .finish 0 true,
    .finish 1 true, .op 0 (.write [1, 2, 3]), .otherMakes ⟨"/tmp", "other"⟩, .op 1 (.write [4, 5]),
    .otherWrites 3 [7, 7, 7, 7], .op 0 (.read 2), .otherRemoves ⟨"/tmp", "other"⟩, .dropReader 0,
    .op 0 (.write [6]), .op 1 (.read 9)]

/-- **C85.** What a stream gets from its storage is what it would get from a file of its own,
whatever the other streams do with theirs, whoever is dropped when, and also if other
programs remove the name of its file or use it again.  (They must not write into it.) -/
theorem C85_isolated (osDir : String) (w0 w : Files) (acts : List FileAct) (outs : List (Nat × FileOut))
    (h0 : w0.Before) (hn : w0.NotWritten osDir acts) (hr : w0.run osDir acts = some (outs, w))
    (i : Nat) (cl : Option Nat) (t : Tmp) (ht : tmpProvider.create cl = .ok t) :
    outsOf i outs = alone t (opsOf i acts) := by
  have ht : Res.ok _ = Res.ok t := ht
  injection ht with ht
  rw [alone_run i (FInv.before h0) hn hr]
  simp only [seen, h0.1, ht]

example : disk0.Before ∧ disk0.NotWritten "/tmp" twoFiles ∧
    ∃ outs w, disk0.run "/tmp" twoFiles = some (outs, w) ∧
      outsOf 0 outs = [.took 3, .bytes [1, 2], .took 1, .pos 2, .bytes [3, 6]] ∧
      outsOf 1 outs = [.took 2, .bytes [4, 5], .pos 1, .bytes [5]] := by
  refine ⟨disk0_before, notWritten_of (k := 2) (fun _ _ => rfl) (by decide +kernel), ?_⟩
  obtain ⟨outs, w, hr, hp⟩ := exists_files (osDir := "/tmp") (w := disk0) (as := twoFiles)
    (p := fun outs _ =>
      decide (outsOf 0 outs = [.took 3, .bytes [1, 2], .took 1, .pos 2, .bytes [3, 6]]) &&
      decide (outsOf 1 outs = [.took 2, .bytes [4, 5], .pos 1, .bytes [5]])) (by decide +kernel)
  simp only [Bool.and_eq_true, decide_eq_true_eq] at hp
  exact ⟨outs, w, hr, hp⟩

/-- **C85.** A file that no stream made keeps its name and its contents, as long as other
programs leave it and the names of the streams' files alone. -/
theorem C85_others_untouched_partial (osDir : String) (w0 w : Files) (acts : List FileAct)
    (outs : List (Nat × FileOut)) (h0 : w0.Before) (hn : w0.NotRemoved osDir acts)
    (hr : w0.run osDir acts = some (outs, w)) (p : Path) (n : Nat) (hp : w0.names p = some n)
    (ha : ∀ a ∈ acts, a ≠ .otherRemoves p ∧ ∀ bs, a ≠ .otherWrites n bs) :
    w.names p = some n ∧ w.data n = w0.data n :=
  foreign_run (FInv.before h0) (fun i s hs => by simp [h0.1] at hs) hn hp
    (fun i s hs => by simp [h0.1] at hs) ha hr

example : disk0.Before ∧ disk0.NotRemoved "/tmp" calmTwo ∧
    (∀ a ∈ calmTwo, a ≠ .otherRemoves ⟨"/tmp", "notes"⟩ ∧ ∀ bs, a ≠ .otherWrites 0 bs) ∧
    ∃ outs w, disk0.run "/tmp" calmTwo = some (outs, w) ∧
      w.names ⟨"/tmp", "notes"⟩ = some 0 ∧ w.data 0 = [9, 9] := by
  refine ⟨disk0_before, notRemoved_of (k := 2) (fun _ _ => rfl) (by decide +kernel), ?_, ?_⟩
  · intro a ha
    simp only [calmTwo, List.mem_cons, List.not_mem_nil, or_false] at ha
    rcases ha with rfl | rfl | rfl | rfl | rfl | rfl | rfl | rfl | rfl | rfl | rfl | rfl | rfl <;> simp
  · obtain ⟨outs, w, hr, hp⟩ := exists_files (osDir := "/tmp") (w := disk0) (as := calmTwo)
      (p := fun _ w => decide (w.names ⟨"/tmp", "notes"⟩ = some 0) && decide (w.data 0 = [9, 9]))
      (by decide +kernel)
    simp only [Bool.and_eq_true, decide_eq_true_eq] at hp
    exact ⟨outs, w, hr, hp⟩

/-- **C85.** While its reader is there, the name of a stream's file leads to that file, and
what the file holds can be read under it. -/
theorem C85_named_while_read (osDir : String) (w0 w : Files) (acts : List FileAct)
    (outs : List (Nat × FileOut)) (h0 : w0.Before) (hn : w0.NotRemoved osDir acts)
    (hr : w0.run osDir acts = some (outs, w)) (i : Nat) (s : FileStream) (hs : w.streams i = some s)
    (hrd : s.reader = true) : w.names s.path = some s.ino :=
  Kept.run (FInv.before h0) (fun i s hs => by simp [h0.1] at hs) hn hr i s hs hrd

example : disk0.Before ∧ disk0.NotRemoved "/tmp" calmTwo ∧
    ∃ outs w s, disk0.run "/tmp" calmTwo = some (outs, w) ∧ w.streams 1 = some s ∧ s.reader = true ∧
      w.names ⟨"/var", "songb"⟩ = some s.ino ∧ w.data s.ino = [4, 5] := by
  refine ⟨disk0_before, notRemoved_of (k := 2) (fun _ _ => rfl) (by decide +kernel), ?_⟩
  obtain ⟨outs, w, hr, hp⟩ := exists_files (osDir := "/tmp") (w := disk0) (as := calmTwo)
    (p := fun _ w => (w.streams 1).any fun s => s.reader &&
      decide (w.names ⟨"/var", "songb"⟩ = some s.ino) && decide (w.data s.ino = [4, 5]))
    (by decide +kernel)
  simp only [Option.any_eq_true, Bool.and_eq_true, decide_eq_true_eq] at hp
  obtain ⟨s, hs, hp⟩ := hp
  exact ⟨outs, w, s, hr, hs, hp.1.1, hp.1.2, hp.2⟩

/-- **C85.** No name is left of a stream's file once its reader has been dropped, or has never
come to be because opening the file failed. -/
theorem C85_no_name_left (osDir : String) (w0 w : Files) (acts : List FileAct)
    (outs : List (Nat × FileOut)) (h0 : w0.Before) (hr : w0.run osDir acts = some (outs, w))
    (i : Nat) (s : FileStream) (hs : w.streams i = some s) (hrd : s.reader = false) (p : Path) :
    w.names p ≠ some s.ino := by
  intro hp
  have := ((FInv.before h0).run hr).named i s p hs hp
  simp [hrd] at this

example : ∃ outs w s, disk0.run "/tmp" calmTwo = some (outs, w) ∧ w.streams 0 = some s ∧
    s.reader = false ∧ s.writer = true ∧ w.names ⟨"/tmp", "songa"⟩ = none ∧
    w.data s.ino = [1, 2, 3, 6] := by
  obtain ⟨outs, w, hr, hp⟩ := exists_files (osDir := "/tmp") (w := disk0) (as := calmTwo)
    (p := fun _ w => (w.streams 0).any fun s => !s.reader && s.writer &&
      decide (w.names ⟨"/tmp", "songa"⟩ = none) && decide (w.data s.ino = [1, 2, 3, 6]))
    (by decide +kernel)
  simp only [Option.any_eq_true, Bool.and_eq_true, decide_eq_true_eq, Bool.not_eq_true'] at hp
  obtain ⟨s, hs, hp⟩ := hp
  exact ⟨outs, w, s, hr, hs, hp.1.1.1, hp.1.1.2, hp.1.2, hp.2⟩

/-- A file whose name is gone before it can be opened again: no stream comes of it. -/
example : ∃ outs w s, disk0.run "/tmp" [.make 0 .new "x", .otherRemoves ⟨"/tmp", ".tmpx"⟩,
      .finish 0 true] = some (outs, w) ∧ w.streams 0 = some s ∧ s.reader = false ∧
      s.isOpen = false := by
  obtain ⟨outs, w, hr, hp⟩ := exists_files (osDir := "/tmp") (w := disk0)
    (as := [.make 0 .new "x", .otherRemoves ⟨"/tmp", ".tmpx"⟩, .finish 0 true])
    (p := fun _ w => (w.streams 0).any fun s => !s.reader && !s.isOpen) (by decide +kernel)
  simp only [Option.any_eq_true, Bool.and_eq_true, Bool.not_eq_true'] at hp
  obtain ⟨s, hs, hp⟩ := hp
  exact ⟨outs, w, s, hr, hs, hp.1, hp.2⟩

/-- **C85.** When the download task has ended too, nobody holds the file any more: its space
is free. -/
theorem C85_space_is_freed (osDir : String) (w0 w : Files) (acts : List FileAct)
    (outs : List (Nat × FileOut)) (h0 : w0.Before) (hr : w0.run osDir acts = some (outs, w))
    (i : Nat) (s : FileStream) (hs : w.streams i = some s) (hrd : s.reader = false)
    (hwr : s.writer = false) : ¬ w.Held s.ino := by
  have hinv := (FInv.before h0).run hr
  rintro (⟨p, hp⟩ | ⟨j, t, ht, he, ho⟩)
  · exact C85_no_name_left osDir w0 w acts outs h0 hr i s hs hrd p hp
  · have := hinv.inj j i t s ht hs he
    subst this
    rw [hs] at ht
    cases ht
    simp [hrd, hwr] at ho

example : ∃ outs w s, disk0.run "/tmp" (calmTwo ++ [.dropWriter 0]) = some (outs, w) ∧
    w.streams 0 = some s ∧ s.reader = false ∧ s.writer = false := by
  obtain ⟨outs, w, hr, hp⟩ := exists_files (osDir := "/tmp") (w := disk0)
    (as := calmTwo ++ [.dropWriter 0])
    (p := fun _ w => (w.streams 0).any fun s => !s.reader && !s.writer) (by decide +kernel)
  simp only [Option.any_eq_true, Bool.and_eq_true, Bool.not_eq_true'] at hp
  obtain ⟨s, hs, hp⟩ := hp
  exact ⟨outs, w, s, hr, hs, hp.1, hp.2⟩

/-- **C85.** No two streams use the same file, nor one that was there before. -/
theorem C85_own_file (osDir : String) (w0 w : Files) (acts : List FileAct)
    (outs : List (Nat × FileOut)) (h0 : w0.Before) (hr : w0.run osDir acts = some (outs, w))
    (i j : Nat) (s t : FileStream) (hs : w.streams i = some s) (ht : w.streams j = some t)
    (hne : i ≠ j) : s.ino ≠ t.ino :=
  fun e => hne (((FInv.before h0).run hr).inj i j s t hs ht e)

example : ∃ outs w s t, disk0.run "/tmp" twoFiles = some (outs, w) ∧ w.streams 0 = some s ∧
    w.streams 1 = some t ∧ s.ino = 1 ∧ t.ino = 2 ∧ s.path = ⟨"/tmp", "songa"⟩ ∧
    t.path = ⟨"/tmp", "songb"⟩ := by
  obtain ⟨outs, w, hr, hp⟩ := exists_files (osDir := "/tmp") (w := disk0) (as := twoFiles)
    (p := fun _ w => (w.streams 0).any fun (s : FileStream) => (w.streams 1).any fun (t : FileStream) =>
      decide (s.ino = 1 ∧ t.ino = 2 ∧ s.path = ⟨"/tmp", "songa"⟩ ∧ t.path = ⟨"/tmp", "songb"⟩))
    (by decide +kernel)
  simp only [Option.any_eq_true, decide_eq_true_eq] at hp
  obtain ⟨s, hs, t, ht, hp⟩ := hp
  exact ⟨outs, w, s, t, hr, hs, ht, hp⟩

/-- **C85.** A stream's file is in the directory that the provider was given, or else in the
system's, and its name begins as asked for; a custom builder decides alone. -/
theorem C85_file_is_where_asked (osDir : String) (w0 w : Files) (acts : List FileAct)
    (outs : List (Nat × FileOut)) (h0 : w0.Before) (hr : w0.run osDir acts = some (outs, w))
    (i : Nat) (s : FileStream) (hs : w.streams i = some s) :
    ∃ o rand, .make i o rand ∈ acts ∧
      (o = .new → s.path.dir = osDir) ∧
      (∀ d, o = .newIn d → s.path.dir = d) ∧
      (∀ p, o = .withPrefix p → s.path.dir = osDir ∧ s.path.name = p ++ rand) ∧
      (∀ p d, o = .withPrefixIn p d → s.path.dir = d ∧ s.path.name = p ++ rand) ∧
      (∀ f, o = .withBuilder f → s.path = f rand) := by
  rcases placed_run hr hs with ⟨s0, h, -⟩ | ⟨o, rand, hm, e⟩
  · simp [h0.1] at h
  · refine ⟨o, rand, hm, ?_, ?_, ?_, ?_, ?_⟩
    · rintro rfl
      rw [e]; rfl
    · rintro d rfl
      rw [e]; rfl
    · rintro p rfl
      rw [e]; exact ⟨rfl, rfl⟩
    · rintro p d rfl
      rw [e]; exact ⟨rfl, rfl⟩
    · rintro f rfl
      rw [e]; rfl

example : ∃ outs w s t, disk0.run "/tmp" calmTwo = some (outs, w) ∧ w.streams 0 = some s ∧
    w.streams 1 = some t ∧ s.path = ⟨"/tmp", "songa"⟩ ∧ t.path = ⟨"/var", "songb"⟩ := by
  obtain ⟨outs, w, hr, hp⟩ := exists_files (osDir := "/tmp") (w := disk0) (as := calmTwo)
    (p := fun _ w => (w.streams 0).any fun (s : FileStream) => (w.streams 1).any fun (t : FileStream) =>
      decide (s.path = ⟨"/tmp", "songa"⟩ ∧ t.path = ⟨"/var", "songb"⟩)) (by decide +kernel)
  simp only [Option.any_eq_true, decide_eq_true_eq] at hp
  obtain ⟨s, hs, t, ht, hp⟩ := hp
  exact ⟨outs, w, s, t, hr, hs, ht, hp⟩

/-- **C85, violated.** Dropping a stream removes a file that no stream made, if it has come to
be under the name of the stream's own file after that had been removed. -/
theorem C85_others_untouched_violated : ∃ (w0 w1 w2 : Files) (acts : List FileAct)
    (o1 o2 : List (Nat × FileOut)) (p : Path) (n : Nat), w0.Before ∧
    w0.run "/tmp" acts = some (o1, w1) ∧ w1.names p = some n ∧
    (∀ i s, w1.streams i = some s → s.ino ≠ n) ∧
    w1.run "/tmp" [.dropReader 0] = some (o2, w2) ∧ w2.names p = none := by
  obtain ⟨o1, w1, hr, hp⟩ := exists_files (osDir := "/tmp") (w := disk0) (as := twoFiles)
    (p := fun _ w => decide (w.names ⟨"/tmp", "songa"⟩ = some 3 ∧ w.next = 4) &&
      ((w.streams 0).any fun s => decide (s.ino = 1)) &&
      ((w.streams 1).any fun s => decide (s.ino = 2)) &&
      (match w.run "/tmp" [.dropReader 0] with
        | none => false
        | some r => decide (r.2.names ⟨"/tmp", "songa"⟩ = none))) (by decide +kernel)
  simp only [Bool.and_eq_true, decide_eq_true_eq, Option.any_eq_true] at hp
  obtain ⟨⟨⟨⟨h1, -⟩, s0, hs0, e0⟩, s1, hs1, e1⟩, h2⟩ := hp
  obtain ⟨o2, w2, hr2, hp2⟩ := exists_files (osDir := "/tmp") (w := w1) (as := [.dropReader 0])
    (p := fun _ w => decide (w.names ⟨"/tmp", "songa"⟩ = none)) h2
  refine ⟨disk0, w1, w2, twoFiles, o1, o2, ⟨"/tmp", "songa"⟩, 3, disk0_before, hr, h1, ?_, hr2,
    by simpa using hp2⟩
  intro i s hs
  have hb : ∀ j, 2 ≤ j → w1.streams j = none := beyond_run (fun _ _ => rfl) (by decide) hr
  match i with
  | 0 => rw [hs0] at hs; cases hs; omega
  | 1 => rw [hs1] at hs; cases hs; omega
  | i + 2 => rw [hb (i + 2) (by omega)] at hs; cases hs

end SD
