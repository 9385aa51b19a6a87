import Verif.Spec.Process
import Verif.Props.Wake

/-!
# Properties C50, C51, C52, C53: processes
-/

set_option linter.unusedVariables false

namespace SD
open Proc

theorem addArgs_eq (c : Command) (as : List Text) :
    c.addArgs as = { c with args := c.args ++ as } := by
  induction as generalizing c with
  | nil => simp [Command.addArgs]
  | cons a as ih =>
    have : c.addArgs (a :: as) = (c.arg a).addArgs as := rfl
    rw [this, ih]
    simp [Command.arg]

/-! ### C50 -/

theorem ffmpegArg_eq {c : Command} {xs : List Text} {a : Text} (h : c.args = xs ++ ["-".toList]) :
    ffmpegArg c a = .ok { c with args := xs ++ [a] ++ ["-".toList] } := by
  unfold ffmpegArg Command.insertArg
  have hl : c.args.length = xs.length + 1 := by rw [h]; simp
  rw [if_neg (by omega), if_pos (by omega), hl, h]
  simp

theorem ffmpegArgs_eq {c : Command} {xs : List Text} (as : List Text) (h : c.args = xs ++ ["-".toList]) :
    ffmpegArgs c as = .ok { c with args := xs ++ as ++ ["-".toList] } := by
  induction as generalizing c xs with
  | nil => cases c; simp at h; simp [ffmpegArgs, h]; rfl
  | cons a as ih =>
    have e : ffmpegArgs c (a :: as) = (ffmpegArg c a).bind fun c => ffmpegArgs c as := rfl
    rw [e, ffmpegArg_eq h]
    simp only [Res.bind]
    rw [ih (xs := xs ++ [a]) rfl]
    simp

/-- C50: whatever calls are made, the command reads from the pipe, keeps the user's
arguments in order, and ends with the argument for the standard output. -/
theorem C50_ffmpeg_command (format : Text) (calls : List FfCall) :
    ffmpegCalls (ffmpegNew format) calls = .ok {
      program := lastPath "ffmpeg".toList calls
      args := ["-i".toList, "pipe:".toList, "-map".toList, "a".toList, "-f".toList, format,
        "-loglevel".toList, "error".toList] ++ userArgs calls ++ ["-".toList]
      ownStderr := false } := by
  have key : ∀ (calls : List FfCall) (c : Command) (xs : List Text), c.args = xs ++ ["-".toList] →
      ffmpegCalls c calls = .ok {
        program := lastPath c.program calls
        args := xs ++ userArgs calls ++ ["-".toList]
        ownStderr := c.ownStderr } := by
    intro calls
    induction calls with
    | nil =>
      intro c xs h
      cases c
      simp at h
      simp [ffmpegCalls, userArgs, lastPath, h]
    | cons x l ih =>
      intro c xs h
      cases x with
      | path p =>
        simp only [ffmpegCalls, userArgs, lastPath]
        rw [ih (ffmpegPath c p) xs h]
        rfl
      | arg a =>
        simp only [ffmpegCalls, ffmpegArg_eq h, Res.bind, userArgs, lastPath]
        rw [ih _ (xs ++ [a]) rfl]
        simp
      | args as =>
        simp only [ffmpegCalls, ffmpegArgs_eq as h, Res.bind, userArgs, lastPath]
        rw [ih _ (xs ++ as) rfl]
        simp
  have h0 : ffmpegNew format = {
      program := "ffmpeg".toList
      args := ["-i".toList, "pipe:".toList, "-map".toList, "a".toList, "-f".toList, format,
        "-loglevel".toList, "error".toList] ++ ["-".toList]
      ownStderr := false } := by
    unfold ffmpegNew
    rw [addArgs_eq]
    rfl
  rw [h0, key calls _ _ rfl]

/-- A bit rate and a sample rate. -/
example : ffmpegCalls (ffmpegNew "mp3".toList) [.arg "-b:a".toList, .path "/bin/ff".toList, .args ["64k".toList]] =
    .ok { program := "/bin/ff".toList, args := ["-i", "pipe:", "-map", "a", "-f", "mp3", "-loglevel", "error",
      "-b:a", "64k", "-"].map String.toList, ownStderr := false } := by decide +kernel

/-! ### C53 -/

theorem yt_calls (calls : List YtCall) (y : YtDlp) :
    calls.foldl YtCall.apply y = {
      url := y.url
      cmdName := lastOr (fun | YtCall.path p => some p | _ => none) y.cmdName calls
      extractAudio := lastOr (fun | YtCall.extractAudio b => some b | _ => none) y.extractAudio calls
      format := lastOr (fun | YtCall.format f => some (some f) | _ => none) y.format calls } := by
  induction calls generalizing y with
  | nil => rfl
  | cons c l ih =>
    rw [List.foldl_cons, ih]
    have e : ∀ {β : Type} (f : YtCall → Option β) (d : β),
        lastOr f d (c :: l) = lastOr f ((f c).getD d) l := by
      intro β f d
      simp only [lastOr, List.reverse_cons, List.findSome?_append, List.findSome?_cons, List.findSome?_nil]
      cases l.reverse.findSome? f <;> cases f c <;> rfl
    simp only [e]
    cases c <;> rfl

/-- C53: the command line depends only on the url and on the last value of each setting. -/
theorem C53_yt_dlp_command (url : Text) (calls : List YtCall) :
    (calls.foldl YtCall.apply (YtDlp.new url)).intoCommand = {
      program := lastOr (fun | YtCall.path p => some p | _ => none) "yt-dlp".toList calls
      args := [url, "--quiet".toList, "--no-part".toList, "--no-continue".toList, "-o".toList, "-".toList] ++
        (if lastOr (fun | YtCall.extractAudio b => some b | _ => none) false calls then ["-x".toList] else []) ++
        (match lastOr (fun | YtCall.format f => some (some f) | _ => none) none calls with
          | some f => ["-f".toList, f]
          | none => [])
      ownStderr := false } := by
  rw [yt_calls]
  simp only [YtDlp.intoCommand, YtDlp.new, addArgs_eq, Command.arg, Command.new]
  split <;> split <;> simp_all

example : ([YtCall.format "m4a".toList, .extractAudio true, .format "mp3".toList].foldl YtCall.apply
    (YtDlp.new "u".toList)).intoCommand.args =
    ["u", "--quiet", "--no-part", "--no-continue", "-o", "-", "-x", "-f", "mp3"].map String.toList := by
  decide +kernel

/-! ### C51 -/

/-- What is started so far: the first commands, one child each, with one file for each that
has no handle of its own. -/
structure Started (cmds : List Command) (st : Spawning) : Prop where
  len : st.children.length = cmds.length
  child : ∀ (i : Nat) (ch : Child) (c : Command), st.children[i]? = some ch → cmds[i]? = some c → ch.For c i
  files : st.files = List.range (cmds.filter (fun c => !c.ownStderr)).length
  used : st.children.filterMap (fun ch => match ch.stderr with | .file k => some k | .own => none) = st.files

theorem started_one {os : Os} {st st' : Spawning} {cmds : List Command} {c : Command} {prev : Option Nat}
    (h : Started cmds st) (hp : prev = if cmds.length = 0 then none else some (cmds.length - 1))
    (hs : startOne os st c prev = (true, st')) : Started (cmds ++ [c]) st' := by
  obtain ⟨h1, h2, h3, h4⟩ := h
  have hget : ∀ (x : Child), x.For c cmds.length → ∀ (i : Nat) (ch : Child) (c' : Command), (st.children ++ [x])[i]? = some ch →
      (cmds ++ [c])[i]? = some c' → ch.For c' i := by
    intro x hx i ch c' e1 e2
    rw [List.getElem?_append] at e1 e2
    rw [h1] at e1
    split at e1
    · rename_i hi
      rw [if_pos hi] at e2
      exact h2 i ch c' e1 e2
    · rename_i hi
      rw [if_neg hi] at e2
      have : i - cmds.length = 0 := by
        apply Classical.byContradiction
        intro hne
        rw [List.getElem?_eq_none (by simp; omega)] at e1
        simp at e1
      have hi2 : i = cmds.length := by omega
      rw [this] at e1 e2
      simp at e1 e2
      subst e1 e2 hi2
      exact hx
  unfold startOne at hs
  have hst : stdinOf prev =
      if cmds.length = 0 then .inherit else .pipe (cmds.length - 1) := by
    rw [hp]; by_cases h0 : cmds.length = 0
    · rw [if_pos h0, if_pos h0]; rfl
    · rw [if_neg h0, if_neg h0]; rfl
  dsimp only at hs
  rw [hst] at hs
  split at hs
  · rename_i ho
    split at hs
    · simp at hs; subst hs
      refine ⟨by simp [h1], hget _ ⟨rfl, rfl, by simp, by simp [ho]⟩, by simp [h3, ho], ?_⟩
      simp [List.filterMap_append, h4]
    · simp at hs
  · rename_i ho
    split at hs
    · split at hs
      · simp at hs; subst hs
        refine ⟨by simp [h1], hget _ ⟨rfl, rfl, by simp, by simp [ho]⟩, ?_, ?_⟩
        · have ho : c.ownStderr = false := by simpa using ho
          simp [List.filter_append, ho, List.range_succ]
          rw [h3]; simp
        · simp [List.filterMap_append, h4]
      · simp at hs
    · simp at hs

theorem started_all {os : Os} (cs : List Command) : ∀ {st st' : Spawning} {cmds : List Command}
    {prev prev' : Option Nat}, Started cmds st →
    prev = (if cmds.length = 0 then none else some (cmds.length - 1)) →
    startAll os st prev cs = (true, prev', st') →
    Started (cmds ++ cs) st' ∧
      prev' = if (cmds ++ cs).length = 0 then none else some ((cmds ++ cs).length - 1) := by
  induction cs with
  | nil =>
    intro st st' cmds prev prev' h hp hs
    simp [startAll] at hs
    obtain ⟨rfl, rfl⟩ := hs
    rw [List.append_nil]; exact ⟨h, hp⟩
  | cons c cs ih =>
    intro st st' cmds prev prev' h hp hs
    simp only [startAll] at hs
    split at hs
    · rename_i st1 h1
      have h2 := started_one h hp h1
      have := ih h2 (by rw [h.len]; simp) hs
      simpa using this
    · simp at hs

/-- C51: if a pipeline is started, there is one child for each command, in order, each fed
by the one before it; the output of the last one is exposed; and there is one error file
for each command that brings no handle of its own, used by this command only. -/
theorem C51_pipeline {os : Os} {cmds : List Command} {out : Nat} {st : Spawning}
    (h : spawnPipeline os cmds = (some out, st)) :
    st.children.length = cmds.length ∧ out + 1 = cmds.length ∧
    (∀ (i : Nat) (ch : Child) (c : Command), st.children[i]? = some ch → cmds[i]? = some c → ch.For c i) ∧
    st.files.length = (cmds.filter (fun c => !c.ownStderr)).length ∧ st.files.Nodup ∧
    st.children.filterMap (fun ch => match ch.stderr with | .file k => some k | .own => none) = st.files := by
  unfold spawnPipeline at h
  split at h
  · simp at h
  · rename_i last hl
    split at h
    · rename_i prev st1 h1
      obtain ⟨h2, h3⟩ := started_all cmds.dropLast (cmds := []) (prev := none)
        ⟨rfl, by simp, rfl, rfl⟩ rfl h1
      split at h
      · rename_i st2 h4
        simp at h
        obtain ⟨rfl, rfl⟩ := h
        have h5 := started_one h2 h3 h4
        have hc : cmds.dropLast ++ [last] = cmds := by
          obtain ⟨ne, e⟩ := List.getLast?_eq_some_iff.mp hl
          rw [e]; simp
        have hlen : cmds.dropLast.length + 1 = cmds.length := by
          conv_rhs => rw [← hc]
          simp
        simp only [List.nil_append] at h2 h5
        rw [hc] at h5
        refine ⟨h5.len, by rw [h2.len]; exact hlen, h5.child, by rw [h5.files]; simp, ?_, h5.used⟩
        rw [h5.files]; exact List.nodup_range
      · simp at h
    · simp at h

/-- C51: if no file and no process fails, a pipeline is started. -/
theorem C51_pipeline_starts {os : Os} {cmds : List Command} (hne : cmds ≠ [])
    (h1 : ∀ k, os.tmpOk k = true) (h2 : ∀ k, os.spawnOk k = true) :
    ∃ out st, spawnPipeline os cmds = (some out, st) := by
  have one : ∀ st c prev, ∃ st', startOne os st c prev = (true, st') := by
    intro st c prev
    simp only [startOne, h1, h2, if_true]
    split <;> exact ⟨_, rfl⟩
  have all : ∀ (cs : List Command) st prev, ∃ p st', startAll os st prev cs = (true, p, st') := by
    intro cs
    induction cs with
    | nil => intro st prev; exact ⟨_, _, rfl⟩
    | cons c cs ih =>
      intro st prev
      obtain ⟨st', e⟩ := one st c prev
      simp only [startAll, e]
      exact ih _ _
  unfold spawnPipeline
  cases hl : cmds.getLast? with
  | none => exact absurd (List.getLast?_eq_none_iff.mp hl) hne
  | some last =>
    obtain ⟨p, st, e⟩ := all cmds.dropLast { children := [], files := [] } none
    obtain ⟨st', e2⟩ := one st last p
    simp only [e, e2]
    exact ⟨_, _, rfl⟩

theorem startOne_fail {os : Os} {st st' : Spawning} {c : Command} {prev : Option Nat}
    (h : startOne os st c prev = (false, st')) :
    st'.children = st.children ∧ ((c.ownStderr = false ∧ os.tmpOk st.files.length = false) ∨
      os.spawnOk st.children.length = false) := by
  unfold startOne at h
  dsimp only at h
  split at h
  · split at h
    · simp at h
    · rename_i h2
      simp at h; subst h
      exact ⟨rfl, .inr (by simpa using h2)⟩
  · rename_i ho
    split at h
    · split at h
      · simp at h
      · rename_i h2
        simp at h; subst h
        exact ⟨rfl, .inr (by simpa using h2)⟩
    · rename_i h2
      simp at h; subst h
      exact ⟨rfl, .inl ⟨by simpa using ho, by simpa using h2⟩⟩

theorem startAll_fail {os : Os} (cs : List Command) : ∀ {st st' : Spawning} {cmds : List Command}
    {prev prev' : Option Nat}, Started cmds st →
    prev = (if cmds.length = 0 then none else some (cmds.length - 1)) →
    startAll os st prev cs = (false, prev', st') →
    ∃ k st1, k < cs.length ∧ Started (cmds ++ cs.take k) st1 ∧ st'.children = st1.children ∧
      ((∃ j, os.tmpOk j = false) ∨ os.spawnOk (cmds.length + k) = false) := by
  induction cs with
  | nil => intro st st' cmds prev prev' h hp hs; simp [startAll] at hs
  | cons c cs ih =>
    intro st st' cmds prev prev' h hp hs
    simp only [startAll] at hs
    split at hs
    · rename_i st1 h1
      have h2 := started_one h hp h1
      obtain ⟨k, st2, k1, k2, k3, k4⟩ := ih h2 (by rw [h.len]; simp) hs
      refine ⟨k + 1, st2, by simp; omega, by simpa using k2, k3, ?_⟩
      rcases k4 with k4 | k4
      · exact .inl k4
      · right; rw [← k4]; congr 1; simp; omega
    · rename_i st1 h1
      simp at hs
      obtain ⟨-, rfl⟩ := hs
      obtain ⟨f1, f2⟩ := startOne_fail h1
      refine ⟨0, st, by simp, by simpa using h, f1, ?_⟩
      rcases f2 with ⟨-, f2⟩ | f2
      · exact .inl ⟨_, f2⟩
      · right; rw [← h.len]; simpa using f2

/-- C51: if a pipeline fails, a file could not be created or a process could not be
started, and the processes that were started are those of the first commands, in order. -/
theorem C51_pipeline_fails {os : Os} {cmds : List Command} (hne : cmds ≠ []) {st : Spawning}
    (h : spawnPipeline os cmds = (none, st)) :
    st.children.length < cmds.length ∧
    (∀ (i : Nat) (ch : Child) (c : Command), st.children[i]? = some ch → cmds[i]? = some c → ch.For c i) ∧
    ((∃ j, os.tmpOk j = false) ∨ os.spawnOk st.children.length = false) := by
  have hpre : ∀ (a b : List Command) (i : Nat) (c : Command), cmds = a ++ b → i < a.length →
      cmds[i]? = some c → a[i]? = some c := by
    intro a b i c e hi hc
    rw [e, List.getElem?_append, if_pos hi] at hc
    exact hc
  unfold spawnPipeline at h
  split at h
  · rename_i hl
    exact absurd (List.getLast?_eq_none_iff.mp hl) hne
  · rename_i last hl
    have hc : cmds = cmds.dropLast ++ [last] := by
      obtain ⟨ne, e⟩ := List.getLast?_eq_some_iff.mp hl
      rw [e]; simp
    have hlen : cmds.dropLast.length + 1 = cmds.length := by
      conv_rhs => rw [hc]
      simp
    split at h
    · rename_i prev st1 h1
      obtain ⟨h2, h3⟩ := started_all cmds.dropLast (cmds := []) (prev := none)
        ⟨rfl, by simp, rfl, rfl⟩ rfl h1
      split at h
      · simp at h
      · rename_i st2 h4
        simp at h; subst h
        obtain ⟨f1, f2⟩ := startOne_fail h4
        simp only [List.nil_append] at h2
        rw [f1]
        refine ⟨by rw [h2.len]; omega, ?_, ?_⟩
        · intro i ch c e1 e2
          have hi : i < st1.children.length := by
            apply Classical.byContradiction
            intro hn; rw [List.getElem?_eq_none (by omega)] at e1; simp at e1
          exact h2.child i ch c e1 (hpre _ _ i c hc (by rw [← h2.len]; exact hi) e2)
        · rcases f2 with ⟨-, f2⟩ | f2
          · exact .inl ⟨_, f2⟩
          · exact .inr f2
    · rename_i prev st1 h1
      simp at h; subst h
      obtain ⟨k, st2, k1, k2, k3, k4⟩ := startAll_fail cmds.dropLast (cmds := []) (prev := none)
        ⟨rfl, by simp, rfl, rfl⟩ rfl h1
      simp only [List.nil_append] at k2
      have hk : st2.children.length = k := by rw [k2.len]; simp at k1 ⊢; omega
      rw [k3]
      refine ⟨by rw [hk]; omega, ?_, ?_⟩
      · intro i ch c e1 e2
        have hi : i < st2.children.length := by
          apply Classical.byContradiction
          intro hn; rw [List.getElem?_eq_none (by omega)] at e1; simp at e1
        refine k2.child i ch c e1 (hpre _ (cmds.dropLast.drop k ++ [last]) i c ?_ (by rw [← k2.len]; exact hi) e2)
        rw [← List.append_assoc, List.take_append_drop]; exact hc
      · rcases k4 with k4 | k4
        · exact .inl k4
        · right; rw [hk]; simpa using k4

/-- Three commands, the second with its own handle for errors. -/
example : spawnPipeline ⟨fun _ => true, fun _ => true⟩
    [.new "a".toList, (Command.new "b".toList).stderrHandle, (Command.new "c".toList).arg "x".toList] =
    (some 2, { children := [⟨"a".toList, [], .inherit, .file 0⟩, ⟨"b".toList, [], .pipe 0, .own⟩,
        ⟨"c".toList, ["x".toList], .pipe 1, .file 1⟩], files := [0, 1] }) := by decide +kernel

/-! ### C52 -/

/-- A stream from a process: not seekable; `on_finish` is that of `ProcessStream`. -/
def procCfg (env : ProcEnv) : Cfg :=
  { demoCfg with
    contentLength := none
    remoteLen := some 4
    supportsSeek := false
    onFinish := fun r o => (procOnFinish env r (decide (o = .completed))).1 }

/-- C52 fails: a process writes 4 bytes and exits with a failure status.  The consumer reads
the 4 bytes and then the end of the file; nothing is reported. -/
theorem C52_failure_is_reported_violated :
    ∃ s0 s : Sys memStorage, Starts memProvider (procCfg ⟨some false, true⟩) s0 ∧
      Reach (procCfg ⟨some false, true⟩) (fun s a => Honest s a ∧ NoSeek s a) s0 s ∧
      s.spc = .ended ∧ s.failed = false ∧ delivered s.log = [1, 2, 3, 4] ∧
      Ev.readRet 4 4 false (.ok []) ∈ s.log := by
  obtain ⟨s0, s, h1, h2, h3⟩ := exists_of_runG (P := memProvider) (c := procCfg ⟨some false, true⟩)
    (g := fun s a => honestB s a && noSeekB s a) (G := fun s a => Honest s a ∧ NoSeek s a)
    (fun s a h => by
      rw [Bool.and_eq_true] at h; exact ⟨honest_of h.1, noSeek_of h.2⟩)
    { buf := [], written := 0, rp := 0, wp := 0 }
    ([.chunk 4] ++ srcs 6 ++ [.eof] ++ srcs 6 ++ [.read 4] ++ rdrs 4 ++ [.read 4] ++ rdrs 6)
    (fun s => decide (s.spc = .ended ∧ s.failed = false ∧ delivered s.log = [1, 2, 3, 4] ∧
      Ev.readRet 4 4 false (.ok []) ∈ s.log)) rfl rfl (by decide +kernel)
  exact ⟨s0, s, h1, h2, of_decide_eq_true h3⟩

/-- C52, what holds: after a success the process is awaited and not killed, otherwise it is
killed and not awaited; the error files are looked at exactly if the process failed or the
stream failed without being cancelled; an error of the stream is never turned into a
success, and a success is turned into an error exactly if the process cannot be awaited. -/
theorem C52_process_end_partial (env : ProcEnv) (result : Option Kind) (completed : Bool) :
    (ProcAct.wait ∈ (procOnFinish env result completed).2 ↔ result = none) ∧
    (ProcAct.kill ∈ (procOnFinish env result completed).2 ↔ result ≠ none) ∧
    (ProcAct.logStderr ∈ (procOnFinish env result completed).2 ↔
      (result = none ∧ env.wait = some false) ∨ (result ≠ none ∧ env.killOk = true ∧ completed = true)) ∧
    ((procOnFinish env result completed).1 = none ↔ result = none ∧ env.wait ≠ none) := by
  obtain ⟨w, k⟩ := env
  cases result with
  | none => cases w with
    | none => simp [procOnFinish]
    | some b => cases b <;> simp [procOnFinish]
  | some e => cases k <;> cases completed <;> simp [procOnFinish]

/-- C52: in particular the results about streams whose `on_finish` keeps errors hold for
processes. -/
theorem C52_keeps_errors (env : ProcEnv) : (procCfg env).KeepsErrors := by
  intro k o h
  exact absurd ((C52_process_end_partial env (some k) (decide (o = .completed))).2.2.2.mp h).1 (by simp)

example : procOnFinish ⟨some false, true⟩ none true = (none, [.wait, .logStderr, .closeFiles]) := rfl
example : procOnFinish ⟨some true, true⟩ (some .interrupted) false = (some .interrupted, [.kill, .closeFiles]) := rfl

end SD
