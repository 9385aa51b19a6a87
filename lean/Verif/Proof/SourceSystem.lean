import Verif.Spec.SourceSystem
import Verif.Proof.HttpSystem
import Verif.Props.Readers

/-!
# The system with a source that serves a resource is an instance of the system
-/

set_option linter.unusedVariables false

namespace SD

variable {S : Storage} {R : Source}

/-- In the world `W` the source delivers the bytes of `remote` from where it was asked to.
`At t p lim`: the next byte is that at `p`, and the last one is before `lim`.  `Over t`: it
has said that it is at its end.  With `strict` it says so only there. -/
structure Serves (R : Source) (W : World R) (remote : List Byte) (strict : Bool) where
  At : R.τ → Nat → Option Nat → Prop
  Over : R.τ → Prop
  chunk : ∀ {t e p lim bs}, At t p lim → W.poll t e → (R.poll t e).1 = .chunk bs → bs ≠ [] ∧
    bs <+: bytesIn remote p lim ∧ At (R.poll t e).2 (p + bs.length) lim ∧ ¬ Over t
  err : ∀ {t e p lim}, At t p lim → W.poll t e → (R.poll t e).1 = .err →
    At (R.poll t e).2 p lim ∧ (Over t → Over (R.poll t e).2)
  done : ∀ {t e p lim}, At t p lim → W.poll t e → (R.poll t e).1 = .done →
    At (R.poll t e).2 p lim ∧ Over (R.poll t e).2 ∧ (strict = true → bytesIn remote p lim = [])
  seek : ∀ {t e start stop}, (∃ p lim, At t p lim) → W.seek start stop e →
    (R.seekRange t e start stop).1 ≠ .panic ∧
    ((R.seekRange t e start stop).1 = .ok () → At (R.seekRange t e start stop).2 start stop)
  reconn : ∀ {t e p}, (∃ p lim, At t p lim) → W.seek p none e →
    (R.reconnect t e p).1 ≠ .panic ∧ ((R.reconnect t e p).1 = .ok () → At (R.reconnect t e p).2 p none) ∧
    (∀ k, (R.reconnect t e p).1 = .err k → (R.reconnect t e p).2 = t)

/-- What the system sees of an action. -/
inductive XAct.Is (t : R.τ) : XAct R → Act → Prop
  | sys (a : Act) : a.ofSource = false → XAct.Is t (.sys a) a
  | chunk (e : R.PollEnv) (n : Nat) : 0 < n → XAct.Is t (.poll e) (.chunk n)
  | chunkErr (e : R.PollEnv) : (R.poll t e).1 = .err → XAct.Is t (.poll e) .chunkErr
  | eof (e : R.PollEnv) : (R.poll t e).1 = .done → XAct.Is t (.poll e) .eof
  | seekOk (e : R.SeekEnv) (p : Nat) : XAct.Is t (.seekRange e) (.seekOk p)
  | seekFail (e : R.SeekEnv) (k : Kind) : XAct.Is t (.seekRange e) (.seekFail k)
  | reconnOk (e : R.SeekEnv) (p : Nat) : (R.reconnect t e p).1 = .ok () → XAct.Is t (.reconnect e) (.reconnOk p)
  | reconnFail (e : R.SeekEnv) : XAct.Is t (.reconnect e) .reconnFail

theorem step_on_source {c : Cfg} {remote : List Byte} {b : Byte} {s : Sys S} {a : Act} (ha : a.ofSource = false) :
    step (c.on remote b) s a = step c s a := by
  cases a <;> first | rfl | simp [Act.ofSource] at ha

set_option maxHeartbeats 4000000 in
/-- Other actions leave the transport where it is. -/
theorem source_frame {c : Cfg} {s s' : Sys S} {a : Act} (ht : Tr c s a s') (ha : a.ofSource = false) :
    s'.tpos = s.tpos ∧ s'.tlim = s.tlim ∧ s'.tend = s.tend ∧ (s'.spc.active = true → s.spc.active = true) := by
  cases ht <;> grind [Act.ofSource, SrcPc.active, SrcPc.live, roundPc, startPc]

/-- Between the system and the source. -/
structure XInv {W : World R} {remote : List Byte} {strict : Bool} (V : Serves R W remote strict)
    (w : XSys R S) : Prop where
  at' : w.sys.spc.active = true → V.At w.src w.sys.tpos w.sys.tlim
  over : w.sys.spc.active = true → w.sys.tend = true → V.Over w.src

theorem handleChunk_tend (s : Sys S) (bs : List Byte) : (handleChunk s bs).tend = s.tend := by
  unfold handleChunk startWrite
  split
  · rfl
  · split <;> split <;> rfl

theorem handleEof_frame (s : Sys S) :
    (handleEof s).tpos = s.tpos ∧ (handleEof s).tlim = s.tlim ∧ (handleEof s).tend = s.tend := by
  unfold handleEof startWrite
  split
  · exact ⟨rfl, rfl, rfl⟩
  · split
    · split <;> exact ⟨rfl, rfl, rfl⟩
    · exact ⟨rfl, rfl, rfl⟩

/-- A step with the source is a step of the system with an honest transport. -/
theorem xstep_sim {W : World R} {remote : List Byte} {strict : Bool} (V : Serves R W remote strict) {b : Byte}
    {c : Cfg} {w w' : XSys R S} {a : XAct R} (hi : XInv V w) (hA : W.Allows w a)
    (hs : xstep R c w a = some w') :
    XInv V w' ∧ ∃ x, a.Is w.src x ∧ Honest w.sys x ∧ step (c.on remote b) w.sys x = some w'.sys := by
  obtain ⟨i1, i2⟩ := hi
  have hon : ∀ x : Act, (∀ p, x ≠ .seekOk p) → (∀ p, x ≠ .reconnOk p) → Honest w.sys x := by
    intro x h1 h2
    exact ⟨fun start stop pos _ h => absurd h (h1 pos), fun p pos _ h => absurd h (h2 pos)⟩
  cases a with
  | sys a =>
    simp only [xstep] at hs
    split at hs
    · simp at hs
    · rename_i ha
      have ha : a.ofSource = false := by simpa using ha
      split at hs
      · rename_i s1 h1
        simp at hs; subst hs
        have hf := source_frame (tr_of_step h1) ha
        refine ⟨⟨fun h => ?_, fun h ht => ?_⟩, a, .sys a ha, hon a ?_ ?_, by rw [step_on_source ha]; exact h1⟩
        · dsimp only
          rw [hf.1, hf.2.1]; exact i1 (hf.2.2.2 h)
        · exact i2 (hf.2.2.2 h) (by dsimp only at ht; rw [← hf.2.2.1]; exact ht)
        · rintro p rfl; simp [Act.ofSource] at ha
        · rintro p rfl; simp [Act.ofSource] at ha
      · simp at hs
  | poll e =>
    simp only [xstep] at hs
    split at hs
    · rename_i hsel
      have hat := i1 (by rw [hsel]; rfl)
      have hov := i2 (by rw [hsel]; rfl)
      have hW : W.poll w.src e := hA
      split at hs
      · rename_i bs t hp
        simp at hs; subst hs
        have e1 : (R.poll w.src e).1 = .chunk bs := by rw [hp]
        have e2 : (R.poll w.src e).2 = t := by rw [hp]
        obtain ⟨k1, k2, k3, k4⟩ := V.chunk hat hW e1
        rw [e2] at k3
        have hpos : 0 < bs.length := List.length_pos_iff.2 k1
        have hle : bs.length ≤ (bytesIn remote w.sys.tpos w.sys.tlim).length := k2.length_le
        obtain ⟨s1, s2, s3, s4⟩ := slice_bytesIn (b := b) hpos hle
        have hbs : bs = slice (fun i => remote.getD i b) w.sys.tpos bs.length := by
          rw [← s1]; exact List.prefix_iff_eq_take.1 k2
        have htend : w.sys.tend = false := by
          cases h : w.sys.tend
          · rfl
          · exact absurd (hov h) k4
        refine ⟨⟨fun _ => ?_, fun _ h => ?_⟩, .chunk bs.length, .chunk e bs.length hpos,
          hon _ (by simp) (by simp), ?_⟩
        · dsimp only
          rw [(handleChunk_frame _ _).1, (handleChunk_frame _ _).2]
          exact k3
        · dsimp only at h
          rw [handleChunk_tend] at h
          dsimp only at h
          rw [htend] at h; simp at h
        · have e5 : leOpt (w.sys.tpos + bs.length) (c.on remote b).remoteLen = true := by
            simpa [Cfg.on, leOpt] using s4
          have e6 : (c.on remote b).remote = fun i => remote.getD i b := rfl
          simp only [step]
          rw [if_pos ⟨hsel, htend, s3, e5⟩, e6, ← hbs]
      · rename_i t hp
        simp at hs; subst hs
        have e1 : (R.poll w.src e).1 = .err := by rw [hp]
        have e2 : (R.poll w.src e).2 = t := by rw [hp]
        obtain ⟨k1, k2⟩ := V.err hat hW e1
        rw [e2] at k1 k2
        refine ⟨⟨fun _ => k1, fun _ h => k2 (hov h)⟩, .chunkErr, .chunkErr e e1, hon _ (by simp) (by simp), ?_⟩
        simp [step, hsel]
      · rename_i t hp
        simp at hs; subst hs
        have e1 : (R.poll w.src e).1 = .done := by rw [hp]
        have e2 : (R.poll w.src e).2 = t := by rw [hp]
        obtain ⟨k1, k2, -⟩ := V.done hat hW e1
        rw [e2] at k1 k2
        refine ⟨⟨fun _ => ?_, fun _ _ => k2⟩, .eof, .eof e e1, hon _ (by simp) (by simp), ?_⟩
        · dsimp only
          rw [(handleEof_frame _).1, (handleEof_frame _).2.1]; exact k1
        · simp [step, hsel]
    · simp at hs
  | seekRange e =>
    simp only [xstep] at hs
    split at hs
    · rename_i start stop hp
      have hat := i1 (by rw [hp]; rfl)
      obtain ⟨k1, k2⟩ := V.seek (start := start) (stop := stop) ⟨_, _, hat⟩ (hA start stop hp)
      split at hs
      · rename_i u t hok
        rw [hok] at k1 k2
        simp only [step, hp] at hs
        split at hs
        · rename_i s1 h1
          simp at hs; subst hs
          refine ⟨⟨fun h => ?_, fun h ht => ?_⟩, .seekOk start, .seekOk _ _, ?_, ?_⟩
          · dsimp only at h ⊢
            split at h1
            · simp at h1; subst h1; exact k2 rfl
            · simp at h1; subst h1; simp [SrcPc.active, SrcPc.live] at h
            · simp at h1; subst h1; simp [SrcPc.active, SrcPc.live] at h
          · exfalso
            dsimp only at h ht
            split at h1
            · simp at h1; subst h1; simp at ht
            · simp at h1; subst h1; simp [SrcPc.active, SrcPc.live] at h
            · simp at h1; subst h1; simp [SrcPc.active, SrcPc.live] at h
          · constructor
            · rintro start' stop' pos h h'
              simp at h'; subst h'
              rw [hp] at h; simp at h; exact h.1
            · rintro p pos - h; simp at h
          · simp only [step, hp]; exact h1
        · simp at hs
      · rename_i k t hk
        simp only [step, hp] at hs
        simp at hs; subst hs
        exact ⟨⟨fun h => by simp [SrcPc.active, SrcPc.live] at h, fun h => by simp [SrcPc.active, SrcPc.live] at h⟩,
          .seekFail k, .seekFail _ _, hon _ (by simp) (by simp), by simp [step, hp]⟩
      · rename_i t hk
        rw [hk] at k1; simp at k1
    · simp at hs
  | reconnect e =>
    simp only [xstep] at hs
    split at hs
    · rename_i p hp
      have hat := i1 (by rw [hp]; rfl)
      have hov := i2 (by rw [hp]; rfl)
      obtain ⟨k1, k2, k3⟩ := V.reconn (p := p) ⟨_, _, hat⟩ (hA p hp)
      split at hs
      · rename_i u t hok
        rw [hok] at k1 k2
        simp only [step, hp] at hs
        simp at hs; subst hs
        refine ⟨⟨fun h => k2 rfl, fun _ h => by simp at h⟩, .reconnOk p, .reconnOk _ _ (by rw [hok]), ?_, by simp [step, hp]⟩
        constructor
        · rintro start stop pos - h; simp at h
        · rintro p' pos h h'
          simp at h'; subst h'
          rw [hp] at h; simp at h; exact h
      · rename_i k t hk
        rw [hk] at k3
        have e1 := k3 k rfl
        dsimp only at e1
        simp only [step, hp] at hs
        simp at hs; subst hs
        refine ⟨⟨fun _ => by rw [e1]; exact hat, fun _ h => by rw [e1]; exact hov h⟩, .reconnFail, .reconnFail _,
          hon _ (by simp) (by simp), by simp [step, hp]⟩
      · rename_i t hk
        rw [hk] at k1; simp at k1
    · simp at hs

/-- The general simulation. -/
theorem xreach_sim {W : World R} {remote : List Byte} {strict : Bool} (V : Serves R W remote strict) {b : Byte}
    {c : Cfg} {G : XSys R S → XAct R → Prop} {G' : Sys S → Act → Prop}
    (hG : ∀ w a x, XInv V w → W.Allows w a → G w a → a.Is w.src x → step (c.on remote b) w.sys x ≠ none →
      G' w.sys x)
    {w0 w : XSys R S} (hi : XInv V w0) (h : XReach c W G w0 w) :
    Reach (c.on remote b) (fun s x => Honest s x ∧ G' s x) w0.sys w.sys ∧ XInv V w := by
  induction h with
  | refl => exact ⟨.refl, hi⟩
  | step _ hA hg hs ih =>
    obtain ⟨h1, x, h2, h3, h4⟩ := xstep_sim V (b := b) ih.2 hA hs
    exact ⟨ih.1.step ⟨h3, hG _ _ _ ih.2 hA hg h2 (by rw [h4]; simp)⟩ h4, h1⟩

/-! ### The two sources -/

theorem pollNext_opendal (s : OpendalStream) (alloc : Nat → Nat) (a : ReadAns) :
    s.pollNext alloc a = ((s.reader.pollNext alloc s.capacity a).1,
      { s with reader := (s.reader.pollNext alloc s.capacity a).2 }) := rfl

/-- An OpenDAL stream serves the object. -/
def opendalServes (object : List Byte) : Serves opendalSource (storeWorld object) object true where
  At t p lim := t.reader.buf = [] ∧ 0 < t.capacity ∧ t.reader.rest = bytesIn object p lim
  Over t := t.reader.rest = []
  chunk := by
    rintro t e p lim bs ⟨h1, h2, h3⟩ ⟨hle, ha⟩ hp
    have hs : PollSpec e.1 t.capacity t.reader e.2 := pollNext_spec h1 h2 hle ha
    have hp : (t.reader.pollNext e.1 t.capacity e.2).1 = .chunk bs := hp
    have hsp := hs.split
    rw [hp, h3] at hsp
    simp only [PollAns.bytes] at hsp
    refine ⟨hs.chunk bs hp, ⟨_, hsp⟩, ⟨hs.empty, h2, ?_⟩, ?_⟩
    · rw [← drop_bytesIn, ← hsp]
      simp only [List.drop_left]; rfl
    · intro h
      rw [h3] at h
      rw [h] at hsp
      exact hs.chunk bs hp (List.append_eq_nil_iff.1 hsp).1
  err := by
    rintro t e p lim ⟨h1, h2, h3⟩ ⟨hle, ha⟩ hp
    have hs : PollSpec e.1 t.capacity t.reader e.2 := pollNext_spec h1 h2 hle ha
    have hp : (t.reader.pollNext e.1 t.capacity e.2).1 = .err := hp
    have hsp := hs.split
    rw [hp] at hsp
    simp only [PollAns.bytes, List.nil_append] at hsp
    exact ⟨⟨hs.empty, h2, hsp.trans h3⟩, fun h => hsp.trans h⟩
  done := by
    rintro t e p lim ⟨h1, h2, h3⟩ ⟨hle, ha⟩ hp
    have hs : PollSpec e.1 t.capacity t.reader e.2 := pollNext_spec h1 h2 hle ha
    have hp : (t.reader.pollNext e.1 t.capacity e.2).1 = .done := hp
    have hsp := hs.split
    rw [hp] at hsp
    simp only [PollAns.bytes, List.nil_append] at hsp
    have h0 := hs.done hp
    exact ⟨⟨hs.empty, h2, hsp.trans h3⟩, hsp.trans h0, fun _ => by rw [← h3]; exact h0⟩
  seek := by
    rintro t e start stop ⟨p, lim, h1, h2, h3⟩ ⟨hne, hW⟩
    cases e with
    | ok rest =>
      refine ⟨by simp [opendalSource], fun _ => ⟨h1, h2, hW rest rfl⟩⟩
    | err k => exact ⟨by simp [opendalSource], by simp [opendalSource]⟩
    | panic => exact absurd rfl hne
  reconn := by
    rintro t e p ⟨p', lim, h1, h2, h3⟩ ⟨hne, hW⟩
    cases e with
    | ok rest =>
      refine ⟨by simp [opendalSource], fun _ => ⟨h1, h2, hW rest rfl⟩, by simp [opendalSource]⟩
    | err k => exact ⟨by simp [opendalSource], by simp [opendalSource], fun _ _ => rfl⟩
    | panic => exact absurd rfl hne

/-- A stream over a reader serves what the reader delivers; without errors it says that it
is at its end only there. -/
def readerServes (bytes : List Byte) (errors : Bool) :
    Serves asyncReadSource (readerWorld errors) bytes (!errors) where
  At t p lim := lim = none ∧ t.reader.buf = [] ∧ t.reader.rest = bytesIn bytes p none ∧
    (errors = false → t.gone = true → t.reader.rest = [])
  Over t := t.gone = true
  chunk := by
    rintro t e p lim bs ⟨rfl, h1, h2, h3⟩ ⟨hle, ha, hne⟩ hp
    have hs : PollSpec e.1 4096 t.reader e.2 := pollNext_spec h1 (by decide) hle ha
    have hp : (t.pollNext e.1 e.2).1 = .chunk bs := hp
    show bs ≠ [] ∧ _ ∧ (_ ∧ (t.pollNext e.1 e.2).2.reader.buf = [] ∧ (t.pollNext e.1 e.2).2.reader.rest = _ ∧
      (_ → (t.pollNext e.1 e.2).2.gone = true → (t.pollNext e.1 e.2).2.reader.rest = [])) ∧ _
    have h4 := hs.empty
    have h5 := hs.split
    have h6 := hs.chunk
    unfold AsyncReadStream.pollNext at hp ⊢
    cases hg : t.gone with
    | true => rw [hg] at hp; simp at hp
    | false =>
      simp only [hg, Bool.false_eq_true, if_false] at hp ⊢
      cases hq : t.reader.pollNext e.1 4096 e.2 with
      | mk x r =>
        rw [hq] at hp h4 h5 h6
        cases x with
        | chunk bs' =>
          simp at hp; subst hp
          simp only [PollAns.bytes] at h4 h5 h6 ⊢
          refine ⟨h6 _ rfl, ⟨_, by rw [← h2]; exact h5⟩, ⟨by trivial, h4, ?_, by simp⟩, by simp⟩
          rw [← drop_bytesIn, ← h2, ← h5]; simp
        | err => simp at hp
        | done => simp at hp
  err := by
    rintro t e p lim ⟨rfl, h1, h2, h3⟩ ⟨hle, ha, hne⟩ hp
    have hs : PollSpec e.1 4096 t.reader e.2 := pollNext_spec h1 (by decide) hle ha
    have hp : (t.pollNext e.1 e.2).1 = .err := hp
    show (_ ∧ (t.pollNext e.1 e.2).2.reader.buf = [] ∧ (t.pollNext e.1 e.2).2.reader.rest = _ ∧
      (_ → (t.pollNext e.1 e.2).2.gone = true → (t.pollNext e.1 e.2).2.reader.rest = [])) ∧
      (_ → (t.pollNext e.1 e.2).2.gone = true)
    have h4 := hs.empty
    have h5 := hs.split
    unfold AsyncReadStream.pollNext at hp ⊢
    cases hg : t.gone with
    | true => rw [hg] at hp; simp at hp
    | false =>
      simp only [hg, Bool.false_eq_true, if_false] at hp ⊢
      have herr : (t.reader.pollNext e.1 4096 e.2).1 = .err → errors = true := by
        intro h
        cases he : errors
        · exfalso
          have hne := hne he
          cases ha2 : e.2 with
          | err => exact hne ha2
          | data n =>
            rw [ha2] at h
            unfold BufReader.pollNext BufReader.pollRead at h
            cases n <;> simp at h
        · rfl
      cases hq : t.reader.pollNext e.1 4096 e.2 with
      | mk x r =>
        rw [hq] at hp h4 h5 herr
        cases x with
        | chunk bs' => simp at hp
        | err =>
          simp only [PollAns.bytes, List.nil_append] at h4 h5 ⊢
          exact ⟨⟨by trivial, h4, h5.trans h2, fun h => by rw [herr rfl] at h; simp at h⟩, fun _ => by trivial⟩
        | done => simp at hp
  done := by
    rintro t e p lim ⟨rfl, h1, h2, h3⟩ ⟨hle, ha, hne⟩ hp
    have hs : PollSpec e.1 4096 t.reader e.2 := pollNext_spec h1 (by decide) hle ha
    have hp : (t.pollNext e.1 e.2).1 = .done := hp
    show (_ ∧ (t.pollNext e.1 e.2).2.reader.buf = [] ∧ (t.pollNext e.1 e.2).2.reader.rest = _ ∧
      (_ → (t.pollNext e.1 e.2).2.gone = true → (t.pollNext e.1 e.2).2.reader.rest = [])) ∧
      (t.pollNext e.1 e.2).2.gone = true ∧ _
    have h4 := hs.empty
    have h5 := hs.split
    have h6 := hs.done
    unfold AsyncReadStream.pollNext at hp ⊢
    cases hg : t.gone with
    | true =>
      simp only [if_true]
      refine ⟨⟨by trivial, h1, h2, h3⟩, hg, fun h => ?_⟩
      rw [← h2]; exact h3 (by simpa using h) hg
    | false =>
      simp only [hg, Bool.false_eq_true, if_false] at hp ⊢
      cases hq : t.reader.pollNext e.1 4096 e.2 with
      | mk x r =>
        rw [hq] at hp h4 h5 h6
        cases x with
        | chunk bs' => simp at hp
        | err => simp at hp
        | done =>
          simp only [PollAns.bytes, List.nil_append] at h4 h5 h6 ⊢
          have h0 := h6 (by trivial)
          exact ⟨⟨by trivial, h4, h5.trans h2, fun _ _ => h5.trans h0⟩, by trivial, fun _ => by rw [← h2]; exact h0⟩
  seek := by
    intro t e start stop _ _
    exact ⟨by simp [asyncReadSource, AsyncReadStream.seekRange], by simp [asyncReadSource, AsyncReadStream.seekRange]⟩
  reconn := by
    intro t e p _ _
    exact ⟨by simp [asyncReadSource, AsyncReadStream.reconnect], by simp [asyncReadSource, AsyncReadStream.reconnect],
      fun _ _ => rfl⟩

theorem XInv.opendal {P : Provider} {c : Cfg} {object : List Byte} {w0 : XSys opendalSource P.S}
    (h : OStarts P c object w0) : XInv (opendalServes object) w0 := by
  obtain ⟨⟨alloc, n, h1, h2, h3, h4⟩, -, -, st, -, h5⟩ := h
  constructor
  · intro _
    rw [h3, h5]
    exact ⟨rfl, h2, rfl⟩
  · intro _ h
    rw [h5] at h; simp [init] at h

theorem XInv.reader {P : Provider} {c : Cfg} {bytes : List Byte} (errors : Bool) {w0 : XSys asyncReadSource P.S}
    (h : RStarts P c bytes w0) : XInv (readerServes bytes errors) w0 := by
  obtain ⟨h1, -, -, st, -, h5⟩ := h
  constructor
  · intro _
    rw [h1, h5]
    exact ⟨rfl, rfl, rfl, by simp [asyncReadNew]⟩
  · intro _ h
    rw [h5] at h; simp [init] at h

end SD
