import Verif.Props.Calm
import Verif.Proof.LiveSystem
import Verif.Spec.CalmSystem

/-!
# Histories over HTTP, OpenDAL, readers and processes in which no read fails
-/

set_option linter.unusedVariables false

namespace SD

variable {S : Storage}

/-- What the system sees of such a history. -/
def Smooth (c : Cfg) (fits : Nat → Prop) (s : Sys S) (a : Act) : Prop :=
  (Faithful c s a ∧ NoSeek s a) ∧ a ≠ .cancel ∧ ∀ n, a = .read n → fits n

theorem Reach.smooth {P : Provider} {c : Cfg} (hP : Supported c.contentLength P) {m : Nat}
    (hfin : c.Finite m) {s0 s : Sys P.S} (h0 : Starts P c s0) {fits : Nat → Prop} (h : Reach c (Smooth c fits) s0 s) :
    Reach c (fun s a => Undisturbed s a ∧ NoSeek s a ∧ ∀ n, a = .read n → fits n) s0 s := by
  induction h with
  | refl => exact .refl
  | @step s s' a hr hg hs ih =>
    refine ih.step ⟨⟨hg.2.1, fun k e => ?_⟩, hg.1.2, hg.2.2⟩ hs
    subst e
    have ht := tr_of_step hs
    have hno := no_ask hP hfin h0 (hr.mono fun _ _ hg => hg.1)
    cases ht
    case seekFail start stop heq => exact hno _ _ heq

theorem http_smooth {remote : List Byte} {b : Byte} {P : Provider} {c : Cfg}
    {mime : Text → Option (Text × Text)} {answer : Answer} (hA : RangeServer remote answer)
    {w0 w : HSys P.S} (h0 : HStarts P c mime answer w0) {fits : Nat → Prop}
    (h : HReach c (RangeServer remote) (HCalm fits) w0 w) :
    Reach (c.on remote b) (Smooth (c.on remote b) fits) w0.sys w.sys ∧ HInv remote c w := by
  obtain ⟨-, -, -, -, st, -, e0⟩ := h0.2.2.2 |> fun x => (⟨trivial, trivial, trivial, x⟩ : True ∧ True ∧ True ∧ _)
  induction h with
  | refl => exact ⟨.refl, HInv.starts hA h0⟩
  | @step w w' a hr hans hg hs ih =>
    have hok : RangesOk w a := fun start e hp => Or.inl (noSeek_ranges (c := c.on remote b) (st := st)
      (by have := ih.1.mono (G' := NoSeek) fun _ _ hg => hg.1.2
          rw [e0] at this; exact this) start e hp)
    obtain ⟨h1, x, k1, k2, k3⟩ := hstep_sim (b := b) ih.2 hans hok hs
    refine ⟨ih.1.step ⟨⟨⟨k2, ?_⟩, ?_⟩, ?_, ?_⟩ k3, h1⟩
    · rintro rfl
      cases k1 with
      | sys _ _ =>
        have hb := ih.2.body (by
          have := tr_of_step k3
          have hs : w.sys.spc = .sel := by
            generalize w'.sys = s' at this
            cases this <;> assumption
          rw [hs]; rfl)
        rw [hg.whole rfl] at hb
        rcases empty_bytesIn hb.symm with h | ⟨e, h, h'⟩
        · exact Or.inl ⟨_, rfl, h⟩
        · exact Or.inr ⟨e, h, h'⟩
    · rintro f rfl; cases k1; exact hg.seek f rfl
    · rintro rfl; cases k1; exact hg.cancel rfl
    · rintro n rfl; cases k1; exact hg.read n rfl

theorem src_smooth {R : Source} {W : World R} {remote : List Byte} (V : Serves R W remote true) {b : Byte} {c : Cfg}
    {w0 w : XSys R S} (hi : XInv V w0) {fits : Nat → Prop} (h : XReach c W (XCalm fits) w0 w) :
    Reach (c.on remote b) (Smooth (c.on remote b) fits) w0.sys w.sys ∧ XInv V w := by
  induction h with
  | refl => exact ⟨.refl, hi⟩
  | @step w w' a hr hA hg hs ih =>
    obtain ⟨h1, x, k1, k2, k3⟩ := xstep_sim V (b := b) ih.2 hA hs
    refine ⟨ih.1.step ⟨⟨⟨k2, ?_⟩, ?_⟩, ?_, ?_⟩ k3, h1⟩
    · rintro rfl
      cases k1 with
      | sys _ hf => simp [Act.ofSource] at hf
      | eof e he =>
        have hs : w.sys.spc = .sel := by
          have := tr_of_step k3
          generalize w'.sys = s' at this
          cases this <;> assumption
        have hb := (V.done (ih.2.at' (by rw [hs]; rfl)) hA he).2.2 rfl
        rcases empty_bytesIn hb with h | ⟨e, h, h'⟩
        · exact Or.inl ⟨_, rfl, h⟩
        · exact Or.inr ⟨e, h, h'⟩
    · rintro f rfl; cases k1; exact hg.seek f rfl
    · rintro rfl; cases k1; exact hg.cancel rfl
    · rintro n rfl; cases k1; exact hg.read n rfl

/-- Every history with a process is one with a reader, for an answer of the process in which
`wait` succeeds if the calls to the operating system do. -/
theorem preach_good {c : Cfg} {W : World asyncReadSource} {fits : Nat → Prop} {w0 w : PSys S}
    (h : PReach c W (PCalm fits) w0 w) :
    (w.x.sys.spc.past = false → ∀ env, XReach (c.finishing env) W (XCalm fits) w0.x w.x) ∧
      ∃ env, env.wait ≠ none ∧ XReach (c.finishing env) W (XCalm fits) w0.x w.x := by
  induction h with
  | refl => exact ⟨fun _ _ => .refl, ⟨some true, true⟩, by simp, .refl⟩
  | @step w w' a hr hA hg hs ih =>
    obtain ⟨i1, i2⟩ := ih
    cases a with
    | x a =>
      have hc : XCalm fits w.x a := ⟨fun e => hg.cancel (by rw [e]), fun f e => hg.seek f (by rw [e]),
        fun n e => hg.read n (by rw [e])⟩
      simp only [pstep] at hs
      split at hs
      · simp at hs
      · rename_i hn
        rw [Bool.and_eq_true] at hn
        split at hs
        · rename_i x1 h1
          simp at hs; subst hs
          rw [release_x]
          have hp := plain_xstep h1 hn
          refine ⟨fun h env => ?_, ?_⟩
          · exact (i1 (by rw [← hp.past]; exact h) env).step hA hc (by rw [xstep_onFinish hn]; exact h1)
          · obtain ⟨env, he, i2⟩ := i2
            exact ⟨env, he, i2.step hA hc (by rw [xstep_onFinish hn]; exact h1)⟩
        · simp at hs
    | exitEarly k b => simp [pstep] at hs; subst hs; exact ⟨i1, i2⟩
    | exit b => simp [pstep] at hs; subst hs; exact ⟨i1, i2⟩
    | finish b =>
      have hb : b = true := by
        cases b with
        | true => rfl
        | false => exact absurd rfl hg.os
      subst hb
      obtain ⟨r, o, h1, h2, h3, h4, h5, h6, h7⟩ := finish_step hs
      have hc : XCalm (R := asyncReadSource) fits w.x (.sys .src) := ⟨nofun, nofun, nofun⟩
      refine ⟨fun h => ?_, ?_⟩
      · rw [h7] at h
        dsimp only at h
        split at h <;> simp [SrcPc.past] at h
      · have hpast : w.x.sys.spc.past = false := by rw [h1]; rfl
        cases r with
        | none =>
          exact ⟨w.env true, by simpa [PSys.env] using h2 rfl rfl,
            (i1 hpast _).step (show W.Allows w.x (.sys .src) from trivial) hc h6⟩
        | some k =>
          refine ⟨⟨some true, true⟩, by simp,
            (i1 hpast _).step (show W.Allows w.x (.sys .src) from trivial) hc ?_⟩
          rw [← h6]
          simp only [xstep, step, srcStep, h1, Proc.procOnFinish, PSys.env]

end SD
