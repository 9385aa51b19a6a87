import Verif.Proof.Gentle
import Verif.Proof.Sys.Pos

/-! # When a call of the consumer panics -/

set_option linter.unusedSimpArgs false
set_option linter.unusedVariables false

namespace SD

variable {S : Storage}

/-- The buffer of the read call the consumer is about to make a decision on. -/
def RdrPc.deciding : RdrPc → Option Nat
  | .rDecide n => some n
  | _ => none

/-- Where a `seek` call of the consumer goes. -/
def RdrPc.goal : RdrPc → Option Nat
  | .sDecide p | .sSet p | .sSend p | .sWait p | .sCheck p | .sSeek p => some p
  | _ => none

/-- The position a `read` call is about to ask for. -/
def RdrPc.asking : RdrPc → Option Nat
  | .rSet _ r => some r
  | _ => none

/-- What is needed at each step: the reader is moved only up to `N`, the addition of a position does not overflow, and
buffers have at most `B` bytes. -/
structure Mild (N B : Nat) (c : Cfg) (s : Sys S) (a : Act) : Prop where
  buf : ∀ n, a = .read n → n ≤ B
  goal : ∀ f p, a = .seek f → c.absolute (S.tell s.st).1 f = .ok p → c.normalize p ≤ N
  safe : ∀ f, a = .seek f → c.absolute (S.tell s.st).1 f ≠ .panic

/-- Where the consumer is, and what it asks for; a panic takes a position near the end of `u64`. -/
structure ReaderCalm {seeks : Bool} {N : Nat} (Q : Gentle S seeks N) (R : Positional S) (B : Nat) (s : Sys S) : Prop where
  ok : Q.Ok s.st
  buf : ∀ n, s.rpc.deciding = some n → n ≤ B
  goal : ∀ p, s.rpc.goal = some p → seeks = true ∧ p ≤ N
  pos : PosInv R s
  far : logPos s.log ≤ N + (delivered s.log).length
  calm : s.rpc = .panicked → two64 ≤ N + (delivered s.log).length + B
  ask : ∀ r, s.rpc.asking = some r → r ≤ N + (delivered s.log).length + B
  reqs : ∀ r, Ev.request r ∈ s.log → r ≤ N + (delivered s.log).length + B

theorem ReaderCalm.step {seeks : Bool} {N B : Nat} {Q : Gentle S seeks N} {R : Positional S} {c : Cfg} {s s' : Sys S}
    {a : Act} (h : ReaderCalm Q R B s) (hs : seeks = false → NoSeek s a) (hm : Mild N B c s a) (ht : Tr c s a s') :
    ReaderCalm Q R B s' := by
  have hpos := h.pos.step ht
  obtain ⟨t1, t2, t3, t4⟩ := R.tell h.pos.ok
  have hrp := h.pos.rp
  obtain ⟨h1, h2, h3, -, h5, h6, h7, h8⟩ := h
  have ht2 := Q.tell h1
  cases ht
  case rRead n fast bs st' heq hr =>
    refine ⟨Q.read h1 hr, by simp [RdrPc.deciding], by simp [RdrPc.goal], hpos, ?_, by simp, by simp [RdrPc.asking], ?_⟩
    · simp only [logPos, delivered, List.length_append]
      omega
    · intro r hm'
      have := h8 r (by simpa using hm')
      simp only [delivered, List.length_append]
      omega
  case rReadPanic n fast heq hr => exact absurd hr (Q.read_safe h1)
  case sSeek p st' heq hr =>
    obtain ⟨g1, g2⟩ := h3 p (by simp [heq, RdrPc.goal])
    refine ⟨Q.rseek h1 g2 hr, by simp [RdrPc.deciding], by simp [RdrPc.goal], hpos, ?_, by simp, by simp [RdrPc.asking], ?_⟩
    · simp only [logPos, delivered]
      omega
    · intro r hm'
      exact h8 r (by simpa using hm')
  case sSeekPanic p heq hr =>
    obtain ⟨g1, g2⟩ := h3 p (by simp [heq, RdrPc.goal])
    exact absurd hr (Q.rseek_safe g1 h1 g2)
  case rDecidePanic n heq hov =>
    refine ⟨ht2, by simp [RdrPc.deciding], by simp [RdrPc.goal], hpos, h5, fun _ => ?_, by simp [RdrPc.asking], h8⟩
    have := h2 n (by simp [heq, RdrPc.deciding])
    simp only
    omega
  case seekPanic f heq hv hf hp => exact absurd hp (hm.safe f rfl)
  case pfWriteMore hw _ => exact ⟨Q.write h1 hw, h2, h3, hpos, h5, h6, h7, fun r hm' => h8 r (by simpa using hm')⟩
  case pfWriteEnd hw => exact ⟨Q.write h1 hw, h2, h3, hpos, h5, h6, h7, fun r hm' => h8 r (by simpa using hm')⟩
  case wWriteMore hw _ => exact ⟨Q.write h1 hw, h2, h3, hpos, h5, h6, h7, fun r hm' => h8 r (by simpa using hm')⟩
  case wWriteEnd hw => exact ⟨Q.write h1 hw, h2, h3, hpos, h5, h6, h7, fun r hm' => h8 r (by simpa using hm')⟩
  case seekOk hw => exact ⟨Q.wseek h1 hw, h2, h3, hpos, h5, h6, h7, fun r hm' => h8 r (by simpa using hm')⟩
  case seek f p heq hv hf hp hx =>
    have hb : seeks = true := by
      by_contra hb
      exact hs (by simpa using hb) f rfl
    refine ⟨ht2, by simp [RdrPc.deciding], fun q hq => ?_, hpos, h5, by simp, by simp [RdrPc.asking], h8⟩
    simp only [RdrPc.goal, Option.some.injEq] at hq
    subst hq
    exact ⟨hb, hm.goal f p rfl hp⟩
  case read n heq hf hx =>
    refine ⟨h1, fun m hn => ?_, by simp [RdrPc.goal], hpos, h5, by simp, by simp [RdrPc.asking], h8⟩
    simp only [RdrPc.deciding, Option.some.injEq] at hn
    subst hn
    exact hm.buf _ rfl
  case rDecideWait n heq hov hb =>
    refine ⟨ht2, by simp [RdrPc.deciding], by simp [RdrPc.goal], hpos, h5, by simp, fun r hr => ?_, h8⟩
    simp only [RdrPc.asking, Option.some.injEq] at hr
    subst hr
    have := h2 n (by simp [heq, RdrPc.deciding])
    have : c.normalize ((S.tell s.st).1 + n) ≤ (S.tell s.st).1 + n := by
      simp only [Cfg.normalize]; split <;> omega
    simp only
    omega
  case rSet n r heq =>
    refine ⟨h1, by simp [RdrPc.deciding], by simp [RdrPc.goal], hpos, h5, by simp, by simp [RdrPc.asking], fun q hq => ?_⟩
    simp only [List.mem_cons, Ev.request.injEq] at hq
    rcases hq with rfl | hq
    · exact h7 q (by simp [heq, RdrPc.asking])
    · exact h8 q hq
  case sSet p heq =>
    obtain ⟨g1, g2⟩ := h3 p (by simp [heq, RdrPc.goal])
    refine ⟨h1, by simp [RdrPc.deciding], fun q hq => ?_, hpos, h5, by simp, by simp [RdrPc.asking], fun q hq => ?_⟩
    · simp only [RdrPc.goal, Option.some.injEq] at hq
      subst hq
      exact ⟨g1, g2⟩
    · simp only [List.mem_cons, Ev.request.injEq] at hq
      rcases hq with rfl | hq
      · simp only [delivered]; omega
      · exact h8 q hq
  all_goals refine ⟨?_, ?_, ?_, hpos, ?_, ?_, ?_, ?_⟩
  all_goals first
    | exact h1
    | exact ht2
    | exact h2
    | exact h3
    | exact h5
    | exact h6
    | exact h7
    | exact h8
    | (intro r hm'; exact h8 r (by simpa using hm'))
    | (simp only [RdrPc.deciding, RdrPc.goal, RdrPc.asking, reduceCtorEq, false_implies, implies_true, Option.some.injEq, forall_eq']; done)
    | (intro p hp; simp only [RdrPc.goal, Option.some.injEq] at hp; subst hp; exact h3 _ (by simp [*, RdrPc.goal]))

theorem reader_calm {P : Provider} {c : Cfg} {seeks : Bool} {N B : Nat} (GP : GentleProvider P c.contentLength seeks N)
    (PP : PositionalProvider P c.contentLength) {G : Sys P.S → Act → Prop}
    (hG : ∀ s a, G s a → (seeks = false → NoSeek s a) ∧ Mild N B c s a) {s0 s : Sys P.S} (h0 : Starts P c s0)
    (h : Reach c G s0 s) : ReaderCalm GP.law PP.pos B s := by
  have hp0 : PosInv PP.pos s0 := PosInv.reach PP (G := G) h0 .refl
  refine Reach.inv (P := fun s => ReaderCalm GP.law PP.pos B s) h ?_
    (fun s s' a h hg ht => h.step (hG s a hg).1 (hG s a hg).2 ht)
  obtain ⟨-, st, hc, rfl⟩ := h0
  exact ⟨GP.create hc, by simp [init, RdrPc.deciding], by simp [init, RdrPc.goal], hp0, by simp [init, logPos], by simp [init], by simp [init, RdrPc.asking], by simp [init]⟩

theorem absolute_unchecked {c : Cfg} (h : c.checks = false) (pos : Nat) (f : SeekFrom) : c.absolute pos f ≠ .panic := by
  cases f with
  | start p => simp [Cfg.absolute]
  | current d => simp [Cfg.absolute, addCast, h]
  | fromEnd d =>
    simp only [Cfg.absolute]
    split
    · simp [addCast, h]
    · simp

theorem normalize_le_length {c : Cfg} {N : Nat} (h : c.contentLength = some N) (p : Nat) : c.normalize p ≤ N := by
  simp only [Cfg.normalize, h]; omega

end SD
