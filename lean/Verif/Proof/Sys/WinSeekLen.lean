import Verif.Proof.Sys.WinSeek
import Verif.Proof.Sys.ReadLog

/-!
# Where the task moves the writer when the consumer seeks forward

Without a declared length the task goes exactly to the requested position; with one it may
also fill gaps, but only behind the consumer as long as transports end where they should.
-/

set_option linter.unusedSimpArgs false
set_option linter.unusedVariables false

namespace SD

variable {S : Storage}

/-! ### Unknown length -/

/-- Every position that the task was or will be asked to go to is behind the consumer. -/
def AskedHere (C : RingCells S) (s : Sys S) : Prop :=
  ∀ p, (s.seekQ = some p ∨ s.spc = .seekMsg p ∨ ∃ b, s.spc = .seeking p b) → p ≤ loPos C.ring s

theorem AskedHere.seekHere {C : RingCells S} {s : Sys S} (h : AskedHere C s) : SeekHere C s :=
  fun a b hs => Or.inl (h a (Or.inr (Or.inr ⟨b, hs⟩)))

set_option maxHeartbeats 4000000 in
theorem AskedHere.step {c : Cfg} {C : RingCells S} {s s' : Sys S} {a : Act} (hcl : c.contentLength = none)
    (h : WinFlow c C.ring s) (hk : AskedHere C s) (ht : Tr c s a s') : noMore s' ∨ AskedHere C s' := by
  rcases loPos_mono h ht with hm | hm
  · exact Or.inl hm
  · refine Or.inr ?_
    unfold AskedHere at hk ⊢
    cases ht
    case sSend p heq hq =>
      have h1 : loPos C.ring { s with seekQ := some p, rpc := .sWait p } = p := rfl
      grind
    all_goals grind [roundPc, startPc]

/-! ### Known length -/

/-- The download is contiguous from `g` on. -/
structure Ahead (N : Nat) (C : RingCells S) (g : Nat) (s : Sys S) : Prop where
  wf : RSet.WF s.dl
  gl : g ≤ loPos C.ring s
  tgt : ∀ p, s.rpc.target = some p → p ≤ N
  q : ∀ p, s.seekQ = some p → g ≤ p ∧ p ≤ loPos C.ring s ∧ p ≤ N
  m : ∀ p, s.spc = .seekMsg p → g ≤ p ∧ p ≤ loPos C.ring s ∧ p ≤ N ∧ ∀ p2, s.seekQ = some p2 → p ≤ p2
  dlub : ∀ q, RSet.Mem s.dl q → q < S.wtell s.st
  cov : s.pfDone = true → s.spc.active = true → ∀ q, g ≤ q → q < S.wtell s.st →
    RSet.Mem s.dl q ∨ ∃ p, s.spc.wopen = some p ∧ p ≤ q
  pf : s.pfDone = false → ∀ q, g ≤ q → q < s.pfStart → RSet.Mem s.dl q
  skA : ∀ a b, s.spc = .seeking a b → (a = S.wtell s.st ∨ (a = g ∧ S.wtell s.st ≤ g)) ∧ b = some N
  lim : ∀ b, s.tlim = some b → N ≤ b
  fin : s.spc = .fin → N ≤ S.wtell s.st

/-- Everything from `g` on was downloaded. -/
structure Filled (N : Nat) (C : RingCells S) (g : Nat) (s : Sys S) : Prop where
  wf : RSet.WF s.dl
  gl : g ≤ loPos C.ring s
  q : ∀ p, s.seekQ = some p → g ≤ p ∧ p ≤ loPos C.ring s
  m : ∀ p, s.spc = .seekMsg p → g ≤ p ∧ p ≤ loPos C.ring s
  all : ∀ q, g ≤ q → q < N → RSet.Mem s.dl q
  skA : ∀ a b, s.spc = .seeking a b → a ≤ loPos C.ring s

theorem Ahead.seekHere {N g : Nat} {C : RingCells S} {s : Sys S} (h : Ahead N C g s) : SeekHere C s := by
  intro a b hs
  have := h.skA a b hs
  have := h.gl
  omega

theorem Filled.seekHere {N g : Nat} {C : RingCells S} {s : Sys S} (h : Filled N C g s) : SeekHere C s :=
  fun a b hs => Or.inl (h.skA a b hs)

/-- The transport ends only where the resource, or the requested range, ends. -/
def EndsInPlace (c : Cfg) (s : Sys S) (a : Act) : Prop :=
  a = .eof → ∀ n, c.contentLength = some n → n ≤ s.tpos ∨ ∃ b, s.tlim = some b ∧ b ≤ s.tpos

theorem gap_filled {dl : RSet} (hwf : RSet.WF dl) {g N lo a b : Nat}
    (hall : ∀ q, g ≤ q → q < N → RSet.Mem dl q) (hg : RSet.nextGap dl lo N = some (a, b)) : a < g := by
  obtain ⟨g1, g2, g3, g4, g5, g6⟩ := RSet.nextGap_some hwf hg
  by_contra hlt
  exact g5 a (Nat.le_refl _) g2 (hall a (by omega) (by omega))

set_option maxHeartbeats 8000000 in
theorem Filled.step {c : Cfg} {C : RingCells S} {N g : Nat} {s s' : Sys S} {a : Act}
    (hcl : c.contentLength = some N)
    (h : WinFlow c C.ring s) (hk : Filled N C g s) (ht : Tr c s a s') :
    noMore s' ∨ Filled N C g s' := by
  rcases loPos_mono h ht with hm | hm
  · exact Or.inl hm
  · refine Or.inr ?_
    have hadd := RSet.mem_add hk.wf
    have hwfa := RSet.wf_add hk.wf
    have hgap := fun lo a b hg => gap_filled (lo := lo) (a := a) (b := b) hk.wf hk.all hg
    have hgap2 := fun x lo a b hg => gap_filled (lo := lo) (a := a) (b := b) (hwfa s.pfStart x)
      (fun q h1 h2 => (hadd _ _ q).2 (Or.inl (hk.all q h1 h2))) hg
    obtain ⟨h1, h2, h3, h4, h5, h6⟩ := hk
    cases ht
    case sSend p heq hq =>
      have h1 : loPos C.ring { s with seekQ := some p, rpc := .sWait p } = p := rfl
      constructor <;> grind
    all_goals constructor
    all_goals grind [roundPc, startPc]

theorem gap_ahead {dl : RSet} (hwf : RSet.WF dl) {g N w p a b : Nat}
    (hub : ∀ q, RSet.Mem dl q → q < w) (hcov : ∀ q, g ≤ q → q < w → RSet.Mem dl q) (hp : g ≤ p)
    (hg : RSet.nextGap dl (min w p) N = some (a, b)) : a = w ∧ b = N := by
  obtain ⟨g1, g2, g3, g4, g5, g6⟩ := RSet.nextGap_some hwf hg
  have h1 : ¬ RSet.Mem dl a := g5 a (Nat.le_refl _) g2
  have h2 : ¬ a < w := by
    intro hlt
    by_cases hw : w ≤ p
    · omega
    · exact h1 (hcov a (by omega) hlt)
  have h3 : ¬ w < a := by
    intro hlt
    have := hub w (g4 w (by omega) hlt)
    omega
  refine ⟨by omega, ?_⟩
  rcases g6 with h | h
  · exact h
  · have := hub b h; omega

theorem gap_none_ahead {dl : RSet} {g N w p : Nat}
    (hub : ∀ q, RSet.Mem dl q → q < w) (hp : p ≤ N)
    (hg : RSet.nextGap dl (min w p) N = none) : p ≤ w := by
  have h1 := RSet.nextGap_none hg
  by_contra hlt
  have := hub w (h1 w (by omega) (by omega))
  omega

theorem Ahead.frame {N g : Nat} {C : RingCells S} {s s' : Sys S} (h : Ahead N C g s)
    (e1 : s'.dl = s.dl) (e2 : s'.pfDone = s.pfDone) (e3 : s'.pfStart = s.pfStart) (e4 : s'.spc = s.spc)
    (e5 : s'.tlim = s.tlim) (e6 : s'.seekQ = s.seekQ) (e7 : S.wtell s'.st = S.wtell s.st)
    (hm : loPos C.ring s ≤ loPos C.ring s') (ht : ∀ p, s'.rpc.target = some p → p ≤ N) :
    Ahead N C g s' := by
  obtain ⟨h1, h2, h3, h4, h5, h6, h7, h8, h9, h10, h11⟩ := h
  refine ⟨by rw [e1]; exact h1, by omega, ht, ?_, ?_, ?_, ?_, ?_, ?_, ?_, ?_⟩
  · rw [e6]; intro p hp; have := h4 p hp; omega
  · rw [e4, e6]; intro p hp
    obtain ⟨a1, a2, a3, a4⟩ := h5 p hp
    exact ⟨a1, by omega, a3, a4⟩
  · rw [e1, e7]; exact h6
  · rw [e1, e2, e4, e7]; exact h7
  · rw [e1, e2, e3]; exact h8
  · rw [e4, e7]; exact h9
  · rw [e5]; exact h10
  · rw [e4, e7]; exact h11

set_option maxHeartbeats 16000000 in
theorem Ahead.step {c : Cfg} {C : RingCells S} {N g : Nat} {s s' : Sys S} {a : Act}
    (hcl : c.contentLength = some N) (hE : EndsInPlace c s a)
    (h : WinFlow c C.ring s) (hk : Ahead N C g s) (ht : Tr c s a s') :
    noMore s' ∨ (∃ g', Ahead N C g' s') ∨ Filled N C g s' := by
  rcases loPos_mono h ht with hm | hm
  · exact Or.inl hm
  · refine Or.inr ?_
    have hadd := RSet.mem_add hk.wf
    have hwfa := RSet.wf_add hk.wf
    have hnorm := fun p => normalize_le (p := p) hcl
    have hT := C.ring.tell h.ok
    have hw := fun bs k st' hw => (C.ring.write (bs := bs) (k := k) (s' := st') h.ok hw).2.2.2.1
    have hws := fun p st' hw => (C.ring.wseek (p := p) (s' := st') h.ok hw).2.2.1
    have hrs := fun p st' hr => (C.ring.rseek (p := p) (s' := st') h.ok hr).2.2.1
    have hrd := fun n bs st' hr => (C.ring.read (n := n) (bs := bs) (s' := st') h.ok hr).2.2.1
    have hcov : s.pfDone = true → ∀ p, s.spc = .seekMsg p → ∀ q, g ≤ q → q < S.wtell s.st → RSet.Mem s.dl q := by
      intro h1 p h2 q h3 h4
      rcases hk.cov h1 (by simp [h2, SrcPc.active, SrcPc.live]) q h3 h4 with h5 | ⟨x, h5, -⟩
      · exact h5
      · simp [h2, SrcPc.wopen] at h5
    have hcov2 : s.pfDone = false → ∀ q, g ≤ q → q < S.wtell s.st →
        RSet.Mem (RSet.add s.dl s.pfStart (S.wtell s.st)) q := by
      intro h1 q h3 h4
      rw [hadd]
      by_cases hq : q < s.pfStart
      · exact Or.inl (hk.pf h1 q h3 hq)
      · exact Or.inr ⟨by omega, h4⟩
    have hub2 : ∀ q, RSet.Mem (RSet.add s.dl s.pfStart (S.wtell s.st)) q → q < S.wtell s.st := by
      intro q hq
      rw [hadd] at hq
      rcases hq with hq | hq
      · exact hk.dlub q hq
      · exact hq.2
    have htp : s.spc = .sel → s.rem = none → s.tpos = S.wtell s.st := by
      intro h1 h2
      have := (h.flow (by simp [h1, SrcPc.live])).2
      simpa [inFlight, h1, SrcPc.pend, h2] using this
    have hwle := h.wle
    have hinPf := h.inPf
    have hremPf := h.remPf
    unfold EndsInPlace at hE
    cases ht
    case seekRestart p n x y heq hsh hpf hn hg =>
      obtain rfl : N = n := by rw [hcl] at hn; exact Option.some.inj hn
      obtain ⟨m1, m2, m3, m4⟩ := hk.m p heq
      obtain ⟨rfl, rfl⟩ := gap_ahead hk.wf hk.dlub (hcov hpf p heq) m1 hg
      obtain ⟨h1, h2, h3, h4, h5, h6, h7, h8, h9, h10, h11⟩ := hk
      by_cases hlt : p < S.wtell s.st
      · refine Or.inl ⟨g, ?_⟩
        have := hcov hpf p heq
        constructor <;> grind [SrcPc.active, SrcPc.live, SrcPc.wopen]
      · refine Or.inl ⟨p, ?_⟩
        constructor <;> grind [SrcPc.active, SrcPc.live, SrcPc.wopen]
    case seekAbort p n x y heq hsh hpf hn hg =>
      obtain rfl : N = n := by rw [hcl] at hn; exact Option.some.inj hn
      obtain ⟨m1, m2, m3, m4⟩ := hk.m p heq
      obtain ⟨rfl, rfl⟩ := gap_ahead (hwfa _ _) hub2 (hcov2 hpf) m1 hg
      obtain ⟨h1, h2, h3, h4, h5, h6, h7, h8, h9, h10, h11⟩ := hk
      have hc2 := hcov2 hpf
      have hwf' := hwfa s.pfStart (S.wtell s.st)
      by_cases hlt : p < S.wtell s.st
      · refine Or.inl ⟨g, ?_⟩
        constructor <;> grind [SrcPc.active, SrcPc.live, SrcPc.wopen]
      · refine Or.inl ⟨p, ?_⟩
        constructor <;> grind [SrcPc.active, SrcPc.live, SrcPc.wopen]
    case seekRestartNone p n heq hsh hpf hn hg =>
      obtain rfl : N = n := by rw [hcl] at hn; exact Option.some.inj hn
      obtain ⟨m1, m2, m3, m4⟩ := hk.m p heq
      have hpw := gap_none_ahead (g := g) hk.dlub m3 hg
      have hc := hcov hpf p heq
      obtain ⟨h1, h2, h3, h4, h5, h6, h7, h8, h9, h10, h11⟩ := hk
      refine Or.inl ⟨g, ?_⟩
      constructor <;> grind [SrcPc.active, SrcPc.live, SrcPc.wopen]
    case finGap n x y heq hs hn hg =>
      obtain rfl : N = n := by rw [hcl] at hn; exact Option.some.inj hn
      have hall : ∀ q, g ≤ q → q < N → RSet.Mem s.dl q := by
        intro q h1 h2
        have := hk.fin heq
        rcases hk.cov (h.fin heq).1 (by simp [heq, SrcPc.active, SrcPc.live]) q h1 (by omega) with h5 | ⟨x, h5, -⟩
        · exact h5
        · simp [heq, SrcPc.wopen] at h5
      have hx := gap_filled hk.wf hall hg
      obtain ⟨h1, h2, h3, h4, h5, h6, h7, h8, h9, h10, h11⟩ := hk
      refine Or.inr ?_
      constructor <;> grind
    case sSend p heq hq =>
      have e1 : loPos C.ring { s with seekQ := some p, rpc := .sWait p } = p := rfl
      obtain ⟨h1, h2, h3, h4, h5, h6, h7, h8, h9, h10, h11⟩ := hk
      refine Or.inl ⟨g, ?_⟩
      constructor <;> grind [SrcPc.active, SrcPc.live, SrcPc.wopen, RdrPc.target]
    case seekOk start stop pos st' heq hw' =>
      have hst := hws _ _ hw'
      obtain ⟨e1, rfl⟩ := hk.skA _ _ heq
      clear hcov hcov2 hub2 htp hwle hinPf hremPf hE hadd hwfa hnorm hw hws hrs hrd hT
      obtain ⟨h1, h2, h3, h4, h5, h6, h7, h8, h9, h10, h11⟩ := hk
      refine Or.inl ⟨g, h1, by omega, h3, ?_, by simp, ?_, ?_, h8, by simp, ?_, by simp⟩
      · intro p hp; have := h4 p hp; simp only at hp; omega
      · intro q hq
        have := h6 q hq
        simp only [hst]; omega
      · intro hpf _ q hq hqw
        simp only [hst] at hqw
        rcases h7 hpf (by simp [heq, SrcPc.active]) q hq (by omega) with h | ⟨p, hp, -⟩
        · exact Or.inl h
        · simp [heq, SrcPc.wopen] at hp
      · intro b hb
        dsimp only at hb
        split at hb
        · simp only [Option.some.injEq] at hb; omega
        · cases hb
    case rRead n fast bs st' heq hr =>
      exact Or.inl ⟨g, hk.frame rfl rfl rfl rfl rfl rfl (hrd _ _ _ hr) hm (by simp [RdrPc.target])⟩
    case sSeek p st' heq hr =>
      exact Or.inl ⟨g, hk.frame rfl rfl rfl rfl rfl rfl (hrs _ _ hr) hm (by simp [RdrPc.target])⟩
    case seek f p heq _ _ _ _ =>
      exact Or.inl ⟨g, hk.frame rfl rfl rfl rfl rfl rfl hT.2.2.2.1 hm
        (by simp only [RdrPc.target, Option.some.injEq]; intro q hq; subst hq; exact hnorm p)⟩
    case rDecidePanic => exact Or.inl ⟨g, hk.frame rfl rfl rfl rfl rfl rfl hT.2.2.2.1 hm (by simp [RdrPc.target])⟩
    case rDecideFast => exact Or.inl ⟨g, hk.frame rfl rfl rfl rfl rfl rfl hT.2.2.2.1 hm (by simp [RdrPc.target])⟩
    case rDecideWait => exact Or.inl ⟨g, hk.frame rfl rfl rfl rfl rfl rfl hT.2.2.2.1 hm (by simp [RdrPc.target])⟩
    all_goals first
      | (refine Or.inl ⟨g, hk.frame rfl rfl rfl rfl rfl rfl rfl hm hk.tgt⟩; done)
      | (refine Or.inl ⟨g, hk.frame rfl rfl rfl rfl rfl rfl rfl hm ?_⟩
         have hh := hk.tgt
         clear hcov hcov2 hub2 htp hwle hinPf hremPf hE hadd hwfa hnorm hw hws hrs hrd hT
         grind [RdrPc.target])
      | skip
    all_goals
      obtain ⟨h1, h2, h3, h4, h5, h6, h7, h8, h9, h10, h11⟩ := hk
      refine Or.inl ⟨g, ?_⟩
      constructor
    all_goals grind [SrcPc.active, SrcPc.live, SrcPc.wopen, SrcPc.wpos, SrcPc.inPf, RdrPc.target, roundPc, startPc]

end SD
