import Verif.Proof.Sys.Full
import Verif.Proof.Sys.End

/-!
# Every read is correct if the consumer only goes back over bytes it has

That is, bytes it has read or bytes that are downloaded.  The bytes between the consumer's position (or 0, if the source cannot seek) and
the writer's position are always stored correctly.
-/

set_option linter.unusedSimpArgs false
set_option linter.unusedVariables false
set_option linter.unnecessarySimpa false

namespace SD

variable {S : Storage}

/-- From here to the writer's position everything is stored. -/
def lb {full : Bool} (c : Cfg) (L : Lawful S full) (s : Sys S) : Nat :=
  if c.supportsSeek = true then s.rpc.target.getD (L.rpos s.st) else 0

/-- A `read` that has computed which position it needs. -/
def RdrPc.readReq : RdrPc → Option (Nat × Nat)
  | .rSet n r | .rLoad n r | .rNotify n r | .rWait n r | .rCheck n r => some (n, r)
  | _ => none

/-- A `read` that waits. -/
def RdrPc.readWait : RdrPc → Option (Nat × Nat)
  | .rLoad n r | .rNotify n r | .rWait n r => some (n, r)
  | _ => none

/-- `E` says that the storage holds nothing that was not written from the start on
(it need not hold for memory storage with a known length, which starts with
zeros). -/
structure Fwd (E : Prop) (c : Cfg) (L : Lawful S true) (W : Finset Nat) (s : Sys S) : Prop where
  J : s.spc.active = true → ∀ q, lb c L s ≤ q → q < wnext s → GoodAt c L W s.st q
  facts : s.failed = false → (E ∨ finished s) →
    ∀ q, lb c L s ≤ q → L.cell s.st q ≠ none → GoodAt c L W s.st q
  finw : ¬ E → s.spc = .fin → c.supportsSeek = false → ∀ N, c.contentLength = some N → N ≤ S.wtell s.st
  msgs : c.supportsSeek = true → s.failed = false →
    (∀ p, s.seekQ = some p → ∀ q, lb c L s ≤ q → q < p → GoodAt c L W s.st q) ∧
    (∀ p, s.spc = .seekMsg p → ∀ q, lb c L s ≤ q → q < p → GoodAt c L W s.st q)
  got : ∀ q, Seen s.log q → GoodAt c L W s.st q
  norm : ∀ n r, s.rpc.readReq = some (n, r) → r = c.normalize (L.rpos s.st + n)
  told : s.reached = true → s.done = false → ∀ n r, s.rpc.readWait = some (n, r) →
    ∀ q, L.rpos s.st ≤ q → q < r → GoodAt c L W s.st q
  ready : ∀ n r, s.rpc = .rCheck n r →
    s.done = true ∨ ∀ q, L.rpos s.st ≤ q → q < r → GoodAt c L W s.st q
  slow : ∀ n, s.rpc = .rRead n false → ∀ q, L.rpos s.st ≤ q → q < c.normalize (L.rpos s.st + n) →
    L.cell s.st q ≠ none → GoodAt c L W s.st q
  len : ∀ n, s.rpc = .rRead n false → Ev.eof ∈ s.log ∨
    ∀ q, L.rpos s.st ≤ q → q < c.normalize (L.rpos s.st + n) → GoodAt c L W s.st q

theorem finished_src {c : Cfg} {s s' : Sys S} {a : Act} (he : EndInv s) (hk : c.KeepsErrors)
    (ha : a.isRdr = false) (ht : Tr c s a s') (hf : finished s') :
    finished s ∨ (s.spc = .fin ∧ s'.st = s.st ∧ s'.dl = s.dl ∧
      (c.supportsSeek = true → ∀ n, c.contentLength = some n → RSet.nextGap s.dl 0 n = none)) := by
  have h5 := he.onFin
  have h1 := he.ending
  unfold Cfg.KeepsErrors at hk
  cases ht
  case onFinOk r o heq hn =>
    cases r with
    | some k => exact absurd hn (hk k o)
    | none => left; left; simp [heq, SrcPc.normal]
  case finDone heq hg => exact Or.inr ⟨heq, rfl, rfl, hg⟩
  all_goals first
    | (simp [Act.isRdr] at ha; done)
    | grind [finished, SrcPc.normal, roundPc, startPc]

theorem lb_target_none {full : Bool} {c : Cfg} {L : Lawful S full} {s : Sys S}
    (h : s.rpc.target = none) : lb c L s ≤ L.rpos s.st := by
  unfold lb; split <;> simp [h]

theorem readWait_target {p : RdrPc} {x : Nat × Nat} (h : p.readWait = some x) : p.target = none := by
  revert h; cases p <;> simp [RdrPc.readWait, RdrPc.target]

theorem readWait_waiting {p : RdrPc} {n r : Nat} (h : p.readWait = some (n, r)) :
    p.waiting = some r := by
  revert h; cases p <;> simp [RdrPc.readWait, RdrPc.waiting]

theorem finished_not_live {s : Sys S} (he : EndInv s) (h : finished s) : s.spc ≠ .fin → s.spc.live = false := by
  intro hne
  rcases h with h | h
  · have := h.1; revert this hne; cases s.spc <;> simp [SrcPc.normal, SrcPc.live]
  · rcases h.2 with h | h
    · simp [h, SrcPc.live]
    · have := he.ending h; revert this; cases s.spc <;> simp [SrcPc.ending, SrcPc.live]

theorem finished_ne_fin {s : Sys S} (he : EndInv s) (h : finished s) : s.spc ≠ .fin := by
  rcases h with h | h
  · exact h.2
  · rcases h.2 with h | h
    · simp [h]
    · have := he.ending h; intro hf; simp [hf, SrcPc.ending] at this

theorem active_not_failed {s : Sys S} (he : EndInv s) (h : s.spc.active = true) : s.failed = false := by
  by_contra hf
  have := he.failed (by simpa using hf)
  revert h
  rcases this with h | h | h <;> simp [h, SrcPc.active, SrcPc.live]

theorem live_not_failed {s : Sys S} (he : EndInv s) (h : s.spc.live = true) : s.failed = false :=
  active_not_failed he (live_active h)

/-- The part of the invariant about the writer's position. -/
theorem Fwd.J_src {E : Prop} {c : Cfg} {L : Lawful S true} {W W' : Finset Nat} {s s' : Sys S} {a : Act}
    (h : Fwd E c L W s) (hF : Full c L W s) (he : EndInv s) (ha : a.isRdr = false)
    (ht : Tr c s a s') (hlb : lb c L s' = lb c L s)
    (hW : SrcEff c L W s W' s') (hF' : Full c L W' s') :
    s'.spc.active = true → ∀ q, lb c L s' ≤ q → q < wnext s' → GoodAt c L W' s'.st q := by
  intro hact q h1 h2
  rw [hlb] at h1
  have hlive : s.spc.live = true → s'.spc.live = true → GoodAt c L W' s'.st q := by
    intro l l'
    rw [wnext_of l'] at h2
    by_cases hq : q < S.wtell s.st
    · exact hW.good q (h.J (live_active l) q h1 (by rw [wnext_of l]; exact hq))
    · exact hW.new l q (by omega) h2
  have hm := fun hss hl => h.msgs hss (live_not_failed he hl)
  cases ht
  case seekRestart p n x y heq hsh hpf hN hg =>
    have hp := (hm hsh.1 (by simp [heq, SrcPc.live])).2 p heq
    obtain ⟨g1, g2, g3, g4, g5, g6⟩ := RSet.nextGap_some hF.src.wf hg
    simp only [wnext] at h2
    by_cases hqp : q < p
    · exact hW.good q (hp q h1 hqp)
    · exact hF'.src.good q (g4 q (by omega) (by omega))
  case seekRestartUnk p heq hsh hpf hN =>
    have hp := (hm hsh.1 (by simp [heq, SrcPc.live])).2 p heq
    simp only [wnext] at h2
    exact hW.good q (hp q h1 h2)
  case seekAbort p n x y heq hsh hpf hN hg =>
    have hp := (hm hsh.1 (by simp [heq, SrcPc.live])).2 p heq
    obtain ⟨g1, g2, g3, g4, g5, g6⟩ := RSet.nextGap_some hF'.src.wf hg
    simp only [wnext] at h2
    by_cases hqp : q < p
    · exact hW.good q (hp q h1 hqp)
    · exact hF'.src.good q (g4 q (by omega) (by omega))
  case seekAbortUnk p heq hsh hpf hN =>
    have hp := (hm hsh.1 (by simp [heq, SrcPc.live])).2 p heq
    simp only [wnext] at h2
    exact hW.good q (hp q h1 h2)
  case finGap n x y heq hss hN hg =>
    obtain ⟨g1, g2, g3, g4, g5, g6⟩ := RSet.nextGap_some hF.src.wf hg
    simp only [wnext] at h2
    exact hF'.src.good q (g4 q (by omega) (by omega))
  case seekOk start stop pos st' heq hw =>
    obtain ⟨k1, k2, k3, k4, k5⟩ := L.wseek_ok hF.src.inv (Or.inl rfl) hw
    simp only [wnext, k4] at h2
    exact hW.good q (h.J (by simp [heq, SrcPc.active]) q h1 (by simp [wnext, heq]; exact h2))
  case wChkMiss pos0 len todo bw heq hr =>
    exact hlive (by simp [heq, SrcPc.live]) (by simp only [roundPc]; split <;> [rfl; (split <;> rfl)])
  case wNtf pos0 len todo bw heq =>
    exact hlive (by simp [heq, SrcPc.live]) (by simp only [roundPc]; split <;> [rfl; (split <;> rfl)])
  case chunk n heq _ _ _ _ _ =>
    exact hlive (by simp [heq, SrcPc.live]) (by simp only [startPc]; split <;> rfl)
  case chunkRem n r heq _ _ _ _ _ =>
    exact hlive (by simp [heq, SrcPc.live]) (by simp only [startPc]; split <;> rfl)
  case eofRem r heq _ _ =>
    exact hlive (by simp [heq, SrcPc.live]) (by simp only [startPc]; split <;> rfl)
  all_goals first
    | (simp [Act.isRdr] at ha; done)
    | (simp [SrcPc.active, SrcPc.live] at hact; done)
    | exact hW.good q (h.J hact q h1 h2)
    | exact hlive (by simp [*, SrcPc.live]) (by simpa [SrcPc.active] using hact)

theorem Fwd.src {E : Prop} {c : Cfg} {L : Lawful S true} {W W' : Finset Nat} {s s' : Sys S} {a : Act}
    (hnone : c.contentLength = none → E)
    (hk : c.KeepsErrors) (hdel : ¬ E → Delivers c s a)
    (h : Fwd E c L W s) (hF : Full c L W s) (he : EndInv s) (hT : Tok s) (ha : a.isRdr = false)
    (ht : Tr c s a s') (hW : SrcEff c L W s W' s') (hF' : Full c L W' s') : Fwd E c L W' s' := by
  have f := src_frame L ha ht hF.src.inv (fun _ _ _ => Or.inl rfl)
  have hlb : lb c L s' = lb c L s := by unfold lb; rw [f.rpc, f.rpos]
  have hJ := h.J_src hF he ha ht hlb hW hF'
  have hfail : s'.failed = false → s.failed = false := by
    cases ht <;> simp
  constructor
  · exact hJ
  · -- facts
    intro hf hd q h1 h2
    rw [hlb] at h1
    rcases hW.cells q h2 with hc | ⟨l, l', hq⟩
    · rcases hd with hd | hd
      · exact hW.good q (h.facts (hfail hf) (Or.inl hd) q h1 hc)
      · rcases finished_src he hk ha ht hd with hd | ⟨e1, e2, e3, e4⟩
        · exact hW.good q (h.facts (hfail hf) (Or.inr hd) q h1 hc)
        · by_cases hE : E
          · exact hW.good q (h.facts (hfail hf) (Or.inl hE) q h1 hc)
          cases hN : c.contentLength with
          | none => exact absurd (hnone hN) hE
          | some N =>
            have hqN := (hF.src.bnd N hN).2.2.2 q hc
            cases hss : c.supportsSeek
            · have := h.finw hE e1 hss N hN
              exact hW.good q (h.J (by simp [e1, SrcPc.active, SrcPc.live]) q h1
                (by simp only [wnext, e1]; omega))
            · have hcov := RSet.nextGap_none (e4 hss N hN)
              exact hW.good q (hF.src.good q (hcov q (by omega) hqN))
    · exact hJ (live_active l') q (by rw [hlb]; exact h1) (by rw [wnext_of l']; exact hq)
  · -- finw
    intro hE hfin hss N hN
    replace hdel := hdel hE
    have hd := fun e => hdel e hss N hN
    cases ht
    case eofPf heq hpf =>
      have := hd rfl
      have t := hF.src.tpos (by simp [heq, SrcPc.live])
      simp only [heq, SrcPc.pend, List.length_nil] at t
      simp only; omega
    case eof heq hpf hrem =>
      have := hd rfl
      have t := hF.src.tpos (by simp [heq, SrcPc.live])
      simp only [heq, SrcPc.pend, List.length_nil] at t
      simp only; omega
    all_goals first
      | (simp [Act.isRdr] at ha; done)
      | (simp at hfin; done)
      | (simp [*] at hfin; done)
      | (simp only [roundPc] at hfin; split at hfin <;> [simp at hfin; (split at hfin <;> simp at hfin)]; done)
      | (simp only [startPc] at hfin; split at hfin <;> simp at hfin)
  · -- msgs
    intro hss hf
    obtain ⟨m1, m2⟩ := h.msgs hss (hfail hf)
    rw [hlb]
    refine ⟨fun p hp q h1 h2 => hW.good q (m1 p (f.seekQ p hp) q h1 h2), ?_⟩
    intro p hp q h1 h2
    refine hW.good q ?_
    cases ht
    case recvSeek p' heq hq =>
      simp only [SrcPc.seekMsg.injEq] at hp
      subst hp; exact m1 _ hq q h1 h2
    all_goals first
      | (simp [Act.isRdr] at ha; done)
      | exact m2 p hp q h1 h2
      | (simp at hp; done)
      | (simp only [roundPc] at hp; split at hp <;> [simp at hp; (split at hp <;> simp at hp)]; done)
      | (simp only [startPc] at hp; split at hp <;> simp at hp)
  · rintro q ⟨pos, len, fast, bs, hr, h1, h2⟩
    obtain ⟨es, e1, e2⟩ := f.log
    rw [e1, List.mem_append] at hr
    rcases hr with hr | hr
    · have := e2 _ hr; simp [Ev.isRdr] at this
    · exact hW.good q (h.got q ⟨pos, len, fast, bs, hr, h1, h2⟩)
  · intro n r hr
    rw [f.rpc] at hr; rw [f.rpos]; exact h.norm n r hr
  · -- told
    intro hre hd n r hr q h1 h2
    rw [f.rpc] at hr; rw [f.rpos] at h1
    have hd' : s.done = false := by
      revert hd; cases ht <;> simp
    by_cases hre' : s.reached = true
    · exact hW.good q (h.told hre' hd' n r hr q h1 h2)
    · cases ht
      case wNtf pos0 len todo bw heq =>
        have hlive : s.spc.live = true := by simp [heq, SrcPc.live]
        rcases hT.wait r (readWait_waiting hr) with ⟨_, hw⟩ | ⟨_, hw⟩
        · have hle := (hw hd').2.2.1 (by simp [heq, SrcPc.answering])
          have := lb_target_none (c := c) (L := L) (readWait_target hr)
          exact hW.good q (h.J (live_active hlive) q (by omega) (by rw [wnext_of hlive]; omega))
        · exact absurd (hw hd').1 hre'
      all_goals first
        | (simp [Act.isRdr] at ha; done)
        | exact absurd hre hre'
  · -- ready
    intro n r hr
    rw [f.rpc] at hr; rw [f.rpos]
    rcases h.ready n r hr with hd | hg
    · left; revert hd; cases ht <;> simp
    · exact Or.inr (fun q h1 h2 => hW.good q (hg q h1 h2))
  · -- slow
    intro n hr q h1 h2 h3
    rw [f.rpc] at hr; rw [f.rpos] at h1 h2
    rcases hW.cells q h3 with hc | ⟨l, l', hq⟩
    · exact hW.good q (h.slow n hr q h1 h2 hc)
    · have := lb_target_none (c := c) (L := L) (s := s) (by simp [hr, RdrPc.target])
      exact hJ (live_active l') q (by rw [hlb]; omega) (by rw [wnext_of l']; exact hq)
  · -- len
    intro n hr
    rw [f.rpc] at hr; rw [f.rpos]
    rcases h.len n hr with hd | hg
    · left
      obtain ⟨es, e1, -⟩ := f.log
      rw [e1]; exact List.mem_append_right _ hd
    · exact Or.inr (fun q h1 h2 => hW.good q (hg q h1 h2))


/-- Whenever the consumer moves the reader of a source that can seek, that succeeds. -/
def SeekWorks {full : Bool} (c : Cfg) (L : Lawful S full) (G : Sys S → Act → Prop) : Prop :=
  ∀ s W a p, G s a → L.Inv s.st W → c.supportsSeek = true → s.rpc = .sSeek p → ∃ x, S.rseek s.st p = .ok x

theorem SeekTotal.works {full : Bool} {L : Lawful S full} (h : SeekTotal L) {c : Cfg} {G : Sys S → Act → Prop} :
    SeekWorks c L G := fun _ _ _ _ _ hi _ _ => h.rseek_total hi

/-- The consumer moves forward, or back over bytes that are stored. -/
theorem lb_known {E : Prop} {c : Cfg} {L : Lawful S true} {W : Finset Nat} {s s' : Sys S} {a : Act}
    (hTot : ∀ p, c.supportsSeek = true → s.rpc = .sSeek p → ∃ x, S.rseek s.st p = .ok x) (hfw : c.supportsSeek = true → Connected c s a) (h : Fwd E c L W s)
    (hF : Full c L W s) (hnf : s.failed = false) (ha : a.isRdr = true) (ht : Tr c s a s') :
    ∀ q, lb c L s' ≤ q → lb c L s ≤ q ∨ GoodAt c L W s.st q := by
  suffices hs : lb c L s ≤ lb c L s' ∨ ∀ q, lb c L s' ≤ q → q < lb c L s → GoodAt c L W s.st q by
    intro q hq
    rcases hs with hs | hs
    · exact Or.inl (by omega)
    · by_cases hlt : q < lb c L s
      · exact Or.inr (hs q hq hlt)
      · exact Or.inl (by omega)
  cases hss : c.supportsSeek
  · left; simp [lb, hss]
  replace hfw := hfw hss
  obtain ⟨t1, t2, t3, t4, t5, t6⟩ := L.tell_ok hF.src.inv
  simp only [lb, hss, if_true]
  cases ht
  case rRead n fast bs st' heq hr =>
    have hcl := hF.rdr.clean (by simp [heq, RdrPc.inRead])
    obtain ⟨r1, r2, r3, r4, r5, r6, r7⟩ := L.read_ok hF.src.inv (L.clean_fresh hF.src.inv hcl) hr
    left
    simp only [heq, RdrPc.target, Option.getD_none, r5]; omega
  case sSeek p st' heq hr =>
    obtain ⟨r1, r2, r3, r4, r5⟩ := L.rseek_ok hF.src.inv hr
    left
    simp only [heq, RdrPc.target, Option.getD_none, Option.getD_some, r3]; exact Nat.le_refl _
  case sSeekErr p k heq hr =>
    obtain ⟨x, hx⟩ := hTot p hss heq
    rw [hx] at hr; cases hr
  case sSeekPanic p heq hr =>
    obtain ⟨x, hx⟩ := hTot p hss heq
    rw [hx] at hr; cases hr
  case sCheckFail p heq hf => simp [hnf] at hf
  case seek f p heq _ _ hab _ =>
    right
    have := hfw f p rfl hab
    rw [t1] at this
    simp only [heq, RdrPc.target, Option.getD_none, Option.getD_some]
    intro q h1 h2
    rcases this q h1 h2 with hq | hq
    · exact h.got q hq
    · exact hF.src.good q hq
  all_goals first
    | (simp [Act.isRdr] at ha; done)
    | exact Or.inl (Nat.le_refl _)
    | (left; simp [*, RdrPc.target]; done)

theorem Fwd.rdr {E : Prop} {c : Cfg} {L : Lawful S true} {W : Finset Nat} {s s' : Sys S} {a : Act}
    (hTot : ∀ p, c.supportsSeek = true → s.rpc = .sSeek p → ∃ x, S.rseek s.st p = .ok x) (hfw : c.supportsSeek = true → Connected c s a)
    (h : Fwd E c L W s) (hF : Full c L W s) (he : EndInv s) (hT : Tok s) (ha : a.isRdr = true)
    (ht : Tr c s a s') : Fwd E c L W s' := by
  obtain ⟨f, hi, hc⟩ := rdr_frame L ha ht hF.src.inv hF.rdr.clean
  have hw : wnext s' = wnext s := by unfold wnext; rw [f.spc, f.wtell]
  have hg : ∀ q, GoodAt c L W s'.st q ↔ GoodAt c L W s.st q := by
    intro q; unfold GoodAt; rw [f.cell q]
  have hmono := fun hnf => lb_known hTot hfw h hF hnf ha ht
  have hfin : finished s' ↔ finished s := by unfold finished; rw [f.spc, f.failed, f.done]
  obtain ⟨t1, t2, t3, t4, t5, t6⟩ := L.tell_ok hF.src.inv
  constructor
  · intro hact q h1 h2
    rw [f.spc] at hact
    rw [hg]
    rcases hmono (active_not_failed he hact) q h1 with h1 | h1
    · exact h.J hact q h1 (by rw [← hw]; exact h2)
    · exact h1
  · intro hnf hd q h1 h2
    rw [f.failed] at hnf
    rw [hfin] at hd
    rw [f.cell] at h2
    rw [hg]
    rcases hmono hnf q h1 with h1 | h1
    · exact h.facts hnf hd q h1 h2
    · exact h1
  · rw [f.spc, f.wtell]; exact h.finw
  · intro hss hnf
    rw [f.failed] at hnf
    have hm := hmono hnf
    obtain ⟨m1, m2⟩ := h.msgs hss hnf
    simp only [hg]
    refine ⟨?_, fun p hp q h1 h2 => ?_⟩
    · cases ht
      case sSend p heq hn =>
        intro p' hp' q h1 h2
        simp only [Option.some.injEq] at hp'
        subst hp'
        simp only [lb, hss, RdrPc.target, if_true, Option.getD_some] at h1
        omega
      all_goals first
        | (simp [Act.isRdr] at ha; done)
        | (intro p' hp' q h1 h2; exact (hm q h1).elim (fun h1 => m1 p' hp' q h1 h2) id)
    · rw [f.spc] at hp; exact (hm q h1).elim (fun h1 => m2 p hp q h1 h2) id
  · rintro q ⟨pos, len, fast, bs, hr, h1, h2⟩
    rw [hg]
    have hold := fun hr => h.got q ⟨pos, len, fast, bs, hr, h1, h2⟩
    cases ht
    case rRead n fast' bs' st' heq hr' =>
      rcases List.mem_cons.mp hr with hr | hr
      swap
      · exact hold hr
      simp only [Ev.readRet.injEq, Res.ok.injEq] at hr
      obtain ⟨e1, rfl, rfl, rfl⟩ := hr
      rw [t1] at e1; subst e1
      have hcl := hF.rdr.clean (by simp [heq, RdrPc.inRead])
      obtain ⟨r1, r2, -⟩ := L.read_ok hF.src.inv (L.clean_fresh hF.src.inv hcl) hr'
      have hcell : L.cell s.st q ≠ none := by
        have := r2 (q - L.rpos s.st) (by omega)
        rw [show L.rpos s.st + (q - L.rpos s.st) = q by omega] at this
        rw [this]; simp [List.getElem?_eq_none_iff]; omega
      have hq : q < c.normalize (L.rpos s.st + len) := by
        unfold Cfg.normalize
        split
        · next N hN => have := (hF.src.bnd N hN).2.2.2 q hcell; omega
        · omega
      cases fast with
      | true => exact hF.src.good q ((hF.rdr.fast len heq).2 q h1 hq)
      | false => exact h.slow len heq q h1 hq hcell
    all_goals first
      | (simp [Act.isRdr] at ha; done)
      | exact hold hr
      | exact hold (by simpa using hr)
  · have hn := h.norm
    cases ht
    case rDecideWait n heq _ _ =>
      intro n' r' hr'
      simp only [RdrPc.readReq, Option.some.injEq, Prod.mk.injEq] at hr'
      obtain ⟨rfl, rfl⟩ := hr'
      simp only [t4, t1]
    all_goals first
      | (simp [Act.isRdr] at ha; done)
      | (simp [RdrPc.readReq]; done)
      | exact hn
      | (intro n' r' hr'; exact hn n' r' (by simpa [*, RdrPc.readReq] using hr'))
  · have hto := h.told
    simp only [hg]
    cases ht
    case rSet n r heq =>
      intro hre hd
      have := (hT.free (by simp [heq, RdrPc.waiting])).2 hd
      simp [this.2.1] at hre
    all_goals first
      | (simp [Act.isRdr] at ha; done)
      | (simp [RdrPc.readWait]; done)
      | exact hto
      | (intro hre hd n' r' hr'; exact hto hre hd n' r' (by simpa [*, RdrPc.readWait] using hr'))
  · have hre := h.ready
    have hto := h.told
    simp only [hg]
    cases ht
    case rWaitDone n r heq hd => exact fun _ _ _ => Or.inl hd
    case rWaitReached n r heq hd hr =>
      intro n' r' hr'
      simp only [RdrPc.rCheck.injEq] at hr'
      obtain ⟨rfl, rfl⟩ := hr'
      exact Or.inr (hto hr hd n r (by simp [heq, RdrPc.readWait]))
    all_goals first
      | (simp [Act.isRdr] at ha; done)
      | (simp; done)
      | exact hre
      | (simp [*]; done)
  · have hsl := h.slow
    simp only [hg, f.cell]
    cases ht
    case rCheckOk n r heq hnf =>
      intro n' hn' q h1 h2 h3
      simp only [RdrPc.rRead.injEq] at hn'
      have hr := h.norm n r (by simp [heq, RdrPc.readReq])
      rcases h.ready n r heq with hd | hgd
      · have hlb := lb_target_none (c := c) (L := L) (s := s) (by simp [heq, RdrPc.target])
        exact h.facts hnf (Or.inr (Or.inr ⟨hnf, Or.inr hd⟩)) q (Nat.le_trans hlb h1) h3
      · exact hgd q h1 (by rw [hr, hn'.1]; exact h2)
    all_goals first
      | (simp [Act.isRdr] at ha; done)
      | (simp; done)
      | exact hsl
      | (simp [*]; done)
  · have hsl := h.len
    simp only [hg]
    cases ht
    case rCheckOk n r heq hnf =>
      intro n' hn'
      simp only [RdrPc.rRead.injEq] at hn'
      have hr := h.norm n r (by simp [heq, RdrPc.readReq])
      rcases h.ready n r heq with hd | hgd
      · exact Or.inl (he.eof (Or.inr ⟨hnf, Or.inr hd⟩))
      · exact Or.inr (fun q h1 h2 => hgd q h1 (by rw [hr, hn'.1]; exact h2))
    all_goals first
      | (simp [Act.isRdr] at ha; done)
      | (simp; done)
      | exact hsl
      | (simp [*]; done)

/-- The histories for which every read is correct: the transport resumes where asked,
delivers the declared length, and on a seekable source the consumer goes back only over
bytes it has read or that are downloaded. -/
def FwdG (E : Prop) (c : Cfg) (s : Sys S) (a : Act) : Prop :=
  Honest s a ∧ (¬ E → Delivers c s a) ∧ (c.supportsSeek = true → Connected c s a)

/-- Everything about one reachable state of such a history. -/
structure FwdAll (E : Prop) (c : Cfg) (L : Lawful S true) (W : Finset Nat) (s : Sys S) : Prop where
  full : Full c L W s
  fwd : Fwd E c L W s
  tok : Tok s
  ends : EndInv s

theorem FwdAll.step {E : Prop} {c : Cfg} {L : Lawful S true} {W : Finset Nat} {s s' : Sys S} {a : Act}
    (hnone : c.contentLength = none → E)
    (hb : c.batchSize ≠ 0) (hlen : c.LengthHonest) (hk : c.KeepsErrors)
    (hTot : ∀ p, c.supportsSeek = true → s.rpc = .sSeek p → ∃ x, S.rseek s.st p = .ok x)
    (hG : FwdG E c s a) (h : FwdAll E c L W s) (ht : Tr c s a s') : ∃ W', FwdAll E c L W' s' := by
  have hT' := h.tok.step ht
  have hE' := h.ends.step hk ht
  cases ha : a.isRdr
  · obtain ⟨W', e, hF'⟩ := h.full.step hb hlen hG.1 ht
    exact ⟨W', hF', h.fwd.src hnone hk hG.2.1 h.full h.ends h.tok ha ht e hF', hT', hE'⟩
  · obtain ⟨f, hi, hc⟩ := rdr_frame L ha ht h.full.src.inv h.full.rdr.clean
    exact ⟨W, ⟨h.full.src.of_frame f hi, FullRdr.step h.full.src h.full.rdr ha ht⟩,
      h.fwd.rdr hTot hG.2.2 h.full h.ends h.tok ha ht, hT', hE'⟩

/-- The storage is empty when it is created. -/
def StartsEmpty {P : Provider} {full : Bool} {cl : Option Nat} (LP : LawfulProvider P full cl) : Prop :=
  ∀ st, P.create cl = .ok st → ∀ q, LP.law.cell st q = none

theorem startsEmpty_none {P : Provider} {full : Bool} {cl : Option Nat}
    (LP : LawfulProvider P full cl) (h : cl = none) : StartsEmpty LP := by
  intro st hc q
  by_contra hq
  obtain ⟨-, n, hn, -⟩ := (LP.create_ok hc).2.2.2.2.2 q hq
  simp [h] at hn

theorem FwdAll.init {c : Cfg} {P : Provider} (LP : LawfulProvider P true c.contentLength)
    {s0 : Sys P.S} (h : Starts P c s0) : FwdAll (StartsEmpty LP) c LP.law ∅ s0 := by
  have hF := Full.init LP h
  obtain ⟨-, st, hc, rfl⟩ := h
  obtain ⟨h1, h2, h3, h4, h5, h6⟩ := LP.create_ok hc
  refine ⟨hF, ?_, Tok.init c st, EndInv.init c st⟩
  constructor
  · intro _ q a1 a2; simp [SD.init, wnext, h5] at a2
  · intro _ hd q _ hq
    rcases hd with hd | hd
    · exact absurd (hd st hc q) hq
    · simp [finished, SD.init, SrcPc.normal] at hd
  all_goals simp [SD.init, Seen, RdrPc.target, RdrPc.readReq, RdrPc.readWait]

theorem FwdAll.reach {c : Cfg} {P : Provider} (LP : LawfulProvider P true c.contentLength)
    {G : Sys P.S → Act → Prop} (hTot : SeekWorks c LP.law G)
     (hb : c.batchSize ≠ 0) (hlen : c.LengthHonest) (hk : c.KeepsErrors)
    (hG : ∀ s a, G s a → FwdG (StartsEmpty LP) c s a)
    {s0 s : Sys P.S} (h0 : Starts P c s0) (h : Reach c G s0 s) :
    ∃ W, FwdAll (StartsEmpty LP) c LP.law W s := by
  refine Reach.inv (P := fun s => ∃ W, FwdAll (StartsEmpty LP) c LP.law W s) h
    ⟨∅, FwdAll.init LP h0⟩ ?_
  rintro s s' a ⟨W, hW⟩ hg ht
  exact hW.step (startsEmpty_none LP) hb hlen hk (fun p => hTot _ _ _ p hg hW.full.src.inv) (hG _ _ hg) ht

end SD
