import Verif.Proof.Sys.Requests

/-!
# Nothing is received twice

What the connection is going to deliver is not there yet.
-/

set_option linter.unusedSimpArgs false
set_option linter.unusedVariables false

namespace SD

variable {S : Storage}

/-- What the connection is going to deliver is not there yet. -/
def Unseen (s : Sys S) : Prop :=
  s.spc.active = true → ∀ q, wnext s ≤ q → (∀ b, vlim s = some b → q < b) → ¬ got s q

/-- What was received is there, or is about to be written. -/
def Kept (l : List Nat) (s : Sys S) : Prop :=
  s.spc.active = true → ∀ q ∈ l, got s q ∨ (s.spc.live = true ∧ wnext s ≤ q ∧ q < s.tpos)

theorem got_lt {c : Cfg} {L : Lawful S true} {W : Finset Nat} {s : Sys S} (hF : Full c L W s) {n : Nat}
    (hn : c.contentLength = some n) (hact : s.spc.active = true) {q : Nat} (h : got s q) : q < n := by
  obtain ⟨-, b2, -, b4⟩ := hF.src.bnd n hn
  have := b2 hact
  rcases h with h | ⟨-, -, h⟩ | ⟨p, -, -, h⟩
  · exact b4 q (by rw [(hF.src.good q h).2]; simp)
  · omega
  · omega

theorem active_of_live {p : SrcPc} (h : p.live = true) : p.active = true := by
  cases p <;> simp_all [SrcPc.active, SrcPc.live]

theorem live_after_round {p l b : Nat} {t : List Byte} : (roundPc p l t b).live = true := by
  unfold roundPc
  split
  · rfl
  · split <;> rfl

/-- Only a reconnect lifts the limit. -/
theorem lifted {c : Cfg} {s s' : Sys S} {a : Act} (hact : s'.spc.active = true) (ht : Tr c s a s')
    (hon : Honest s a) (hn : s.spc.turns = true → a ≠ .src) (h : vlim s' = none) : vlim s = none ∨ ∃ pos, a = .reconnOk pos ∧ vlim s = s.tlim := by
  cases ht
  case reconnOk p pos heq => exact .inr ⟨pos, rfl, by simp [vlim, heq]⟩
  case seekOk start stop pos st' heq hx =>
    left; simpa [vlim, heq, hon.1 start stop pos heq rfl] using h
  case wChkMiss pos0 len todo bw heq hq => left; simp [vlim, heq, roundPc] at h ⊢; grind
  case wNtf pos0 len todo bw heq => left; simp [vlim, heq, roundPc] at h ⊢; grind
  case chunk m heq h1 h2 h3 hpf hr => left; simp [vlim, heq, startPc] at h ⊢; grind
  case chunkRem m r heq h1 h2 h3 hpf hr => left; simp [vlim, heq, startPc] at h ⊢; grind
  case eofRem r heq hpf hr => left; simp [vlim, heq, startPc] at h ⊢; grind
  all_goals first
    | (simp [SrcPc.turns, *] at hn; done)
    | (simp [SrcPc.active, SrcPc.live] at hact; done)
    | (left; exact h)
    | (left; simpa [vlim, *] using h)

set_option maxHeartbeats 4000000 in
theorem Unseen.step {c : Cfg} {L : Lawful S true} {W : Finset Nat} {n : Nat} (hn : c.contentLength = some n)
    {s s' : Sys S} {a : Act} (hF : Full c L W s) (hN : Noted s) (hT : Track s) (hA : Aim n s)
    (hon : Honest s a) (hG : ReconnectsToEnd c s a) (h : Unseen s) (ht : Tr c s a s') : Unseen s' := by
  intro hact q q1 q2
  have hb := active_back hact ht
  have hg := got_step hF hN hT hA.pf hact ht q
  by_cases htn : s.spc.turns = true ∧ a = .src
  · obtain ⟨k1, rfl⟩ := htn
    cases ht
    case seekIgnore p heq hs => exact fun h' => h hb q (by simpa only [wnext, heq] using q1) (by simpa only [vlim, heq] using q2) (by simpa [got, wnext, heq, SrcPc.base] using h')
    case seekRestart p n' a b heq hs hpf' hcn hg' =>
      obtain ⟨g1, g2, g3, g4, g5, g6⟩ := RSet.nextGap_some hF.src.wf hg'
      have q2 := q2 b (by simp [vlim])
      simp only [wnext] at q1
      rintro (h' | ⟨-, -, h'⟩ | ⟨p', h', -⟩)
      · exact g5 q (by omega) q2 h'
      · simp only [wnext] at h'; omega
      · simp [SrcPc.base] at h'
    case seekAbort p n' a b heq hs hpf' hcn hg' =>
      obtain ⟨g1, g2, g3, g4, g5, g6⟩ := RSet.nextGap_some (RSet.wf_add hF.src.wf _ _) hg'
      have q2 := q2 b (by simp [vlim])
      simp only [wnext] at q1
      rintro (h' | ⟨-, -, h'⟩ | ⟨p', h', -⟩)
      · exact g5 q (by omega) q2 h'
      · simp only [wnext] at h'; omega
      · simp [SrcPc.base] at h'
    case finGap n' a b heq hs hcn hg' =>
      obtain ⟨g1, g2, g3, g4, g5, g6⟩ := RSet.nextGap_some hF.src.wf hg'
      have q2 := q2 b (by simp [vlim])
      simp only [wnext] at q1
      rintro (h' | ⟨-, -, h'⟩ | ⟨p', h', -⟩)
      · exact g5 q (by omega) q2 h'
      · simp only [wnext] at h'; omega
      · simp [SrcPc.base] at h'
    case seekRestartUnk p heq hs hpf' hcn => rw [hcn] at hn; cases hn
    case seekAbortUnk p heq hs hpf' hcn => rw [hcn] at hn; cases hn
    case seekRestartNone p n' heq hs hpf' hcn hg' =>
      rw [hg]
      rintro (h' | h')
      · exact h hb q (by simpa only [wnext, heq] using q1) (by simpa only [vlim, heq] using q2) h'
      · simp [adv, heq] at h'; omega
    case seekAbortNone p n' heq hs hpf' hcn hg' =>
      rw [hg]
      rintro (h' | h')
      · exact h hb q (by simpa only [wnext, heq] using q1) (by simpa only [vlim, heq] using q2) h'
      · simp [adv, heq] at h'; omega
    all_goals first
      | (simp only [SrcPc.turns, *] at k1; cases k1; done)
      | (simp [SrcPc.active, SrcPc.live] at hact; done)
  · rcases wnext_step hF hact ht with e | e
    · exact absurd e htn
    rw [hg]
    rintro (h' | h')
    · rcases lim_step hn hF hact ht with e1 | e1 | ⟨e1, e2, -⟩
      · exact h hb q (by omega) (by rw [← e1]; exact q2) h'
      · rcases lifted hact ht hon (fun e1 e2 => htn ⟨e1, e2⟩) e1 with e2 | ⟨pos, rfl, e2⟩
        · exact h hb q (by omega) (by rw [e2]; simp) h'
        · have := got_lt hF hn hb h'
          rcases hG pos rfl with e3 | e3
          · exact h hb q (by omega) (by rw [e2, e3]; simp) h'
          · exact h hb q (by omega) (by rw [e2, e3, hn]; simpa using this) h'
      · exact htn ⟨e1, e2⟩
    · omega

set_option maxHeartbeats 4000000 in
/-- What is about to be written goes on being so. -/
theorem Kept.step {c : Cfg} {L : Lawful S true} {W : Finset Nat}
    {s s' : Sys S} {a : Act} (hF : Full c L W s) (hN : Noted s) (hT : Track s)
    (hA : s.pfDone = false → s.spc.active = true → ∀ q, wnext s ≤ q → q < s.pfStart → RSet.Mem s.dl q)
    {l : List Nat} (h : Kept l s) (ht : Tr c s a s') : Kept (receivedAt s a ++ l) s' := by
  intro hact q hq
  have hb := active_back hact ht
  have hg := got_step hF hN hT hA hact ht q
  rw [hg]
  have key : (s.spc.live = true ∧ wnext s ≤ q ∧ q < s.tpos) ∨ q ∈ receivedAt s a →
      (wnext s ≤ q ∧ q < wnext s + adv s s') ∨ (s'.spc.live = true ∧ wnext s' ≤ q ∧ q < s'.tpos) := by
    cases ha : a.isRdr
    case true =>
      obtain ⟨f, -, -⟩ := rdr_frame L ha ht hF.src.inv hF.rdr.clean
      have h1 : wnext s' = wnext s := by unfold wnext; rw [f.spc, f.wtell]
      rintro (h2 | h2)
      · right; rw [f.spc, h1, f.tpos]; exact h2
      · cases a <;> simp [Act.isRdr, receivedAt] at ha h2
    have htp := hF.src.tpos
    have hnx : s.spc.live = true → wnext s = S.wtell s.st := by
      intro hl
      unfold wnext
      split
      · rename_i e; rw [e] at hl; cases hl
      · rfl
    have hadv := wnext_step hF hact ht
    have hwr : ∀ t k st', S.write s.st (batch c t) = .ok (k, st') → S.wtell st' = S.wtell s.st + k := by
      intro t k st' hw
      obtain ⟨w1, -, -, -, w2, -⟩ := L.write_ok hF.src.inv hw
      exact w2
    cases ht
    case chunkRem n r heq h1 h2 h3 hpf hr => rw [hF.src.rem] at hr; cases hr
    case eofRem r heq hpf hr => rw [hF.src.rem] at hr; cases hr
    case chunk m heq h1 h2 h3 hpf hr =>
      have e1 := hnx (by rw [heq]; rfl)
      have e2 := htp (by rw [heq]; rfl)
      simp only [heq, SrcPc.pend, List.length_nil] at e2
      rintro (h4 | h4)
      · omega
      · simp only [receivedAt, List.mem_range'_1] at h4
        right
        by_cases e : slice c.remote s.tpos m = [] <;> simp [wnext, startPc, e, SrcPc.live] <;> omega
    case chunkPf m heq h1 h2 h3 hpf =>
      have e1 := hnx (by rw [heq]; rfl)
      have e2 := htp (by rw [heq]; rfl)
      simp only [heq, SrcPc.pend, List.length_nil] at e2
      rintro (h4 | h4)
      · omega
      · simp only [receivedAt, List.mem_range'_1] at h4
        right
        simp [wnext, SrcPc.live]; omega
    all_goals first
      | (simp [Act.isRdr] at ha; done)
      | (simp [SrcPc.active, SrcPc.live] at hact; done)
      | (rintro (⟨h4, h5, h6⟩ | h4)
         · have e1 := hnx h4
           have e2 := htp h4
           simp only [SrcPc.pend, List.length_nil, *] at e2
           omega
         · simp [receivedAt] at h4
         done)
      | (rintro (⟨h4, h5, h6⟩ | h4)
         · rcases hadv with ⟨e, -⟩ | e
           · simp [SrcPc.turns, *] at e
           · rcases Nat.lt_or_ge q (wnext s + adv s _) with h7 | h7
             · exact .inl ⟨h5, h7⟩
             · right
               rw [e]
               refine ⟨?_, h7, h6⟩
               first
                 | rfl
                 | exact live_after_round
         · simp [receivedAt] at h4)
  rcases List.mem_append.mp hq with h1 | h1
  · rcases key (.inr h1) with h2 | h2
    · exact .inl (.inr h2)
    · exact .inr h2
  · rcases h hb q h1 with h2 | h2
    · exact .inl (.inl h2)
    · rcases key (.inl h2) with h2 | h2
      · exact .inl (.inr h2)
      · exact .inr h2

/-- A chunk is not there yet. -/
theorem chunk_unseen {c : Cfg} {L : Lawful S true} {W : Finset Nat} {s s' : Sys S} {a : Act} (hF : Full c L W s)
    (h : Unseen s) {l : List Nat} (hk : Kept l s) (ht : Tr c s a s') :
    ∀ q ∈ receivedAt s a, q ∉ l ∧ ∀ m, c.remoteLen = some m → q < m := by
  intro q hq
  cases a <;> simp only [receivedAt, List.mem_range'_1, List.not_mem_nil] at hq
  case chunk n =>
    have hs : s.spc = .sel ∧ leOpt (s.tpos + n) s.tlim = true ∧ leOpt (s.tpos + n) c.remoteLen = true := by
      cases ht <;> exact ⟨by assumption, by assumption, by assumption⟩
    obtain ⟨h1, h2, h3⟩ := hs
    have e2 := hF.src.tpos (by rw [h1]; rfl)
    have e1 : wnext s = S.wtell s.st := by simp [wnext, h1]
    simp only [h1, SrcPc.pend, List.length_nil] at e2
    refine ⟨fun hl => ?_, fun m hm => ?_⟩
    · rcases hk (by rw [h1]; rfl) q hl with h4 | h4
      · refine h (by rw [h1]; rfl) q (by omega) (fun b hb => ?_) h4
        simp only [vlim, h1] at hb
        rw [hb] at h2
        simp only [leOpt, decide_eq_true_eq] at h2
        omega
      · omega
    · rw [hm] at h3
      simp only [leOpt, decide_eq_true_eq] at h3
      omega

theorem nodup_receivedAt (s : Sys S) (a : Act) : (receivedAt s a).Nodup := by
  cases a <;> simp [receivedAt, List.nodup_range']

theorem receivedFrom_cons (s : Sys S) (a : Act) (h : List (Sys S × Act)) :
    receivedFrom ((s, a) :: h) = receivedAt s a ++ receivedFrom h := rfl

theorem twice_cons {s : Sys S} {a : Act} {l : List Nat} (h1 : l.Nodup)
    (h2 : ∀ q ∈ receivedAt s a, q ∉ l) : (receivedAt s a ++ l).Nodup :=
  List.nodup_append.mpr ⟨nodup_receivedAt s a, h1, fun x hx y hy e => h2 x hx (e ▸ hy)⟩

/-- With a known length. -/
theorem once_known {P : Provider} {c : Cfg} {n : Nat} (hn : c.contentLength = some n)
    (LP : LawfulProvider P true c.contentLength) (PP : PositionalProvider P c.contentLength)
    (hb : c.batchSize ≠ 0) (hlen : c.LengthHonest) {s0 s : Sys P.S} (h0 : Starts P c s0)
    {h : List (Sys P.S × Act)} (hh : Hist (step c) s0 h s) (hon : ∀ x ∈ h, Honest x.1 x.2)
    (hre : ∀ x ∈ h, ReconnectsToEnd c x.1 x.2) :
    Unseen s ∧ Kept (receivedFrom h) s ∧ (receivedFrom h).Nodup ∧ ∀ q ∈ receivedFrom h, q < n := by
  induction hh with
  | nil =>
    obtain ⟨-, st, hc, rfl⟩ := h0
    refine ⟨?_, ?_, List.nodup_nil, by simp [receivedFrom]⟩
    · rintro - q - - (h | ⟨-, -, h⟩ | ⟨p, h, -⟩)
      · simp [init, RSet.Mem] at h
      · obtain ⟨-, -, -, -, hw, -⟩ := LP.create_ok hc
        have hz : wnext (init c st) = 0 := hw
        omega
      · simp [init, SrcPc.base] at h
    · intro _ q hq
      simp [receivedFrom] at hq
  | @cons h s s' a hh hs ih =>
    have hon' : ∀ x ∈ h, Honest x.1 x.2 := fun x hx => hon x (List.mem_cons_of_mem _ hx)
    obtain ⟨i1, i2, i3, i4⟩ := ih hon' (fun x hx => hre x (List.mem_cons_of_mem _ hx))
    have hr := hh.reach (G := fun s a => Honest s a) hon'
    obtain ⟨W, hF, hN⟩ := finish_inv LP hb hlen (fun _ _ h => h) h0 hr
    have hT := (Track.reach PP h0 hr).2
    have hA := (requests_known hn LP PP hb hlen h0 hh hon').1
    have ht := tr_of_step hs
    have hc := chunk_unseen hF i1 i2 ht
    rw [receivedFrom_cons]
    refine ⟨i1.step hn hF hN hT hA (hon _ List.mem_cons_self) (hre _ List.mem_cons_self) ht, i2.step hF hN hT hA.pf ht,
      twice_cons i3 fun q hq => (hc q hq).1, fun q hq => ?_⟩
    rcases List.mem_append.mp hq with hq | hq
    · obtain ⟨m, hm, hle⟩ := hlen n hn
      have := (hc q hq).2 m hm
      omega
    · exact i4 q hq

/-- Without seeks nothing asks for another position. -/
structure Unmoved (s : Sys S) : Prop where
  start : s.pfStart = 0
  target : s.rpc.target = none
  queue : s.seekQ = none
  msg : ∀ p, s.spc ≠ .seekMsg p

set_option maxHeartbeats 4000000 in
theorem Unmoved.step {c : Cfg} {s s' : Sys S} {a : Act} (h : Unmoved s) (hg : NoSeek s a) (ht : Tr c s a s') : Unmoved s' := by
  obtain ⟨h1, h2, h3, h4⟩ := h
  unfold NoSeek at hg
  cases ht <;> constructor <;> grind [RdrPc.target, roundPc, startPc]

set_option maxHeartbeats 4000000 in
/-- Without seeks everything before the writer is there, and nothing else. -/
theorem line_step {c : Cfg} {L : Lawful S true} {W : Finset Nat}
    {s s' : Sys S} {a : Act} (hF : Full c L W s) (hN : Noted s) (hT : Track s) (hC : Unmoved s)
    (h : s.spc.active = true → ∀ q, got s q ↔ q < wnext s) (ht : Tr c s a s') :
    s'.spc.active = true → ∀ q, got s' q ↔ q < wnext s' := by
  intro hact q
  have hb := active_back hact ht
  have hg := got_step hF hN hT (fun _ _ q h1 h2 => by rw [hC.start] at h2; omega) hact ht q
  rw [hg, h hb]
  rcases wnext_step hF hact ht with ⟨e1, e2⟩ | e
  · have hm := hC.msg
    subst e2
    cases ht
    case finGap n' a b heq hs hcn hg' =>
      obtain ⟨g1, g2, g3, g4, g5, g6⟩ := RSet.nextGap_some hF.src.wf hg'
      have hpf := hT.fin heq
      have hd : ∀ q, RSet.Mem s.dl q ↔ q < wnext s := by
        intro q
        rw [← h hb q]
        constructor
        · exact .inl
        · rintro (h | ⟨h, -⟩ | ⟨p, h, -⟩)
          · exact h
          · rw [hpf] at h; cases h
          · simp [heq, SrcPc.base] at h
      have k1 : ¬ a < wnext s := fun h => g5 a (by omega) g2 ((hd a).mpr h)
      have k2 : ¬ wnext s < a := fun h => by
        have := (hd (wnext s)).mp (g4 (wnext s) (by omega) h)
        omega
      simp only [adv, heq]
      have : wnext s = a := by omega
      simp only [wnext, heq] at this ⊢
      omega
    all_goals first
      | exact absurd ‹_› (hm _)
      | (simp only [SrcPc.turns, *] at e1; cases e1; done)
      | (simp [SrcPc.active, SrcPc.live] at hact; done)
  · omega

/-- Without seeks, with or without a known length. -/
theorem once_noSeek {P : Provider} {c : Cfg}
    (LP : LawfulProvider P true c.contentLength) (PP : PositionalProvider P c.contentLength)
    (hb : c.batchSize ≠ 0) (hlen : c.LengthHonest) {s0 s : Sys P.S} (h0 : Starts P c s0)
    {h : List (Sys P.S × Act)} (hh : Hist (step c) s0 h s) (hon : ∀ x ∈ h, Honest x.1 x.2)
    (hns : ∀ x ∈ h, NoSeek x.1 x.2) :
    Unmoved s ∧ (s.spc.active = true → ∀ q, got s q ↔ q < wnext s) ∧ Kept (receivedFrom h) s ∧
      (receivedFrom h).Nodup ∧ ∀ m, c.remoteLen = some m → ∀ q ∈ receivedFrom h, q < m := by
  induction hh with
  | nil =>
    obtain ⟨-, st, hc, rfl⟩ := h0
    obtain ⟨-, -, -, -, hw, -⟩ := LP.create_ok hc
    have hz : wnext (init c st) = 0 := hw
    refine ⟨⟨rfl, rfl, rfl, by simp [init]⟩, ?_, ?_, List.nodup_nil, by simp [receivedFrom]⟩
    · intro _ q
      rw [hz]
      refine ⟨?_, by omega⟩
      rintro (h | ⟨-, -, h⟩ | ⟨p, h, -⟩)
      · simp [init, RSet.Mem] at h
      · omega
      · simp [init, SrcPc.base] at h
    · intro _ q hq
      simp [receivedFrom] at hq
  | @cons h s s' a hh hs ih =>
    have hon' : ∀ x ∈ h, Honest x.1 x.2 := fun x hx => hon x (List.mem_cons_of_mem _ hx)
    obtain ⟨i1, i2, i3, i4, i5⟩ := ih hon' (fun x hx => hns x (List.mem_cons_of_mem _ hx))
    have hr := hh.reach (G := fun s a => Honest s a) hon'
    obtain ⟨W, hF, hN⟩ := finish_inv LP hb hlen (fun _ _ h => h) h0 hr
    have hT := (Track.reach PP h0 hr).2
    have ht := tr_of_step hs
    have hc := chunk_unseen hF (fun hact q h1 _ h2 => by have := (i2 hact q).mp h2; omega) i3 ht
    rw [receivedFrom_cons]
    refine ⟨i1.step (hns _ List.mem_cons_self) ht, line_step hF hN hT i1 i2 ht,
      i3.step hF hN hT (fun _ _ q h1 h2 => by rw [i1.start] at h2; omega) ht,
      twice_cons i4 fun q hq => (hc q hq).1, fun m hm q hq => ?_⟩
    rcases List.mem_append.mp hq with hq | hq
    · exact (hc q hq).2 m hm
    · exact i5 m hm q hq

/-- Different positions below `n` are at most `n`. -/
theorem length_le_of_nodup {n : Nat} {l : List Nat} (h : l.Nodup) (hl : ∀ q ∈ l, q < n) : l.length ≤ n := by
  have h1 : l.toFinset ⊆ Finset.range n := by
    intro q hq
    exact Finset.mem_range.mpr (hl q (List.mem_toFinset.mp hq))
  have h2 := Finset.card_le_card h1
  rwa [List.toFinset_card_of_nodup h, Finset.card_range] at h2

end SD
