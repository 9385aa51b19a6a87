import Verif.Proof.Providers
import Verif.Proof.Sys.Pos
import Verif.Proof.Sys.WinReads

/-! # Rules that every event of the log obeys -/

set_option linter.unusedSimpArgs false
set_option linter.unusedVariables false

namespace SD

variable {S : Storage}

/-- What is known about a read when it returns; `K` says how it may be short. -/
def readRule (K : Nat → Nat → Prop) (c : Cfg) (e : Ev) (l : List Ev) : Prop :=
  match e with
  | .readRet pos len _ (.ok bs) => bs = slice c.remote pos bs.length ∧
    (bs.length < len → (∃ N, c.contentLength = some N ∧ N ≤ pos + bs.length) ∨ Ev.eof ∈ l ∨
      K len bs.length)
  | _ => True

/-- Only the first half of `readRule`. -/
def exactRule (c : Cfg) (e : Ev) (_ : List Ev) : Prop :=
  match e with
  | .readRet pos _ _ (.ok bs) => bs = slice c.remote pos bs.length
  | _ => True

/-- Reads that did not wait. -/
def fastRule (K : Nat → Nat → Prop) (c : Cfg) (e : Ev) (_ : List Ev) : Prop :=
  match e with
  | .readRet pos len true res => ∃ bs, res = .ok bs ∧ bs = slice c.remote pos bs.length ∧
    (bs.length = c.normalize (pos + len) - pos ∨ K len bs.length)
  | _ => True

theorem readsExact_of_rule {c : Cfg} {log : List Ev} (h : Always (exactRule c) log) :
    ReadsExact c.remote log := by
  intro pos len fast bs hm
  obtain ⟨l1, l2, -, h2⟩ := h.mem hm
  exact h2

theorem Always.mono {P Q : Ev → List Ev → Prop} {log : List Ev} (hPQ : ∀ e l, P e l → Q e l)
    (h : Always P log) : Always Q log := by
  induction log with
  | nil => trivial
  | cons e l ih => exact ⟨hPQ _ _ h.1, ih h.2⟩

theorem readRule_exact {K : Nat → Nat → Prop} {c : Cfg} {e : Ev} {l : List Ev} (h : readRule K c e l) : exactRule c e l := by
  unfold readRule at h
  unfold exactRule
  split
  · exact h.1
  · trivial

theorem FwdAll.readRule {E : Prop} {c : Cfg} {L : Lawful S true} {W : Finset Nat} {s s' : Sys S}
    {a : Act} (h : FwdAll E c L W s) (ht : Tr c s a s') {e : Ev} (he : s'.log = e :: s.log) :
    readRule L.Cut c e s.log := by
  unfold SD.readRule
  split
  · exact h.read ht he
  · trivial

theorem fwd_log {P : Provider} {c : Cfg} (LP : LawfulProvider P true c.contentLength)
    {G : Sys P.S → Act → Prop} (hTot : SeekWorks c LP.law G)
    (hb : c.batchSize ≠ 0) (hlen : c.LengthHonest) (hk : c.KeepsErrors)
    (hG : ∀ s a, G s a → FwdG (StartsEmpty LP) c s a)
    {s0 s : Sys P.S} (h0 : Starts P c s0) (h : Reach c G s0 s) :
    (∃ W, FwdAll (StartsEmpty LP) c LP.law W s) ∧ Always (readRule LP.law.Cut c) s.log := by
  refine Reach.inv (P := fun s => (∃ W, FwdAll (StartsEmpty LP) c LP.law W s) ∧
    Always (readRule LP.law.Cut c) s.log) h ⟨⟨∅, FwdAll.init LP h0⟩, ?_⟩ ?_
  · obtain ⟨-, st, -, rfl⟩ := h0; trivial
  · rintro s s' a ⟨⟨W, hW⟩, hl⟩ hg ht
    exact ⟨hW.step (startsEmpty_none LP) hb hlen hk (fun p => hTot _ _ _ p hg hW.full.src.inv) (hG _ _ hg) ht,
      always_step ht hl (fun e he => hW.readRule ht he)⟩

theorem win_log {P : Provider} {c : Cfg} (LP : LawfulProvider P false c.contentLength)
    {G : Sys P.S → Act → Prop} (hG : ∀ s a, G s a → SeqG c s a)
    {s0 s : Sys P.S} (h0 : Starts P c s0) (h : Reach c G s0 s) :
    (∃ W, Win c LP.law W s) ∧ Always (exactRule c) s.log := by
  refine Reach.inv (P := fun s => (∃ W, Win c LP.law W s) ∧ Always (exactRule c) s.log) h
    ⟨⟨∅, Win.init LP h0⟩, ?_⟩ ?_
  · obtain ⟨-, st, -, rfl⟩ := h0; trivial
  · rintro s s' a ⟨⟨W, hW⟩, hl⟩ hg ht
    refine ⟨?_, always_step ht hl ?_⟩
    · cases ha : a.isRdr
      · exact hW.src (hG _ _ hg) ha ht
      · exact ⟨W, hW.rdr (hG _ _ hg) ha ht⟩
    · intro e he
      unfold exactRule
      split
      · exact hW.read ht he
      · trivial

theorem win_len_log {P : Provider} {c : Cfg} (LP : LawfulProvider P false c.contentLength)
    (hk : c.KeepsErrors) {G : Sys P.S → Act → Prop}
    (hG : ∀ s a, G s a → SeqG c s a ∧ Forward c s a)
    {s0 s : Sys P.S} (h0 : Starts P c s0) (h : Reach c G s0 s) :
    ((∃ W, Win c LP.law W s) ∧ WinRdr c LP.law s ∧ Tok s ∧ EndInv s) ∧ Always (readRule (fun _ _ => False) c) s.log := by
  refine Reach.inv (P := fun s => ((∃ W, Win c LP.law W s) ∧ WinRdr c LP.law s ∧ Tok s ∧ EndInv s) ∧
    Always (readRule (fun _ _ => False) c) s.log) h ⟨⟨⟨∅, Win.init LP h0⟩, WinRdr.init LP h0, ?_, ?_⟩, ?_⟩ ?_
  · obtain ⟨-, st, -, rfl⟩ := h0; exact Tok.init c st
  · obtain ⟨-, st, -, rfl⟩ := h0; exact EndInv.init c st
  · obtain ⟨-, st, -, rfl⟩ := h0; trivial
  · rintro s s' a ⟨⟨⟨W, hW⟩, hR, hT, hE⟩, hl⟩ hg ht
    refine ⟨⟨?_, hR.step hW.contig hT hE (hG _ _ hg).2 ht, hT.step ht, hE.step hk ht⟩,
      always_step ht hl ?_⟩
    · cases ha : a.isRdr
      · exact hW.src (hG _ _ hg).1 ha ht
      · exact ⟨W, hW.rdr (hG _ _ hg).1 ha ht⟩
    · intro e he
      unfold SD.readRule
      split
      · exact ⟨hW.read ht he, fun hlt => (hR.short hW.contig ht he hlt).imp_right fun h => Or.inl (h.resolve_right fun hc => Bool.noConfusion (LP.law.cut_full hc))⟩
      · trivial

/-- The step that returns from `read`, for every result. -/
theorem tr_readRet_any {c : Cfg} {s s' : Sys S} {a : Act} {pos len : Nat} {fast : Bool}
    {res : Res (List Byte)} (ht : Tr c s a s') (hl : s'.log = .readRet pos len fast res :: s.log) :
    s.rpc = .rRead len fast ∧ pos = (S.tell s.st).1 ∧
      ((∃ bs, res = .ok bs ∧ S.read s.st len = .ok (bs, s'.st)) ∨
       (∃ k, res = .err k ∧ S.read s.st len = .err k) ∨
       (res = .panic ∧ S.read s.st len = .panic)) := by
  cases ht
  case rRead n fast' bs' st' heq hr =>
    simp only [List.cons.injEq, Ev.readRet.injEq, and_true] at hl
    obtain ⟨rfl, rfl, rfl, rfl⟩ := hl
    exact ⟨heq, rfl, Or.inl ⟨_, rfl, hr⟩⟩
  case rReadErr n fast' k heq hr =>
    simp only [List.cons.injEq, Ev.readRet.injEq, and_true] at hl
    obtain ⟨rfl, rfl, rfl, rfl⟩ := hl
    exact ⟨heq, rfl, Or.inr (Or.inl ⟨_, rfl, hr⟩)⟩
  case rReadPanic n fast' heq hr =>
    simp only [List.cons.injEq, Ev.readRet.injEq, and_true] at hl
    obtain ⟨rfl, rfl, rfl, rfl⟩ := hl
    exact ⟨heq, rfl, Or.inr (Or.inr ⟨rfl, hr⟩)⟩
  all_goals first
    | (simp at hl; done)

theorem full_fast_log {P : Provider} {c : Cfg} (LP : LawfulProvider P true c.contentLength)
    (hTot : Total LP.law) (hb : c.batchSize ≠ 0) (hlen : c.LengthHonest)
    {G : Sys P.S → Act → Prop} (hG : ∀ s a, G s a → Honest s a)
    {s0 s : Sys P.S} (h0 : Starts P c s0) (h : Reach c G s0 s) :
    (∃ W, Full c LP.law W s) ∧ Always (fastRule LP.law.Cut c) s.log := by
  refine Reach.inv (P := fun s => (∃ W, Full c LP.law W s) ∧
    Always (fastRule LP.law.Cut c) s.log) h ⟨⟨∅, Full.init LP h0⟩, ?_⟩ ?_
  · obtain ⟨-, st, -, rfl⟩ := h0; trivial
  · rintro s s' a ⟨⟨W, hW⟩, hl⟩ hg ht
    obtain ⟨W', -, h'⟩ := hW.step hb hlen (hG _ _ hg) ht
    refine ⟨⟨W', h'⟩, always_step ht hl ?_⟩
    intro e he
    unfold fastRule
    split
    · next pos len res =>
      obtain ⟨h1, h2, h3⟩ := tr_readRet_any ht he
      obtain ⟨f1, f2⟩ := hW.rdr.fast _ h1
      obtain ⟨r, hr⟩ := hTot.read_total (n := len) hW.src.inv (hW.src.good _ f1).1
      rcases h3 with ⟨bs, rfl, h3⟩ | ⟨k, rfl, h3⟩ | ⟨rfl, h3⟩
      · obtain ⟨h4, h5⟩ := hW.fast_read ht he
        exact ⟨_, rfl, h4, h5⟩
      · rw [hr] at h3; simp at h3
      · rw [hr] at h3; simp at h3
    · trivial

end SD
