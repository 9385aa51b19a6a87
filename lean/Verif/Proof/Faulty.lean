import Verif.Model.Faulty
import Verif.Proof.Ring
import Verif.Proof.Sys.Forward

/-! # Storage that fails obeys the laws of storage -/

namespace SD

variable {S : Storage}

theorem failing_ok {α : Type} {k : Option Kind} {r : Res α} {x : α} (h : failing k r = .ok x) : r = .ok x := by
  cases k with
  | none => exact h
  | some k => cases h

theorem failing_panic {α : Type} {k : Option Kind} {r : Res α} (h : failing k r = .panic) : r = .panic := by
  cases k with
  | none => exact h
  | some k => cases h

theorem flt_read {s s' : Flt S} {n : Nat} {bs : List Byte} (h : (faulty S).read s n = .ok (bs, s')) :
    ∃ st, S.read s.st n = .ok (bs, st) ∧ s' = { s with st := st } := by
  obtain ⟨⟨b, st⟩, h1, h2⟩ := bind_ok (failing_ok h)
  cases h2
  exact ⟨st, h1, rfl⟩

theorem flt_rseek {s s' : Flt S} {p : Nat} (h : (faulty S).rseek s p = .ok s') :
    ∃ st, S.rseek s.st p = .ok st ∧ s' = { s with st := st } := by
  obtain ⟨st, h1, h2⟩ := bind_ok (failing_ok h)
  cases h2
  exact ⟨st, h1, rfl⟩

theorem flt_write {s s' : Flt S} {bs : List Byte} {k : Nat} (h : (faulty S).write s bs = .ok (k, s')) :
    ∃ st, S.write s.st bs = .ok (k, st) ∧ s' = { s with st := st, ops := s.ops + 1 } := by
  obtain ⟨⟨b, st⟩, h1, h2⟩ := bind_ok (failing_ok h)
  cases h2
  exact ⟨st, h1, rfl⟩

theorem flt_wseek {s s' : Flt S} {p : Nat} (h : (faulty S).wseek s p = .ok s') :
    ∃ st, S.wseek s.st p = .ok st ∧ s' = { s with st := st, ops := s.ops + 1 } := by
  obtain ⟨st, h1, h2⟩ := bind_ok (failing_ok h)
  cases h2
  exact ⟨st, h1, rfl⟩

/-- The laws hold for a storage that fails; `sure` asks that seeks of the reader do not. -/
def faultyLawful {full : Bool} (sure : Bool) (L : Lawful S full) : Lawful (faulty S) full where
  Inv s W := L.Inv s.st W ∧ (sure = true → ∀ i, s.faults.seek i = none)
  cell s := L.cell s.st
  rpos s := L.rpos s.st
  Clean s := L.Clean s.st
  Fresh s := L.Fresh s.st
  Exact s := L.Exact s.st
  Cut := L.Cut
  cut_pos := L.cut_pos
  cut_full := L.cut_full
  exact_full h s := L.exact_full h s.st
  exact_tell h1 h2 := L.exact_tell h1.1 h2
  exact_read h1 h2 h3 := by
    obtain ⟨st, hx, rfl⟩ := flt_read h3
    exact L.exact_read h1.1 h2 hx
  exact_write h1 h2 h3 := by
    obtain ⟨st, hx, rfl⟩ := flt_write h3
    exact L.exact_write h1.1 h2 hx
  exact_rseek h1 h2 h3 h4 := by
    obtain ⟨st, hx, rfl⟩ := flt_rseek h4
    exact L.exact_rseek h1.1 h2 h3 hx
  exact_wseek h1 h2 h3 := by
    obtain ⟨st, hx, rfl⟩ := flt_wseek h3
    exact L.exact_wseek h1.1 h2 hx
  clean_fresh h1 h2 := L.clean_fresh h1.1 h2
  written_some h1 {s W q} h2 h3 := L.written_some h1 h2.1 h3
  tell_ok h1 := by
    obtain ⟨t1, t2, t3, t4, t5, t6⟩ := L.tell_ok h1.1
    exact ⟨t1, ⟨t2, h1.2⟩, t3, t4, t5, t6⟩
  read_ok h1 h2 h3 := by
    obtain ⟨st, hx, rfl⟩ := flt_read h3
    obtain ⟨r1, r2, r3, r4, r5, r6, r7⟩ := L.read_ok h1.1 h2 hx
    exact ⟨r1, r2, ⟨r3, h1.2⟩, r4, r5, r6, r7⟩
  read_len h1 h2 h3 h4 h5 h6 := by
    obtain ⟨st, hx, rfl⟩ := flt_read h4
    exact L.read_len h1.1 h2 h3 hx h5 h6
  read_some h0 {s W n bs s'} h1 h2 h3 h4 h5 := by
    obtain ⟨st, hx, rfl⟩ := flt_read h3
    exact L.read_some h0 h1.1 h2 hx h4 h5
  rseek_ok h1 h2 := by
    obtain ⟨st, hx, rfl⟩ := flt_rseek h2
    obtain ⟨r1, r2, r3, r4, r5⟩ := L.rseek_ok h1.1 hx
    exact ⟨⟨r1, h1.2⟩, r2, r3, r4, r5⟩
  write_ok h1 h2 := by
    obtain ⟨st, hx, rfl⟩ := flt_write h2
    obtain ⟨r1, r2, r3, r4, r5, r6, r7⟩ := L.write_ok h1.1 hx
    exact ⟨r1, ⟨r2, h1.2⟩, r3, r4, r5, r6, r7⟩
  write_full h0 {s W bs k s'} h1 h2 := by
    obtain ⟨st, hx, rfl⟩ := flt_write h2
    exact L.write_full h0 h1.1 hx
  write_window h0 {s W bs k s'} h1 h2 := by
    obtain ⟨st, hx, rfl⟩ := flt_write h2
    exact L.write_window h0 h1.1 hx
  wseek_ok h1 h2 h3 := by
    obtain ⟨st, hx, rfl⟩ := flt_wseek h3
    obtain ⟨r1, r2, r3, r4, r5⟩ := L.wseek_ok h1.1 h2 hx
    exact ⟨⟨r1, h1.2⟩, r2, r3, r4, r5⟩

theorem faulty_works {full sure : Bool} {L : Lawful S full} (h : SeekTotal L) {c : Cfg}
    (hs : c.supportsSeek = true → sure = true) {G : Sys (faulty S) → Act → Prop} :
    SeekWorks c (faultyLawful sure L) G := by
  intro s W a p _ hi hss _
  obtain ⟨st, h1⟩ := h.rseek_total (p := p) hi.1
  exact ⟨{ s.st with st := st }, by
    show failing (s.st.faults.seek s.st.calls) _ = _
    rw [hi.2 (hs hss), h1]; rfl⟩

def faultyPositional (Q : Positional S) : Positional (faulty S) where
  Ok s := Q.Ok s.st
  rp s := Q.rp s.st
  read_le h := by
    obtain ⟨st, hx, rfl⟩ := flt_read h
    exact Q.read_le hx
  tell h := Q.tell h
  read h0 h := by
    obtain ⟨st, hx, rfl⟩ := flt_read h
    exact Q.read h0 hx
  rseek h0 h := by
    obtain ⟨st, hx, rfl⟩ := flt_rseek h
    exact Q.rseek h0 hx
  write h0 h := by
    obtain ⟨st, hx, rfl⟩ := flt_write h
    exact Q.write h0 hx
  wseek h0 h := by
    obtain ⟨st, hx, rfl⟩ := flt_wseek h
    exact Q.wseek h0 hx

theorem flt_create {f : Faults} {P : Provider} {cl : Option Nat} {s : Flt P.S}
    (h : (faultyProvider f P).create cl = .ok s) :
    ∃ st, P.create cl = .ok st ∧ s = { st := st, faults := f, calls := 0, ops := 0 } := by
  obtain ⟨st, h1, h2⟩ := bind_ok h
  cases h2
  exact ⟨st, h1, rfl⟩

def faultyLawfulProvider {P : Provider} {full : Bool} {cl : Option Nat} (sure : Bool) (f : Faults)
    (hf : sure = true → ∀ i, f.seek i = none) (LP : LawfulProvider P full cl) :
    LawfulProvider (faultyProvider f P) full cl where
  law := faultyLawful sure LP.law
  create_ok h := by
    obtain ⟨st, h1, rfl⟩ := flt_create h
    obtain ⟨r1, r2, r3, r4, r5, r6⟩ := LP.create_ok h1
    exact ⟨⟨r1, hf⟩, r2, r3, r4, r5, r6⟩

def faultyPositionalProvider {P : Provider} {cl : Option Nat} (f : Faults) (PP : PositionalProvider P cl) :
    PositionalProvider (faultyProvider f P) cl where
  pos := faultyPositional PP.pos
  create h := by
    obtain ⟨st, h1, rfl⟩ := flt_create h
    exact PP.create h1

theorem faulty_empty {P : Provider} {full : Bool} {cl : Option Nat} {sure : Bool} {f : Faults}
    {hf : sure = true → ∀ i, f.seek i = none} {LP : LawfulProvider P full cl} (h : StartsEmpty LP) :
    StartsEmpty (faultyLawfulProvider sure f hf LP) := by
  intro s hs q
  obtain ⟨st, h1, rfl⟩ := flt_create hs
  exact h st h1 q

/-- A write panics only if that of the storage itself does. -/
theorem flt_write_panic {s : Flt S} {bs : List Byte} (h : (faulty S).write s bs = .panic) :
    S.write s.st bs = .panic := by
  have h := failing_panic h
  cases h1 : S.write s.st bs with
  | ok r => rw [h1] at h; cases h
  | err k => rw [h1] at h; cases h
  | panic => rfl

theorem flt_wseek_panic {s : Flt S} {p : Nat} (h : (faulty S).wseek s p = .panic) :
    S.wseek s.st p = .panic := by
  have h := failing_panic h
  cases h1 : S.wseek s.st p with
  | ok r => rw [h1] at h; cases h
  | err k => rw [h1] at h; cases h
  | panic => rfl

def faultyRing {b : Bool} (R : Ring S b) : Ring (faulty S) b where
  Ok s := R.Ok s.st
  size s := R.size s.st
  rp s := R.rp s.st
  tell h := R.tell h
  read h0 h := by
    obtain ⟨st, hx, rfl⟩ := flt_read h
    exact R.read h0 hx
  rseek h0 h := by
    obtain ⟨st, hx, rfl⟩ := flt_rseek h
    exact R.rseek h0 hx
  write h0 h := by
    obtain ⟨st, hx, rfl⟩ := flt_write h
    exact R.write h0 hx
  wseek h0 h := by
    obtain ⟨st, hx, rfl⟩ := flt_wseek h
    exact R.wseek h0 hx
  write_safe h0 h := R.write_safe h0 (flt_write_panic h)
  wseek_here h0 h := R.wseek_here h0 (flt_wseek_panic h)
  wseek_safe hc _ _ h0 h := R.wseek_safe hc h0 (flt_wseek_panic h)

def faultyRingProvider {P : Provider} {cl : Option Nat} {b : Bool} (f : Faults) (RP : RingProvider P cl b) :
    RingProvider (faultyProvider f P) cl b where
  ring := faultyRing RP.ring
  bufferSize := RP.bufferSize
  cap := RP.cap
  create h := by
    obtain ⟨st, h1, rfl⟩ := flt_create h
    exact RP.create h1

end SD
