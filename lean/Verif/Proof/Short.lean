import Verif.Proof.ShortOps
import Verif.Spec.Storage

/-! # Storage with short reads and writes obeys the laws of storage -/

namespace SD

variable {S : Storage}

/-! ### Short writes -/

theorem take_some_ne {bs : List Byte} {n : Nat} (h : bs ≠ []) : bs.take (n + 1) ≠ [] := by
  cases bs with
  | nil => exact absurd rfl h
  | cons b bs => simp

/-- A storage that keeps everything keeps doing so if its writes take less. -/
def slowLawful (L : Lawful S true) : Lawful (slow S) true where
  Inv s W := L.Inv s.st W
  cell s := L.cell s.st
  rpos s := L.rpos s.st
  Clean s := L.Clean s.st
  Fresh s := L.Fresh s.st
  Exact s := L.Exact s.st
  Cut := L.Cut
  cut_pos := L.cut_pos
  cut_full := L.cut_full
  exact_full h s := L.exact_full h s.st
  exact_tell h1 h2 := L.exact_tell h1 h2
  exact_read h1 h2 h3 := by
    obtain ⟨st, hx, rfl⟩ := slow_read h3
    exact L.exact_read h1 h2 hx
  exact_write h1 h2 h3 := by
    obtain ⟨st, hx, rfl⟩ := slow_write h3
    exact L.exact_write h1 h2 hx
  exact_rseek h1 h2 h3 h4 := by
    obtain ⟨st, hx, rfl⟩ := slow_rseek h4
    exact L.exact_rseek h1 h2 h3 hx
  exact_wseek h1 h2 h3 := by
    obtain ⟨st, hx, rfl⟩ := slow_wseek h3
    exact L.exact_wseek h1 h2 hx
  clean_fresh h1 h2 := L.clean_fresh h1 h2
  written_some h1 {s W q} h2 h3 := L.written_some h1 h2 h3
  tell_ok h1 := L.tell_ok h1
  read_ok h1 h2 h3 := by
    obtain ⟨st, hx, rfl⟩ := slow_read h3
    exact L.read_ok h1 h2 hx
  read_len h1 h2 h3 h4 h5 h6 := by
    obtain ⟨st, hx, rfl⟩ := slow_read h4
    exact L.read_len h1 h2 h3 hx h5 h6
  read_some h0 {s W n bs s'} h1 h2 h3 h4 h5 := by
    obtain ⟨st, hx, rfl⟩ := slow_read h3
    exact L.read_some h0 h1 h2 hx h4 h5
  rseek_ok h1 h2 := by
    obtain ⟨st, hx, rfl⟩ := slow_rseek h2
    exact L.rseek_ok h1 hx
  write_ok {s W bs k s'} h1 h2 := by
    obtain ⟨st, hx, rfl⟩ := slow_write h2
    obtain ⟨r1, r2, r3, r4, r5, r6, r7⟩ := L.write_ok h1 hx
    rw [List.length_take] at r1
    refine ⟨by omega, r2, r3, r4, r5, ?_, r7⟩
    intro i hi
    rw [r6 i hi, List.getElem?_take, if_pos (by omega)]
  write_full h0 {s W bs k s'} h1 h2 := by
    obtain ⟨st, hx, rfl⟩ := slow_write h2
    obtain ⟨r1, r2⟩ := L.write_full h0 h1 hx
    exact ⟨fun h => r1 (take_some_ne h), r2⟩
  write_window := by simp
  wseek_ok h1 h2 h3 := by
    obtain ⟨st, hx, rfl⟩ := slow_wseek h3
    exact L.wseek_ok h1 h2 hx

theorem slowTotal {L : Lawful S true} (T : Total L) : Total (slowLawful L) where
  rseek_total {s W p} h := by
    obtain ⟨st, h1⟩ := T.rseek_total (p := p) h
    exact ⟨{ s with st := st }, by show (S.rseek s.st p).bind _ = _; rw [h1]; rfl⟩
  read_total {s W n} h hW := by
    obtain ⟨r, h1⟩ := T.read_total (n := n) h hW
    exact ⟨(r.1, { s with st := r.2 }), by show (S.read s.st n).bind _ = _; rw [h1]; rfl⟩
  write_total {s W bs} h := by
    obtain ⟨r, h1⟩ := T.write_total (bs := bs.take (s.takes s.writes + 1)) h
    exact ⟨(r.1, { s with st := r.2, writes := s.writes + 1 }), by
      show (S.write s.st _).bind _ = _; rw [h1]; rfl⟩
  wseek_total {s W p} h := by
    obtain ⟨st, h1⟩ := T.wseek_total (p := p) h
    exact ⟨{ s with st := st }, by show (S.wseek s.st p).bind _ = _; rw [h1]; rfl⟩

def slowLawfulProvider (takes : Nat → Nat) {P : Provider} {cl : Option Nat} (LP : LawfulProvider P true cl) :
    LawfulProvider (slowProvider takes P) true cl where
  law := slowLawful LP.law
  create_ok h := by
    obtain ⟨st, h1, rfl⟩ := slow_create h
    exact LP.create_ok h1

/-! ### Short reads -/

/-- A storage that keeps everything keeps doing so if its reads return less. -/
def shortLawful (L : Lawful S true) : Lawful (short S) true where
  Inv s W := L.Inv s.st W
  cell s := L.cell s.st
  rpos s := L.rpos s.st
  Clean s := L.Clean s.st
  Fresh s := L.Fresh s.st
  Exact s := L.Exact s.st
  Cut _ k := 0 < k
  cut_pos h := h
  cut_full _ := rfl
  exact_full h s := L.exact_full h s.st
  exact_tell h1 h2 := L.exact_tell h1 h2
  exact_read h1 h2 h3 := by
    obtain ⟨st, hx, rfl⟩ := short_read h3
    exact L.exact_read h1 h2 hx
  exact_write h1 h2 h3 := by
    obtain ⟨st, hx, rfl⟩ := short_write h3
    exact L.exact_write h1 h2 hx
  exact_rseek h1 h2 h3 h4 := by
    obtain ⟨st, hx, rfl⟩ := short_rseek h4
    exact L.exact_rseek h1 h2 h3 hx
  exact_wseek h1 h2 h3 := by
    obtain ⟨st, hx, rfl⟩ := short_wseek h3
    exact L.exact_wseek h1 h2 hx
  clean_fresh h1 h2 := L.clean_fresh h1 h2
  written_some h1 {s W q} h2 h3 := L.written_some h1 h2 h3
  tell_ok h1 := L.tell_ok h1
  read_ok h1 h2 h3 := by
    obtain ⟨st, hx, rfl⟩ := short_read h3
    obtain ⟨r1, r2, r3, r4, r5, r6, r7⟩ := L.read_ok h1 h2 hx
    exact ⟨by omega, r2, r3, r4, r5, r6, r7⟩
  read_len {s W n bs s' m} h1 h2 h3 h4 h5 h6 := by
    obtain ⟨st, hx, rfl⟩ := short_read h4
    by_cases hm : m = 0
    · exact Or.inl (by omega)
    · right
      rcases L.read_len (m := 1) h1 h2 h3 hx (by omega) (fun i hi => h6 i (by omega)) with h7 | h7
      · exact h7
      · exact L.cut_pos h7
  read_some h0 {s W n bs s'} h1 h2 h3 h4 h5 := by
    obtain ⟨st, hx, rfl⟩ := short_read h3
    exact L.read_some h0 h1 h2 hx (by omega) h5
  rseek_ok h1 h2 := by
    obtain ⟨st, hx, rfl⟩ := short_rseek h2
    exact L.rseek_ok h1 hx
  write_ok h1 h2 := by
    obtain ⟨st, hx, rfl⟩ := short_write h2
    exact L.write_ok h1 hx
  write_full h0 {s W bs k s'} h1 h2 := by
    obtain ⟨st, hx, rfl⟩ := short_write h2
    exact L.write_full h0 h1 hx
  write_window := by simp
  wseek_ok h1 h2 h3 := by
    obtain ⟨st, hx, rfl⟩ := short_wseek h3
    exact L.wseek_ok h1 h2 hx

theorem shortTotal {L : Lawful S true} (T : Total L) : Total (shortLawful L) where
  rseek_total {s W p} h := by
    obtain ⟨st, h1⟩ := T.rseek_total (p := p) h
    exact ⟨{ s with st := st }, by show (S.rseek s.st p).bind _ = _; rw [h1]; rfl⟩
  read_total {s W n} h hW := by
    obtain ⟨r, h1⟩ := T.read_total (n := min n (s.gives s.reads + 1)) h hW
    exact ⟨(r.1, { s with st := r.2, reads := s.reads + 1 }), by
      show (S.read s.st _).bind _ = _; rw [h1]; rfl⟩
  write_total {s W bs} h := by
    obtain ⟨r, h1⟩ := T.write_total (bs := bs) h
    exact ⟨(r.1, { s with st := r.2 }), by show (S.write s.st _).bind _ = _; rw [h1]; rfl⟩
  wseek_total {s W p} h := by
    obtain ⟨st, h1⟩ := T.wseek_total (p := p) h
    exact ⟨{ s with st := st }, by show (S.wseek s.st p).bind _ = _; rw [h1]; rfl⟩

def shortLawfulProvider (gives : Nat → Nat) {P : Provider} {cl : Option Nat} (LP : LawfulProvider P true cl) :
    LawfulProvider (shortProvider gives P) true cl where
  law := shortLawful LP.law
  create_ok h := by
    obtain ⟨st, h1, rfl⟩ := short_create h
    exact LP.create_ok h1

end SD
