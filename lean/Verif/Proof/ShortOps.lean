import Verif.Model.Short

/-! # What the operations of storage with short reads and writes do -/

namespace SD

variable {S : Storage}

theorem bind_ok {α β : Type} {r : Res α} {f : α → Res β} {y : β} (h : r.bind f = .ok y) :
    ∃ x, r = .ok x ∧ f x = .ok y := by
  cases r with
  | ok x => exact ⟨x, rfl, h⟩
  | err k => cases h
  | panic => cases h

theorem slow_read {s s' : Slw S} {n : Nat} {bs : List Byte} (h : (slow S).read s n = .ok (bs, s')) :
    ∃ st, S.read s.st n = .ok (bs, st) ∧ s' = { s with st := st } := by
  obtain ⟨⟨b, st⟩, h1, h2⟩ := bind_ok h
  cases h2
  exact ⟨st, h1, rfl⟩

theorem slow_rseek {s s' : Slw S} {p : Nat} (h : (slow S).rseek s p = .ok s') :
    ∃ st, S.rseek s.st p = .ok st ∧ s' = { s with st := st } := by
  obtain ⟨st, h1, h2⟩ := bind_ok h
  cases h2
  exact ⟨st, h1, rfl⟩

theorem slow_write {s s' : Slw S} {bs : List Byte} {k : Nat} (h : (slow S).write s bs = .ok (k, s')) :
    ∃ st, S.write s.st (bs.take (s.takes s.writes + 1)) = .ok (k, st) ∧
      s' = { s with st := st, writes := s.writes + 1 } := by
  obtain ⟨⟨b, st⟩, h1, h2⟩ := bind_ok h
  cases h2
  exact ⟨st, h1, rfl⟩

theorem slow_wseek {s s' : Slw S} {p : Nat} (h : (slow S).wseek s p = .ok s') :
    ∃ st, S.wseek s.st p = .ok st ∧ s' = { s with st := st } := by
  obtain ⟨st, h1, h2⟩ := bind_ok h
  cases h2
  exact ⟨st, h1, rfl⟩

theorem slow_create {P : Provider} {cl : Option Nat} {takes : Nat → Nat} {s : Slw P.S}
    (h : (slowProvider takes P).create cl = .ok s) :
    ∃ st, P.create cl = .ok st ∧ s = { st := st, takes := takes, writes := 0 } := by
  obtain ⟨st, h1, h2⟩ := bind_ok h
  cases h2
  exact ⟨st, h1, rfl⟩

theorem short_read {s s' : Shr S} {n : Nat} {bs : List Byte} (h : (short S).read s n = .ok (bs, s')) :
    ∃ st, S.read s.st (min n (s.gives s.reads + 1)) = .ok (bs, st) ∧
      s' = { s with st := st, reads := s.reads + 1 } := by
  obtain ⟨⟨b, st⟩, h1, h2⟩ := bind_ok h
  cases h2
  exact ⟨st, h1, rfl⟩

theorem short_rseek {s s' : Shr S} {p : Nat} (h : (short S).rseek s p = .ok s') :
    ∃ st, S.rseek s.st p = .ok st ∧ s' = { s with st := st } := by
  obtain ⟨st, h1, h2⟩ := bind_ok h
  cases h2
  exact ⟨st, h1, rfl⟩

theorem short_write {s s' : Shr S} {bs : List Byte} {k : Nat} (h : (short S).write s bs = .ok (k, s')) :
    ∃ st, S.write s.st bs = .ok (k, st) ∧ s' = { s with st := st } := by
  obtain ⟨⟨b, st⟩, h1, h2⟩ := bind_ok h
  cases h2
  exact ⟨st, h1, rfl⟩

theorem short_wseek {s s' : Shr S} {p : Nat} (h : (short S).wseek s p = .ok s') :
    ∃ st, S.wseek s.st p = .ok st ∧ s' = { s with st := st } := by
  obtain ⟨st, h1, h2⟩ := bind_ok h
  cases h2
  exact ⟨st, h1, rfl⟩

theorem short_create {P : Provider} {cl : Option Nat} {gives : Nat → Nat} {s : Shr P.S}
    (h : (shortProvider gives P).create cl = .ok s) :
    ∃ st, P.create cl = .ok st ∧ s = { st := st, gives := gives, reads := 0 } := by
  obtain ⟨st, h1, h2⟩ := bind_ok h
  cases h2
  exact ⟨st, h1, rfl⟩

end SD
