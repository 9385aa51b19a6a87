import Mathlib.Data.Finset.Card
import Mathlib.Order.Interval.Finset.Nat
import Verif.Model.Storage

/-!
# What a storage has to do

`Lawful S full` says that the storage `S` behaves like a map from stream
positions to bytes, as far as `StreamDownload` and `Source` can observe.  `full`
distinguishes storages that keep everything (memory, temp file) from storages
that keep a window (bounded).

* `cell s q` is the byte the storage currently holds for stream position `q`.
* `Inv s W` is the representation invariant; `W` is the set of positions that
  have been written so far.
* `Exact s`: the storage's own counters are right (always true for storages that
  keep everything).
* `Cut n k`: reads may be short in this way (a storage for which that never holds is
  `Eager`).
* `Clean s`: the reader has nothing buffered.  `Fresh s`: whatever the reader has
  buffered agrees with the storage.
-/

namespace SD

/-- The laws, as seen by the reader and the writer. -/
structure Lawful (S : Storage) (full : Bool) where
  Inv : S.σ → Finset Nat → Prop
  cell : S.σ → Nat → Option Byte
  rpos : S.σ → Nat
  Clean : S.σ → Prop
  Fresh : S.σ → Prop
  /-- the storage's own accounting of what is unread is right -/
  Exact : S.σ → Prop
  /-- `Cut n k`: a read of `n` bytes may return only `k` although there are more -/
  Cut : Nat → Nat → Prop
  /-- such a read still returns something -/
  cut_pos : ∀ {n k}, Cut n k → 0 < k
  /-- and only storages that keep everything do that -/
  cut_full : ∀ {n k}, Cut n k → full = true
  exact_full : full = true → ∀ s, Exact s
  exact_tell : ∀ {s W}, Inv s W → Exact s → Exact (S.tell s).2
  exact_read : ∀ {s W n bs s'}, Inv s W → Exact s → S.read s n = .ok (bs, s') → Exact s'
  exact_write : ∀ {s W bs k s'}, Inv s W → Exact s → S.write s bs = .ok (k, s') → Exact s'
  exact_rseek : ∀ {s W p s'}, Inv s W → Exact s → rpos s ≤ p → S.rseek s p = .ok s' → Exact s'
  exact_wseek : ∀ {s W s'}, Inv s W → Exact s → S.wseek s (S.wtell s) = .ok s' → Exact s'
  clean_fresh : ∀ {s W}, Inv s W → Clean s → Fresh s
  /-- a storage that keeps everything holds a byte at every written position -/
  written_some : full = true → ∀ {s W q}, Inv s W → q ∈ W → cell s q ≠ none
  /-- asking for the position changes nothing, and drops what is buffered -/
  tell_ok : ∀ {s W}, Inv s W →
    (S.tell s).1 = rpos s ∧ Inv (S.tell s).2 W ∧ Clean (S.tell s).2 ∧
    rpos (S.tell s).2 = rpos s ∧ S.wtell (S.tell s).2 = S.wtell s ∧
    ∀ q, cell (S.tell s).2 q = cell s q
  /-- a read returns what is stored at the reader's position, and advances it -/
  read_ok : ∀ {s W n bs s'}, Inv s W → Fresh s → S.read s n = .ok (bs, s') →
    bs.length ≤ n ∧ (∀ i, i < bs.length → cell s (rpos s + i) = bs[i]?) ∧
    Inv s' W ∧ Fresh s' ∧ rpos s' = rpos s + bs.length ∧ S.wtell s' = S.wtell s ∧
    ∀ q, cell s' q = cell s q
  /-- a storage whose accounting is right returns all written bytes it is asked for, unless
  its reads may be short -/
  read_len : ∀ {s W n bs s' m}, Inv s W → Exact s → Clean s → S.read s n = .ok (bs, s') →
    m ≤ n → (∀ i, i < m → rpos s + i ∈ W) → m ≤ bs.length ∨ Cut n bs.length
  /-- a storage that keeps everything returns something at a written position -/
  read_some : full = true → ∀ {s W n bs s'}, Inv s W → Fresh s → S.read s n = .ok (bs, s') →
    0 < n → rpos s ∈ W → bs ≠ []
  /-- seeking the reader moves only the reader -/
  rseek_ok : ∀ {s W p s'}, Inv s W → S.rseek s p = .ok s' →
    Inv s' W ∧ Clean s' ∧ rpos s' = p ∧ S.wtell s' = S.wtell s ∧ ∀ q, cell s' q = cell s q
  /-- a write stores a prefix of the bytes at the writer's position -/
  write_ok : ∀ {s W bs k s'}, Inv s W → S.write s bs = .ok (k, s') →
    k ≤ bs.length ∧ Inv s' (W ∪ Finset.Ico (S.wtell s) (S.wtell s + k)) ∧
    (Clean s → Clean s') ∧ rpos s' = rpos s ∧ S.wtell s' = S.wtell s + k ∧
    (∀ i, i < k → cell s' (S.wtell s + i) = bs[i]?) ∧
    (∀ q, cell s' q ≠ none → cell s q ≠ none ∨ q < S.wtell s + k)
  /-- a storage that keeps everything accepts something of every write and changes nothing
  else -/
  write_full : full = true → ∀ {s W bs k s'}, Inv s W → S.write s bs = .ok (k, s') →
    (bs ≠ [] → 0 < k) ∧
    ∀ q b, (q < S.wtell s ∨ S.wtell s + k ≤ q) → cell s q = some b → cell s' q = some b
  /-- a windowed storage holds nothing that was not written, and keeps everything
  from the reader's position on -/
  write_window : full = false → ∀ {s W bs k s'}, Inv s W → S.write s bs = .ok (k, s') →
    (∀ q b, cell s' q = some b → (∃ i, i < k ∧ q = S.wtell s + i ∧ bs[i]? = some b) ∨
      cell s q = some b) ∧
    (∀ q b, rpos s ≤ q → cell s q = some b → cell s' q = some b)
  /-- seeking the writer moves only the writer (for a windowed storage: seeking to
  where it already is) -/
  wseek_ok : ∀ {s W p s'}, Inv s W → (full = true ∨ p = S.wtell s) → S.wseek s p = .ok s' →
    Inv s' W ∧ (Clean s → Clean s') ∧ rpos s' = rpos s ∧ S.wtell s' = p ∧
    ∀ q, cell s' q = cell s q

/-- A storage that returns everything it is asked for and has. -/
def Eager {S : Storage} {full : Bool} (L : Lawful S full) : Prop := ∀ n k, ¬ L.Cut n k

/-- A storage whose reader can be moved anywhere. -/
structure SeekTotal {S : Storage} {full : Bool} (L : Lawful S full) : Prop where
  rseek_total : ∀ {s W p}, L.Inv s W → ∃ s', S.rseek s p = .ok s'

/-- A storage whose operations never fail (no disk errors): reads of written
positions, writes and seeks succeed. -/
structure Total {S : Storage} {full : Bool} (L : Lawful S full) : Prop extends SeekTotal L where
  read_total : ∀ {s W n}, L.Inv s W → L.rpos s ∈ W → ∃ r, S.read s n = .ok r
  write_total : ∀ {s W bs}, L.Inv s W → ∃ r, S.write s bs = .ok r
  wseek_total : ∀ {s W p}, L.Inv s W → ∃ s', S.wseek s p = .ok s'

/-- A provider that, for content length `cl`, creates a lawful storage with both
positions at 0; storage that is readable before anything is written lies below
the content length. -/
structure LawfulProvider (P : Provider) (full : Bool) (cl : Option Nat) where
  law : Lawful P.S full
  create_ok : ∀ {s}, P.create cl = .ok s →
    law.Inv s ∅ ∧ law.Exact s ∧ law.Clean s ∧ law.rpos s = 0 ∧ P.S.wtell s = 0 ∧
    (∀ q, law.cell s q ≠ none → full = true ∧ ∃ n, cl = some n ∧ q < n)

end SD
