import Verif.Model.Http

/-!
# What HTTP means by a range, and servers

RFC 9110, section 14.1.2 and 14.2.
-/

namespace SD

/-- At least one digit, nothing else. -/
def Numeral (ds : Text) : Prop := ds ≠ [] ∧ ∀ c ∈ ds, '0' ≤ c ∧ c ≤ '9'

/-- The value of a numeral, most significant digit first. -/
def Numeral.value : Text → Nat
  | [] => 0
  | c :: cs => (c.toNat - '0'.toNat) * 10 ^ cs.length + Numeral.value cs

/-- The `Range` header `v` asks for position `p`: `bytes=first-` or `bytes=first-last`,
where `last` is included. -/
def AsksFor (v : Text) (p : Nat) : Prop :=
  ∃ a b : Text, v = "bytes=".toList ++ a ++ "-".toList ++ b ∧ Numeral a ∧ Numeral.value a ≤ p ∧
    (b = [] ∨ Numeral b ∧ p ≤ Numeral.value b)

/-- The part of a resource at the positions of a set, in order. -/
def part (remote : List Byte) (s : Nat → Prop) [DecidablePred s] : List Byte :=
  ((List.range remote.length).filter (fun p => decide (s p))).map (fun p => remote.getD p 0)

/-- The bytes of a resource in `[start, stop)`, or from `start` on, as far as they exist. -/
def bytesIn (remote : List Byte) (start : Nat) : Option Nat → List Byte
  | none => remote.drop start
  | some e => (remote.take e).drop start

/-- The answers belong to a server that offers `remote` and honours ranges: a response
without a range is the resource, with its length if it gives one, and a response to a
range that is not empty is what the range asks for. -/
structure Honours (remote : List Byte) (answer : Answer) : Prop where
  get : ∀ r, answer .get = some r → r.isError = false → r.body = remote
  length : ∀ r, answer .get = some r → r.isError = false → ∀ n, r.contentLength = some n → n = remote.length
  range : ∀ v r, answer (.range v) = some r → r.isError = false →
    ∀ (s : Nat → Prop) [DecidablePred s], (∀ p, s p ↔ AsksFor v p) → (∃ p, s p) → r.body = part remote s

/-- The answers belong to a server that offers `remote` and ignores the `Range` header,
which RFC 9110 allows. -/
def IgnoresRange (remote : List Byte) (answer : Answer) : Prop :=
  ∀ q r, answer q = some r → r.isError = false → r.body = remote

/-- The header with which servers offer ranges (RFC 9110, 14.3); names in lower case. -/
def HeaderName.ranges : Text := "accept-ranges".toList
/-- The header with the length of the content (RFC 9110, 8.6). -/
def HeaderName.length : Text := "content-length".toList
/-- The header with the type of the content (RFC 9110, 8.3). -/
def HeaderName.type : Text := "content-type".toList

/-- The server offers ranges in every response. -/
def OffersRanges (answer : Answer) : Prop :=
  ∀ r, answer .get = some r → ∃ v, r.header HeaderName.ranges = some v ∧ v ≠ "none".toList

/-- The life of an HTTP stream: created, then polled, sought to ranges that are not empty
and reconnected in any order; the server may fail at any time, and every answer is
constrained by `A`.  `pos` is where
the next byte belongs: the number of bytes polled since the last position that was asked
for. -/
inductive HttpLife (mime : Text → Option (Text × Text)) (A : Answer → Prop) : HttpStream → Nat → Prop
  | new {answer h} : A answer → httpNew mime answer = .ok h → HttpLife mime A h 0
  | poll {h pos} (n : Nat) : HttpLife mime A h pos → HttpLife mime A (h.poll n).2 (pos + (h.poll n).1.length)
  | seek {h pos answer start stop} : HttpLife mime A h pos → A answer → (∀ e, stop = some e → start < e) →
      (h.seekRange answer start stop).res = .ok () → HttpLife mime A (h.seekRange answer start stop).stream start
  | seekErr {h pos answer start stop} : HttpLife mime A h pos → A answer →
      (h.seekRange answer start stop).res ≠ .ok () → HttpLife mime A (h.seekRange answer start stop).stream pos
  | reconnect {h pos answer p} : HttpLife mime A h pos → A answer →
      (h.reconnect answer p).res = .ok () → HttpLife mime A (h.reconnect answer p).stream p
  | reconnectErr {h pos answer p} : HttpLife mime A h pos → A answer →
      (h.reconnect answer p).res ≠ .ok () → HttpLife mime A (h.reconnect answer p).stream pos

end SD
