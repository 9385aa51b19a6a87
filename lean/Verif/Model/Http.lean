import Verif.Model.Basic

/-!
# Model of the HTTP source (`http/mod.rs`, `http/reqwest_client.rs`)

Requests and responses are modelled as data; the client (`reqwest`) is whatever answers
a request.  A body is the list of bytes that its stream delivers if it is not interrupted;
how the stream cuts it into chunks, and its errors, are the business of the transport in
`Model/System.lean`.  Strings are lists of characters.
-/

namespace SD

/-- A string (`String`, `&str`). -/
abbrev Text := List Char

/-- A decimal digit. -/
def digit (d : Nat) : Char := Char.ofNat (48 + d)

/-- `u64::to_string`. -/
def decimal (n : Nat) : Text :=
  if n < 10 then [digit n] else decimal (n / 10) ++ [digit (n % 10)]

/-- The characters `0` to `9`. -/
def isDigit (c : Char) : Bool := decide (48 ≤ c.toNat ∧ c.toNat ≤ 57)

/-- The number that a list of digits denotes. -/
def digitsValue (ds : Text) : Nat := ds.foldl (fun a c => 10 * a + (c.toNat - 48)) 0

/-- `u64::from_str` (of the standard library): an optional `+`, at least one digit, no
overflow. -/
def parseU64 (v : Text) : Option Nat :=
  let ds := match v with
    | '+' :: ds => ds
    | _ => v
  if ds ≠ [] ∧ ds.all isDigit = true ∧ digitsValue ds < two64 then some (digitsValue ds) else none

/-- http/mod.rs 369-374, `format_range_header_bytes`; `end` is inclusive. -/
def formatRange (start : Nat) (last : Option Nat) : Text :=
  ['b', 'y', 't', 'e', 's', '='] ++ decimal start ++ '-' :: (last.map decimal).getD []

/-- A request: http/reqwest_client.rs 110-112 (`get`) and 114-124 (`get_range`: the same
with a `Range` header).  The url is always that of the stream. -/
inductive HttpReq where
  | get
  | range (value : Text)
  deriving DecidableEq, Repr

/-- A response.  `header` is the look-up in the header map, http/reqwest_client.rs 20-26:
`none` if the header is missing or is no string; names are in lower case here (look-ups
ignore the case). -/
structure HttpResp where
  status : Nat
  header : Text → Option Text
  body : List Byte

/-- What the client returns; `none` if the request could not be sent. -/
abbrev Answer := HttpReq → Option HttpResp

/-- `Accept-Ranges`. -/
def acceptRanges : Text := "accept-ranges".toList
/-- `Content-Length`. -/
def contentLengthHeader : Text := "content-length".toList
/-- `Content-Type`. -/
def contentTypeHeader : Text := "content-type".toList

/-- http/reqwest_client.rs 79-88, `into_result`: `error_for_status_ref` is an error for the
status classes 4 and 5. -/
def HttpResp.isError (r : HttpResp) : Bool := decide (400 ≤ r.status ∧ r.status < 600)

/-- http/reqwest_client.rs 63-69, `content_length`. -/
def HttpResp.contentLength (r : HttpResp) : Option Nat := (r.header contentLengthHeader).bind parseU64

/-- http/mod.rs 173-188, `HttpStream`. -/
structure HttpStream where
  /-- what the current body stream still delivers -/
  stream : List Byte
  contentLength : Option Nat
  contentType : Option (Text × Text)
  /-- the headers of the first response -/
  header : Text → Option Text

/-- http/mod.rs 150-159, `HttpStreamError`. -/
inductive HttpErr where
  | fetch
  | response
  deriving DecidableEq, Repr

/-- http/mod.rs 193-253, `HttpStream::new`.  `mime` stands for the parser of the crate
`mediatype`. -/
def httpNew (mime : Text → Option (Text × Text)) (answer : Answer) : Except HttpErr HttpStream :=
  match answer .get with
  | none => .error .fetch
  | some r =>
    if r.isError then .error .response
    else .ok {
      stream := r.body
      contentLength := r.contentLength
      contentType := (r.header contentTypeHeader).bind mime
      header := r.header }

/-- http/mod.rs 271-276, `supports_range_request`. -/
def HttpStream.supportsRange (h : HttpStream) : Bool :=
  match h.header acceptRanges with
  | some v => decide (v ≠ "none".toList)
  | none => false

/-- The outcome of an operation of the stream: its result, the stream afterwards, and the
requests that were sent. -/
structure HttpOut where
  res : Res Unit
  stream : HttpStream
  reqs : List HttpReq

/-- http/mod.rs 300-341, `seek_range`.  `e - 1` underflows for `end = 0`; the model treats
this as a panic (release builds ask for `start-18446744073709551615`). -/
def HttpStream.seekRange (h : HttpStream) (answer : Answer) (start : Nat) (stop : Option Nat) : HttpOut :=
  if some start = h.contentLength then { res := .ok (), stream := { h with stream := [] }, reqs := [] }
  else if stop = some 0 then { res := .panic, stream := h, reqs := [] }
  else
    let req := .range (formatRange start (stop.map (· - 1)))
    match answer req with
    | none => { res := .err .other, stream := h, reqs := [req] }
    | some r =>
      if r.isError then { res := .err .other, stream := h, reqs := [req] }
      else { res := .ok (), stream := { h with stream := r.body }, reqs := [req] }

/-- http/mod.rs 343-356, `reconnect`. -/
def HttpStream.reconnect (h : HttpStream) (answer : Answer) (pos : Nat) : HttpOut :=
  if h.supportsRange then h.seekRange answer pos none
  else
    match answer .get with
    | none => { res := .err .other, stream := h, reqs := [.get] }
    | some r => { res := .ok (), stream := { h with stream := r.body }, reqs := [.get] }

/-- http/mod.rs 282-284, `poll_next`, for a body stream that delivers `n` bytes. -/
def HttpStream.poll (h : HttpStream) (n : Nat) : List Byte × HttpStream :=
  (h.stream.take n, { h with stream := h.stream.drop n })

end SD
