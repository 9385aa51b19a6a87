import Verif.Proof.Http

/-!
# Properties C42, C43, C44, C45, C59: the HTTP source
-/

set_option linter.unusedVariables false

namespace SD

/-! ### C42 -/

/-- C42: a request for `[start, stop)` carries a header that asks for exactly these
positions. -/
theorem C42_range_header {h : HttpStream} {answer : Answer} {start stop : Nat}
    (hne : start < stop) (hl : h.contentLength ≠ some start) :
    ∃ v, (h.seekRange answer start (some stop)).reqs = [.range v] ∧
      ∀ p, AsksFor v p ↔ start ≤ p ∧ p < stop := by
  refine ⟨formatRange start (some (stop - 1)), ?_, fun p => ?_⟩
  · unfold HttpStream.seekRange
    rw [if_neg (fun h => hl h.symm), if_neg (by simp; omega)]
    simp only [Option.map_some]
    split
    · rfl
    · split <;> rfl
  · rw [asksFor_closed]; omega

/-- C42: a request for everything from `start` on. -/
theorem C42_open_range_header {h : HttpStream} {answer : Answer} {start : Nat}
    (hl : h.contentLength ≠ some start) :
    ∃ v, (h.seekRange answer start none).reqs = [.range v] ∧ ∀ p, AsksFor v p ↔ start ≤ p := by
  refine ⟨formatRange start none, ?_, fun p => asksFor_open⟩
  unfold HttpStream.seekRange
  rw [if_neg (fun h => hl h.symm), if_neg (by simp)]
  simp only [Option.map_none]
  split
  · rfl
  · split <;> rfl

/-- C42: different ranges give different headers. -/
theorem C42_headers_differ {a b : Nat} {x y : Option Nat} (h : formatRange a x = formatRange b y) :
    a = b ∧ x = y := formatRange_inj h

example : formatRange 200 (some 400) = "bytes=200-400".toList := by decide +kernel
example : formatRange 18446744073709551615 none = "bytes=18446744073709551615-".toList := by decide +kernel
example : AsksFor "bytes=007-9".toList 8 :=
  ⟨"007".toList, "9".toList, rfl, ⟨by decide, by decide⟩, by decide, .inr ⟨⟨by decide, by decide⟩, by decide⟩⟩

/-! ### C43 -/

/-- C43: seeking to the end needs no request and gives the empty stream. -/
theorem C43_seek_to_end {h : HttpStream} {answer : Answer} {start : Nat} {stop : Option Nat}
    (hl : h.contentLength = some start) :
    (h.seekRange answer start stop).reqs = [] ∧ (h.seekRange answer start stop).res = .ok () ∧
      (h.seekRange answer start stop).stream.stream = [] := by
  unfold HttpStream.seekRange
  rw [if_pos hl.symm]
  exact ⟨rfl, rfl, rfl⟩

/-- C43: any other seek sends exactly one range request, for the requested bytes if the
range is not empty and for everything from `start` on if it has no end, fails exactly if the request
cannot be sent or is answered with an error status, and otherwise goes on with the
response; a failed seek leaves the stream as it was. -/
theorem C43_other_seeks {h : HttpStream} {answer : Answer} {start : Nat} {stop : Option Nat}
    (hl : h.contentLength ≠ some start) (h0 : stop ≠ some 0) :
    ∃ v, (h.seekRange answer start stop).reqs = [.range v] ∧
      ((∀ e, stop = some e → start < e) → ∀ p, AsksFor v p ↔ start ≤ p ∧ ∀ e, stop = some e → p < e) ∧
      ((h.seekRange answer start stop).res = .ok () ↔ ∃ r, answer (.range v) = some r ∧ ¬ (400 ≤ r.status ∧ r.status < 600)) ∧
      (∀ r, answer (.range v) = some r → (h.seekRange answer start stop).res = .ok () →
        (h.seekRange answer start stop).stream.stream = r.body) ∧
      ((h.seekRange answer start stop).res ≠ .ok () → (h.seekRange answer start stop).stream = h) ∧
      (h.seekRange answer start stop).res ≠ .panic := by
  refine ⟨formatRange start (stop.map (· - 1)), ?_⟩
  have hask : (∀ e, stop = some e → start < e) →
      ∀ p, AsksFor (formatRange start (stop.map (· - 1))) p ↔ start ≤ p ∧ ∀ e, stop = some e → p < e := by
    intro hne p
    cases stop with
    | none => simp [asksFor_open]
    | some e =>
      have := hne e rfl
      simp only [Option.map_some, asksFor_closed, Option.some.injEq, forall_eq']
      omega
  rw [show ∀ (A B C D E F : Prop), (A ∧ B ∧ C ∧ D ∧ E ∧ F) = (B ∧ A ∧ C ∧ D ∧ E ∧ F) from
    fun A B C D E F => propext ⟨fun ⟨a, b, r⟩ => ⟨b, a, r⟩, fun ⟨b, a, r⟩ => ⟨a, b, r⟩⟩]
  refine ⟨hask, ?_⟩
  clear hask
  unfold HttpStream.seekRange
  rw [if_neg (fun h => hl h.symm), if_neg h0]
  cases hr : answer (.range (formatRange start (stop.map (· - 1)))) with
  | none => simp [hr]
  | some r =>
    simp only [hr]
    by_cases he : r.isError = true
    · have : 400 ≤ r.status ∧ r.status < 600 := by simpa [HttpResp.isError] using he
      simp [he]; omega
    · have h2 : ¬ (400 ≤ r.status ∧ r.status < 600) := by simpa [HttpResp.isError] using he
      simp only [if_neg he]
      refine ⟨trivial, ⟨fun _ => ⟨r, rfl, h2⟩, fun _ => trivial⟩, ?_, fun h => absurd rfl h, by simp⟩
      rintro r' h3 -
      simp at h3; rw [h3]

/-! ### Servers for the examples -/

/-- Five bytes. -/
def demoBytes : List Byte := [10, 20, 30, 40, 50]

/-- No headers. -/
def noHeaders : Text → Option Text := fun _ => none

/-- A server that knows no ranges: it does not offer them, and answers every request with
the whole resource, as RFC 9110 14.2 allows. -/
def plainServer : Answer := fun _ => some { status := 200, header := noHeaders, body := demoBytes }

/-- The stream of the plain server. -/
def plainStream : HttpStream :=
  { stream := demoBytes, contentLength := none, contentType := none, header := noHeaders }

theorem plainServer_ignores : IgnoresRange demoBytes plainServer := by
  intro q r h _
  simp [plainServer] at h
  subst h; rfl

/-- A server that honours ranges, for `bytes=2-` and `bytes=1-2`. -/
def rangeServer : Answer
  | .get => some {
      status := 200
      header := fun n => if n = acceptRanges then some "bytes".toList
        else if n = contentLengthHeader then some "5".toList else none
      body := demoBytes }
  | .range v =>
    if v = "bytes=2-".toList then some { status := 206, header := noHeaders, body := [30, 40, 50] }
    else if v = "bytes=1-2".toList then some { status := 206, header := noHeaders, body := [20, 30] }
    else some { status := 416, header := noHeaders, body := [] }

theorem rangeServer_honours : Honours demoBytes rangeServer := by
  refine ⟨?_, ?_, ?_⟩
  · intro r h _; simp [rangeServer] at h; subst h; rfl
  · intro r h _ n hn
    simp [rangeServer] at h; subst h
    have : some n = some 5 := by rw [← hn]; decide +kernel
    simpa [demoBytes] using this
  · intro v r h he s hs hv hne
    simp only [rangeServer] at h
    split at h
    · rename_i e
      simp at h; subst h
      have e2 : v = formatRange 2 none := by rw [e]; decide +kernel
      have : part demoBytes s = part demoBytes (fun p => 2 ≤ p) := by
        unfold part
        congr 1
        apply List.filter_congr
        intro p _
        have h1 := hv p
        rw [e2, asksFor_open] at h1
        simpa using h1
      rw [this, part_drop]; rfl
    · split at h
      · rename_i e
        simp at h; subst h
        have e2 : v = formatRange 1 (some 2) := by rw [e]; decide +kernel
        have : part demoBytes s = part demoBytes (fun p => 1 ≤ p ∧ p < 3) := by
          unfold part
          congr 1
          apply List.filter_congr
          intro p _
          have h1 := hv p
          rw [e2, asksFor_closed] at h1
          have h2 : s p ↔ 1 ≤ p ∧ p < 3 := by rw [h1]; omega
          exact decide_eq_decide.mpr h2
        rw [this, part_interval]; rfl
      · simp at h; subst h
        simp [HttpResp.isError] at he

/-- The headers and the stream of the range server. -/
def rangeStream : HttpStream :=
  { stream := demoBytes, contentLength := some 5, contentType := none
    header := fun n => if n = acceptRanges then some "bytes".toList
        else if n = contentLengthHeader then some "5".toList else none }

theorem rangeServer_new : httpNew (fun _ => none) rangeServer = .ok rangeStream := by
  have h1 : HttpResp.contentLength { status := 200, header := rangeStream.header, body := demoBytes } = some 5 := by
    decide +kernel
  have h2 : ∀ x : Option Text, (x.bind fun _ => (none : Option (Text × Text))) = none := by
    intro x; cases x <;> rfl
  have h3 : httpNew (fun _ => none) rangeServer = .ok {
      stream := demoBytes
      contentLength := HttpResp.contentLength { status := 200, header := rangeStream.header, body := demoBytes }
      contentType := (rangeStream.header contentTypeHeader).bind fun _ => (none : Option (Text × Text))
      header := rangeStream.header } := rfl
  rw [h3, h1, h2]
  rfl

/-! ### C44 and C59 -/

/-- C44 fails for servers that do not offer ranges: after two of five bytes, a reconnect at
position 2 starts over at the first byte. -/
theorem C44_reconnect_resumes_violated :
    ∃ h : HttpStream, HttpLife (fun _ => none) (IgnoresRange demoBytes) h 2 ∧
      h.stream = demoBytes.drop 2 ∧ (h.reconnect plainServer 2).res = .ok () ∧
      (h.reconnect plainServer 2).stream.stream = demoBytes ∧
      (h.reconnect plainServer 2).stream.stream ≠ demoBytes.drop 2 := by
  refine ⟨(plainStream.poll 2).2, ?_, rfl, rfl, rfl, by decide⟩
  exact HttpLife.poll (h := plainStream) (pos := 0) 2 (HttpLife.new (answer := plainServer) plainServer_ignores rfl)

/-- C44 fails for such servers in a second way: the status of the response is not looked
at, so that the body of an error page is delivered as data. -/
theorem C44_reconnect_error_page_violated :
    ∃ (answer : Answer) (r : HttpResp), answer .get = some r ∧ r.status = 503 ∧ r.body = [255] ∧
      (plainStream.reconnect answer 2).res = .ok () ∧ (plainStream.reconnect answer 2).stream.stream = [255] :=
  ⟨fun _ => some { status := 503, header := noHeaders, body := [255] }, _, rfl, rfl, rfl, rfl, rfl⟩

/-- C59 fails for servers that ignore the `Range` header: a seek to byte 2 succeeds and
delivers the resource from the start. -/
theorem C59_seek_delivers_violated :
    ∃ h : HttpStream, HttpLife (fun _ => none) (IgnoresRange demoBytes) h 0 ∧
      (h.seekRange plainServer 2 none).res = .ok () ∧
      (h.seekRange plainServer 2 none).stream.stream = demoBytes ∧
      (h.seekRange plainServer 2 none).stream.stream ≠ demoBytes.drop 2 :=
  ⟨plainStream, .new (answer := plainServer) plainServer_ignores rfl, rfl, rfl, by decide⟩

/-- What a stream holds during its life. -/
structure HttpInv (remote : List Byte) (h : HttpStream) (pos : Nat) : Prop where
  prefix_ : h.stream <+: remote.drop pos
  length : ∀ n, h.contentLength = some n → n = remote.length

theorem seekRange_keeps (h : HttpStream) (answer : Answer) (start : Nat) (stop : Option Nat) :
    (h.seekRange answer start stop).stream.contentLength = h.contentLength ∧
      (h.seekRange answer start stop).stream.header = h.header := by
  unfold HttpStream.seekRange
  split
  · exact ⟨rfl, rfl⟩
  · split
    · exact ⟨rfl, rfl⟩
    · dsimp only
      split
      · exact ⟨rfl, rfl⟩
      · split <;> exact ⟨rfl, rfl⟩

theorem seekRange_err {h : HttpStream} {answer : Answer} {start : Nat} {stop : Option Nat}
    (he : (h.seekRange answer start stop).res ≠ .ok ()) : (h.seekRange answer start stop).stream = h := by
  unfold HttpStream.seekRange at *
  split at he
  · exact absurd rfl he
  · rename_i h1
    rw [if_neg h1]
    split at he
    · rename_i h2; rw [if_pos h2]
    · rename_i h2
      rw [if_neg h2]
      dsimp only at *
      split at he
      · rfl
      · split at he
        · rename_i h4; rw [if_pos h4]
        · exact absurd rfl he

theorem seekRange_body {remote : List Byte} {h : HttpStream} {answer : Answer} (hh : Honours remote answer)
    (hlen : ∀ n, h.contentLength = some n → n = remote.length) {start : Nat} {stop : Option Nat}
    (hne : ∀ e, stop = some e → start < e) (hok : (h.seekRange answer start stop).res = .ok ()) :
    (h.seekRange answer start stop).stream.stream = bytesIn remote start stop := by
  by_cases hl : h.contentLength = some start
  · have hs := hlen _ hl
    rw [(C43_seek_to_end hl).2.2]
    cases stop with
    | none => simp [bytesIn, hs]
    | some e =>
      simp only [bytesIn]
      rw [List.drop_eq_nil_of_le]
      rw [List.length_take]; omega
  · cases stop with
    | none =>
      obtain ⟨v, h1, h2⟩ := C42_open_range_header (h := h) (answer := answer) hl
      obtain ⟨v', h3, -, h4, h5, -⟩ := C43_other_seeks (h := h) (answer := answer) (stop := none) hl (by simp)
      have e : v' = v := by rw [h1] at h3; simpa using h3.symm
      subst e
      obtain ⟨r, hr, hst⟩ := h4.mp hok
      simp only [bytesIn]
      rw [h5 r hr hok, ← part_drop]
      exact hh.range v' r hr (by simpa [HttpResp.isError] using hst) _ (fun p => (h2 p).symm) ⟨start, Nat.le_refl _⟩
    | some e =>
      have hlt := hne e rfl
      obtain ⟨v, h1, h2⟩ := C42_range_header (h := h) (answer := answer) hlt hl
      obtain ⟨v', h3, -, h4, h5, -⟩ := C43_other_seeks (h := h) (answer := answer) (stop := some e) hl (by simp; omega)
      have ev : v' = v := by rw [h1] at h3; simpa using h3.symm
      subst ev
      obtain ⟨r, hr, hst⟩ := h4.mp hok
      simp only [bytesIn]
      rw [h5 r hr hok, ← part_interval]
      exact hh.range v' r hr (by simpa [HttpResp.isError] using hst) _ (fun p => (h2 p).symm)
        ⟨start, Nat.le_refl _, hlt⟩

theorem reconnect_body {remote : List Byte} {h : HttpStream} {answer : Answer} (hh : Honours remote answer)
    (hlen : ∀ n, h.contentLength = some n → n = remote.length) (hs : h.supportsRange = true) {pos : Nat}
    (hok : (h.reconnect answer pos).res = .ok ()) :
    (h.reconnect answer pos).stream.stream = remote.drop pos := by
  unfold HttpStream.reconnect at *
  rw [if_pos hs] at *
  exact seekRange_body hh hlen (by simp) hok

theorem httpInv_life {remote : List Byte} {mime : Text → Option (Text × Text)} {h : HttpStream} {pos : Nat}
    (hlife : HttpLife mime (fun a => Honours remote a ∧ OffersRanges a) h pos) :
    HttpInv remote h pos ∧ h.supportsRange = true := by
  induction hlife with
  | @new answer h hA hn =>
    unfold httpNew at hn
    split at hn
    · simp at hn
    · rename_i r hr
      split at hn
      · simp at hn
      · rename_i he
        have he : r.isError = false := by simpa using he
        simp at hn; subst hn
        refine ⟨⟨by simp [hA.1.get r hr he], hA.1.length r hr he⟩, ?_⟩
        obtain ⟨v, h1, h2⟩ := hA.2 r hr
        rw [show HeaderName.ranges = acceptRanges from rfl] at h1
        simp only [HttpStream.supportsRange, h1]
        exact decide_eq_true h2
  | @poll h pos n _ ih =>
    obtain ⟨⟨⟨t, ht⟩, h2⟩, h3⟩ := ih
    refine ⟨⟨⟨t, ?_⟩, h2⟩, h3⟩
    simp only [HttpStream.poll]
    rw [← List.drop_drop, ← ht, List.length_take, List.drop_append]
    by_cases hn : n ≤ h.stream.length
    · rw [Nat.min_eq_left hn, Nat.sub_eq_zero_of_le hn]; rfl
    · rw [Nat.min_eq_right (by omega), List.drop_eq_nil_of_le (by omega), List.drop_length]
      simp
  | @seek h pos answer start stop _ hA hne hok ih =>
    obtain ⟨⟨h1, h2⟩, h3⟩ := ih
    obtain ⟨k1, k2⟩ := seekRange_keeps h answer start stop
    refine ⟨⟨?_, by rw [k1]; exact h2⟩, by simpa [HttpStream.supportsRange, k2] using h3⟩
    rw [seekRange_body hA.1 h2 hne hok]
    cases stop with
    | none => exact List.prefix_rfl
    | some e =>
      simp only [bytesIn]
      rw [List.drop_take]
      exact List.take_prefix _ _
  | @seekErr h pos answer start stop _ hA hok ih =>
    rw [seekRange_err hok]; exact ih
  | @reconnect h pos answer p _ hA hok ih =>
    obtain ⟨⟨h1, h2⟩, h3⟩ := ih
    have e : h.reconnect answer p = h.seekRange answer p none := by unfold HttpStream.reconnect; rw [if_pos h3]
    obtain ⟨k1, k2⟩ := seekRange_keeps h answer p none
    refine ⟨⟨?_, by rw [e, k1]; exact h2⟩, by rw [e]; simpa [HttpStream.supportsRange, k2] using h3⟩
    rw [reconnect_body hA.1 h2 h3 hok]
    exact List.prefix_rfl
  | @reconnectErr h pos answer p _ hA hok ih =>
    obtain ⟨⟨h1, h2⟩, h3⟩ := ih
    have e : h.reconnect answer p = h.seekRange answer p none := by unfold HttpStream.reconnect; rw [if_pos h3]
    rw [e] at hok ⊢
    rw [seekRange_err hok]; exact ⟨⟨h1, h2⟩, h3⟩

/-- C44 for servers that offer ranges and honour them: whatever happened to the stream
before, after a successful reconnect at `p` it delivers the resource from `p` on. -/
theorem C44_reconnect_resumes_partial {remote : List Byte} {mime : Text → Option (Text × Text)}
    {h : HttpStream} {pos p : Nat} {answer : Answer}
    (hlife : HttpLife mime (fun a => Honours remote a ∧ OffersRanges a) h pos)
    (hA : Honours remote answer) (hok : (h.reconnect answer p).res = .ok ()) :
    (h.reconnect answer p).stream.stream = remote.drop p :=
  reconnect_body hA (httpInv_life hlife).1.length (httpInv_life hlife).2 hok

/-- C59 for servers that offer ranges and honour them: whatever happened to the stream
before, after a successful seek to a range that is not empty it delivers exactly the bytes
of this range that exist. -/
theorem C59_seek_delivers_partial {remote : List Byte} {mime : Text → Option (Text × Text)}
    {h : HttpStream} {pos start : Nat} {stop : Option Nat} {answer : Answer}
    (hlife : HttpLife mime (fun a => Honours remote a ∧ OffersRanges a) h pos)
    (hA : Honours remote answer) (hne : ∀ e, stop = some e → start < e)
    (hok : (h.seekRange answer start stop).res = .ok ()) :
    (h.seekRange answer start stop).stream.stream = bytesIn remote start stop :=
  seekRange_body hA (httpInv_life hlife).1.length hne hok

/-- C59 for such servers: in every life of a stream, every chunk it delivers consists of
the bytes of the resource at the position that was asked for last plus what was delivered
since. -/
theorem C59_chunks_in_place_partial {remote : List Byte} {mime : Text → Option (Text × Text)}
    {h : HttpStream} {pos : Nat} (hlife : HttpLife mime (fun a => Honours remote a ∧ OffersRanges a) h pos)
    (n : Nat) : (h.poll n).1 <+: remote.drop pos :=
  (List.take_prefix n h.stream).trans (httpInv_life hlife).1.prefix_

/-- A life with a seek and a reconnect. -/
example : ∃ h : HttpStream,
    HttpLife (fun _ => none) (fun a => Honours demoBytes a ∧ OffersRanges a) h 2 ∧ h.stream = [30, 40, 50] := by
  have hA : Honours demoBytes rangeServer ∧ OffersRanges rangeServer := by
    refine ⟨rangeServer_honours, ?_⟩
    intro r h; simp [rangeServer] at h; subst h
    exact ⟨"bytes".toList, by decide +kernel, by decide +kernel⟩
  have h0 := HttpLife.new (mime := fun _ => none) (A := fun a => Honours demoBytes a ∧ OffersRanges a)
    hA rangeServer_new
  have e1 : (rangeStream.seekRange rangeServer 1 (some 3)).res = .ok () := by decide +kernel
  have h1 := h0.seek hA (by simp) e1
  have h2 := h1.poll 1
  have e2 : ((((rangeStream.seekRange rangeServer 1 (some 3)).stream.poll 1).2).reconnect rangeServer 2).res =
    .ok () := by decide +kernel
  have h3 := h2.reconnect hA e2
  refine ⟨_, h3, ?_⟩
  decide +kernel

/-! ### C45 -/

/-- A value that a length may have. -/
def LengthValue (v : Text) (n : Nat) : Prop :=
  n < 2 ^ 64 ∧ ∃ ds, (v = ds ∨ v = '+' :: ds) ∧ Numeral ds ∧ Numeral.value ds = n

theorem parseU64_iff {v : Text} {n : Nat} : parseU64 v = some n ↔ LengthValue v n := by
  have key : ∀ ds : Text, (if ds ≠ [] ∧ ds.all isDigit = true ∧ digitsValue ds < two64 then
      some (digitsValue ds) else none) = some n ↔ Numeral ds ∧ Numeral.value ds = n ∧ n < 2 ^ 64 := by
    intro ds
    rw [digitsValue_eq]
    have hd : ds.all isDigit = true ↔ ∀ c ∈ ds, '0' ≤ c ∧ c ≤ '9' := by
      simp [List.all_eq_true, isDigit_iff]
    constructor
    · intro h
      split at h
      · rename_i h1
        rw [hd] at h1
        simp at h
        exact ⟨⟨h1.1, h1.2.1⟩, h, by have := h1.2.2; simp [two64] at this ⊢; omega⟩
      · simp at h
    · rintro ⟨h1, h2, h3⟩
      rw [if_pos ⟨h1.1, hd.mpr h1.2, by simp [two64] at *; omega⟩, h2]
  have plus : ∀ ds : Text, ¬ Numeral ('+' :: ds) := by
    intro ds h
    exact absurd (h.2 '+' (by simp)).1 (by decide)
  unfold parseU64
  dsimp only
  split
  · rename_i ds
    rw [key]
    constructor
    · rintro ⟨h1, h2, h3⟩
      exact ⟨h3, ds, .inr rfl, h1, h2⟩
    · rintro ⟨h1, ds', h2 | h2, h3, h4⟩
      · exact absurd (h2 ▸ h3) (plus ds)
      · have : ds = ds' := by simpa using h2
        subst this; exact ⟨h3, h4, h1⟩
  · rename_i hv
    rw [key]
    constructor
    · rintro ⟨h1, h2, h3⟩
      exact ⟨h3, v, .inl rfl, h1, h2⟩
    · rintro ⟨h1, ds', h2 | h2, h3, h4⟩
      · subst h2; exact ⟨h3, h4, h1⟩
      · exact absurd h2 (hv ds')

/-- C45: creation fails with a fetch failure exactly if the request could not be sent. -/
theorem C45_fetch_failure {mime : Text → Option (Text × Text)} {answer : Answer} :
    httpNew mime answer = .error .fetch ↔ answer .get = none := by
  unfold httpNew
  cases answer .get with
  | none => simp
  | some r => by_cases h : r.isError = true <;> simp [h]

/-- C45: creation fails with a response failure exactly if the status is an error. -/
theorem C45_response_failure {mime : Text → Option (Text × Text)} {answer : Answer} :
    httpNew mime answer = .error .response ↔
      ∃ r, answer .get = some r ∧ 400 ≤ r.status ∧ r.status < 600 := by
  unfold httpNew
  cases answer .get with
  | none => simp
  | some r => by_cases h : r.isError = true <;> simp [h] <;> simpa [HttpResp.isError] using h

/-- C45: otherwise it succeeds, delivers the body, and exposes exactly the length that the
`Content-Length` header gives. -/
theorem C45_success {mime : Text → Option (Text × Text)} {answer : Answer} {r : HttpResp}
    (hr : answer .get = some r) (hs : ¬ (400 ≤ r.status ∧ r.status < 600)) :
    ∃ h, httpNew mime answer = .ok h ∧ h.stream = r.body ∧
      (∀ n, h.contentLength = some n ↔ ∃ v, r.header HeaderName.length = some v ∧ LengthValue v n) ∧
      (∀ t, h.contentType = some t ↔ ∃ v, r.header HeaderName.type = some v ∧ mime v = some t) := by
  have he : r.isError = false := by simpa [HttpResp.isError] using hs
  refine ⟨_, by unfold httpNew; rw [hr]; dsimp only; rw [if_neg (by simp [he])], rfl, ?_, ?_⟩
  · intro n
    rw [show HeaderName.length = contentLengthHeader from rfl]
    simp only [HttpResp.contentLength, Option.bind_eq_some_iff, parseU64_iff]
  · intro t
    rw [show HeaderName.type = contentTypeHeader from rfl]
    simp only [Option.bind_eq_some_iff]

example : LengthValue "1024".toList 1024 :=
  ⟨by decide, "1024".toList, .inl rfl, ⟨by decide, by decide⟩, by decide⟩
example : httpNew (fun _ => none) (fun _ => some { status := 404, header := noHeaders, body := [1] }) =
    .error .response := rfl

end SD
