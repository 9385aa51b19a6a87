import Verif.Spec.Readers

/-! # Properties C54 and C60: sources on top of byte readers -/

namespace SD

/-! ### One poll -/

/-- What a poll does to a reader with an empty buffer. -/
structure PollSpec (alloc : Nat → Nat) (size : Nat) (b : BufReader) (a : ReadAns) : Prop where
  empty : (b.pollNext alloc size a).2.buf = []
  split : (b.pollNext alloc size a).1.bytes ++ (b.pollNext alloc size a).2.rest = b.rest
  chunk : ∀ bs, (b.pollNext alloc size a).1 = .chunk bs → bs ≠ []
  done : (b.pollNext alloc size a).1 = .done → b.rest = []
  room : (b.pollNext alloc size a).1.bytes.length + (b.pollNext alloc size a).2.spare ≤ max b.spare (alloc size)

theorem pollNext_spec {alloc : Nat → Nat} {size : Nat} {b : BufReader} {a : ReadAns}
    (hb : b.buf = []) (hs : 0 < size) (hle : ∀ n, n ≤ alloc n)
    (ha : (b.prepare alloc size).Allows alloc a) : PollSpec alloc size b a := by
  have hp : (b.prepare alloc size).buf = [] ∧ (b.prepare alloc size).rest = b.rest ∧
      0 < (b.prepare alloc size).spare ∧ (b.prepare alloc size).spare ≤ max b.spare (alloc size) := by
    have := hle size
    unfold BufReader.prepare BufReader.reserve
    grind
  obtain ⟨h1, h2, h3, h4⟩ := hp
  have hne : (b.prepare alloc size).spare ≠ 0 := by omega
  cases a with
  | err =>
    have e : b.pollNext alloc size .err = (.err, b.prepare alloc size) := by
      simp [BufReader.pollNext, BufReader.pollRead, hne]
    constructor <;> simp [e, h1, h2, PollAns.bytes, h4]
  | data n =>
    simp only [BufReader.Allows, hne, if_false, h2] at ha
    obtain ⟨ha1, ha2, ha3⟩ := ha
    cases n with
    | zero =>
      have hr : b.rest = [] := ha3.1 rfl
      have e : b.pollNext alloc size (.data 0) = (.done, b.prepare alloc size) := by
        simp [BufReader.pollNext, BufReader.pollRead, hne]
      constructor <;> simp [e, h1, h2, PollAns.bytes, h4, hr]
    | succ n =>
      have hr : b.rest ≠ [] := fun h => by simpa using ha3.2 h
      have e : b.pollNext alloc size (.data (n + 1)) = (.chunk (b.rest.take (n + 1)),
          { rest := b.rest.drop (n + 1), buf := [], spare := (b.prepare alloc size).spare - (n + 1) }) := by
        simp [BufReader.pollNext, BufReader.pollRead, hne, h1, h2]
      constructor
      · simp [e]
      · simp [e, PollAns.bytes]
      · intro bs hbs; simp only [e, PollAns.chunk.injEq] at hbs; subst hbs; simp [hr]
      · simp [e]
      · simp only [e, PollAns.bytes, List.length_take]; omega

/-! ### C54 -/

theorem drop_bytesIn (object : List Byte) (pos n : Nat) (stop : Option Nat) :
    (bytesIn object pos stop).drop n = bytesIn object (pos + n) stop := by
  cases stop <;> simp [bytesIn, List.drop_drop]

theorem OpendalLife.inv {object : List Byte} {chunkSize room : Nat} (hc : 0 < chunkSize)
    {s : OpendalStream} {pos : Nat} {stop : Option Nat} (h : OpendalLife object chunkSize room s pos stop) :
    s.reader.buf = [] ∧ s.capacity = chunkSize ∧ s.reader.rest = bytesIn object pos stop ∧
      s.reader.spare ≤ room := by
  induction h with
  | new stat hle hroom => exact ⟨rfl, rfl, rfl, hroom⟩
  | @poll s pos stop alloc a h hle hroom ha ih =>
    obtain ⟨i1, i2, i3, i4⟩ := ih
    have hs : PollSpec alloc chunkSize s.reader a := pollNext_spec i1 hc hle (by rw [← i2]; exact ha)
    have e : s.pollNext alloc a = ((s.reader.pollNext alloc chunkSize a).1,
        { s with reader := (s.reader.pollNext alloc chunkSize a).2 }) := by
      simp [OpendalStream.pollNext, i2]
    rw [e]
    refine ⟨hs.empty, i2, ?_, ?_⟩
    · rw [← drop_bytesIn, ← i3, ← hs.split]; simp
    · have := hs.room; simp only; omega
  | seek start stop' h ih => exact ⟨ih.1, ih.2.1, rfl, ih.2.2.2⟩
  | seekErr rest h ih => exact ih

/-- C54: in every history of polls, seeks and failures a chunk is not empty, is not larger
than the room the allocator provides for a chunk (the chunk size, if it provides what it is
asked for), and consists of the next bytes of the range that was asked for last: nothing
that was read before a seek is delivered after it. -/
theorem C54_chunks_in_place {object : List Byte} {chunkSize room : Nat} (hc : 0 < chunkSize)
    {s : OpendalStream} {pos : Nat} {stop : Option Nat} (h : OpendalLife object chunkSize room s pos stop)
    {alloc : Nat → Nat} {a : ReadAns} (hle : ∀ n, n ≤ alloc n) (hroom : alloc chunkSize ≤ room)
    (ha : s.Allows alloc a) {bs : List Byte} (hbs : (s.pollNext alloc a).1 = .chunk bs) :
    bs ≠ [] ∧ bs.length ≤ room ∧ bs <+: bytesIn object pos stop := by
  obtain ⟨i1, i2, i3, i4⟩ := h.inv hc
  have hs : PollSpec alloc chunkSize s.reader a := pollNext_spec i1 hc hle (by rw [← i2]; exact ha)
  simp only [OpendalStream.pollNext, i2] at hbs
  have hsp := hs.split
  have hr := hs.room
  rw [hbs] at hsp hr
  simp only [PollAns.bytes] at hsp hr
  exact ⟨hs.chunk bs hbs, by omega, by rw [← i3, ← hsp]; exact List.prefix_append _ _⟩

/-- C54: the stream ends only if everything that was asked for last has been delivered, and
then it does end. -/
theorem C54_end {object : List Byte} {chunkSize room : Nat} (hc : 0 < chunkSize)
    {s : OpendalStream} {pos : Nat} {stop : Option Nat} (h : OpendalLife object chunkSize room s pos stop)
    {alloc : Nat → Nat} {a : ReadAns} (hle : ∀ n, n ≤ alloc n) (ha : s.Allows alloc a) (hne : a ≠ .err) :
    (s.pollNext alloc a).1 = .done ↔ bytesIn object pos stop = [] := by
  obtain ⟨i1, i2, i3, i4⟩ := h.inv hc
  have hs : PollSpec alloc chunkSize s.reader a := pollNext_spec i1 hc hle (by rw [← i2]; exact ha)
  simp only [OpendalStream.pollNext, i2]
  rw [← i3]
  refine ⟨hs.done, fun he => ?_⟩
  cases hp : (s.reader.pollNext alloc chunkSize a).1 with
  | done => rfl
  | chunk bs =>
    have hsp := hs.split
    rw [hp, he] at hsp
    simp only [PollAns.bytes, List.append_eq_nil_iff] at hsp
    exact absurd hsp.1 (hs.chunk bs hp)
  | err =>
    cases a with
    | err => exact absurd rfl hne
    | data n =>
      exfalso
      revert hp
      unfold BufReader.pollNext BufReader.pollRead
      cases n <;> simp

/-- C54: polling until the end delivers exactly what was asked for, whatever the reads and
whatever fails in between. -/
theorem C54_whole_range {object : List Byte} {chunkSize room : Nat} (hc : 0 < chunkSize)
    {s s' : OpendalStream} {pos : Nat} {stop : Option Nat} (h : OpendalLife object chunkSize room s pos stop)
    {l : List PollAns} (hl : Polls OpendalStream.Allows OpendalStream.pollNext s l s') :
    polled l <+: bytesIn object pos stop ∧
      (PollAns.done ∈ l → polled l = bytesIn object pos stop) := by
  obtain ⟨i1, i2, i3, -⟩ := h.inv hc
  rw [← i3]
  clear h i3
  induction hl with
  | nil s => simp [polled]
  | @cons s s' alloc a l hle ha h ih =>
    have hs : PollSpec alloc chunkSize s.reader a := pollNext_spec i1 hc hle (by rw [← i2]; exact ha)
    have e : s.pollNext alloc a = ((s.reader.pollNext alloc chunkSize a).1,
        { s with reader := (s.reader.pollNext alloc chunkSize a).2 }) := by
      simp [OpendalStream.pollNext, i2]
    rw [e] at ih ⊢
    obtain ⟨j1, j2⟩ := ih hs.empty i2
    have er : polled ((s.reader.pollNext alloc chunkSize a).1 :: l) =
        (s.reader.pollNext alloc chunkSize a).1.bytes ++ polled l := by simp [polled]
    rw [er]
    constructor
    · rw [← hs.split]; exact (List.prefix_append_right_inj _).2 j1
    · intro hd
      rcases List.mem_cons.1 hd with hd | hd
      · have h0 : s.reader.rest = [] := hs.done hd.symm
        have hsp := hs.split
        rw [h0] at hsp ⊢
        obtain ⟨e1, e2⟩ := List.append_eq_nil_iff.1 hsp
        simp only [e2] at j1
        rw [e1, List.prefix_nil.1 j1]; rfl
      · rw [j2 hd, hs.split]

/-- C54: the length is what the service reports, except that zero means unknown. -/
theorem C54_length (alloc : Nat → Nat) (chunkSize : Nat) (object : List Byte) (stat n : Nat) :
    (opendalNew alloc chunkSize object stat).contentLength = some n ↔ n = stat ∧ 0 < n := by
  simp only [opendalNew]
  split
  · simp; omega
  · simp; omega

/-- A stream of 5 bytes in chunks of at most 2, sought to 1..4 after the first chunk. -/
def demoOpendal : OpendalStream :=
  (((opendalNew id 2 [1, 2, 3, 4, 5] 5).pollNext id (.data 1)).2.seekRange true [2, 3, 4]).2

theorem demoOpendal_life : OpendalLife [1, 2, 3, 4, 5] 2 2 demoOpendal 1 (some 4) :=
  OpendalLife.seek 1 (some 4) (OpendalLife.poll (OpendalLife.new 5 (fun _ => Nat.le_refl _) (Nat.le_refl _))
    (fun _ => Nat.le_refl _) (Nat.le_refl _)
    (by simp [OpendalStream.Allows, opendalNew, BufReader.prepare, BufReader.Allows]))

/-- Only one byte fits behind the first chunk; after an error the reading goes on. -/
example : ∃ s', Polls OpendalStream.Allows OpendalStream.pollNext demoOpendal
    [.chunk [2], .err, .chunk [3, 4], .done] s' := by
  refine ⟨_, Polls.cons (alloc := id) (a := .data 1) (fun _ => Nat.le_refl _) ?_
    (Polls.cons (alloc := id) (a := .err) (fun _ => Nat.le_refl _) ?_
    (Polls.cons (alloc := id) (a := .data 2) (fun _ => Nat.le_refl _) ?_
    (Polls.cons (alloc := id) (a := .data 0) (fun _ => Nat.le_refl _) ?_ (Polls.nil _))))⟩
  · simp [demoOpendal, OpendalStream.Allows, OpendalStream.pollNext, OpendalStream.seekRange, opendalNew,
      BufReader.prepare, BufReader.Allows, BufReader.pollNext, BufReader.pollRead]
  · trivial
  · exact ⟨by decide, by decide, by decide⟩
  · exact ⟨by decide, by decide, by decide⟩

/-! ### C60 -/

theorem AsyncReadStream.polls {s s' : AsyncReadStream} {l : List PollAns}
    (hl : Polls AsyncReadStream.Allows AsyncReadStream.pollNext s l s') (hb : s.reader.buf = [])
    (hg : s.gone = false) :
    polled l <+: s.reader.rest ∧ (∀ bs, PollAns.chunk bs ∈ l → bs ≠ []) ∧
      (PollAns.done ∈ l → PollAns.err ∉ l → polled l = s.reader.rest) := by
  suffices H : s.reader.buf = [] →
      (s.gone = true → ∀ x ∈ l, x = PollAns.done) ∧
      (s.gone = false → polled l <+: s.reader.rest ∧ (∀ bs, PollAns.chunk bs ∈ l → bs ≠ []) ∧
        (PollAns.done ∈ l → PollAns.err ∉ l → polled l = s.reader.rest)) from (H hb).2 hg
  clear hb hg
  induction hl with
  | nil s => intro _; simp [polled]
  | @cons s s' alloc a l hle ha h ih =>
    intro hb
    have hs : PollSpec alloc 4096 s.reader a := pollNext_spec hb (by decide) hle ha
    have hd : ∀ {l : List PollAns}, (∀ x ∈ l, x = PollAns.done) → polled l = [] := by
      intro l hl
      simp only [polled, List.flatMap_eq_nil_iff]
      intro x hx; rw [hl x hx]; rfl
    have er : ∀ x : PollAns, polled (x :: l) = x.bytes ++ polled l := by intro x; simp [polled]
    constructor
    · intro hg
      have e : s.pollNext alloc a = (.done, s) := by simp [AsyncReadStream.pollNext, hg]
      rw [e] at ih ⊢
      intro x hx
      rcases List.mem_cons.1 hx with hx | hx
      · exact hx
      · exact (ih hb).1 hg x hx
    · intro hg
      have h1 := hs.empty
      have h2 := hs.split
      have h3 := hs.chunk
      have h4 := hs.done
      cases hp : s.reader.pollNext alloc 4096 a with
      | mk p r =>
        rw [hp] at h1 h2 h3 h4
        simp only at h1 h2 h3 h4
        cases p with
        | chunk bs =>
          have e : s.pollNext alloc a = (.chunk bs, { s with reader := r }) := by
            simp [AsyncReadStream.pollNext, hg, hp]
          rw [e] at ih ⊢
          obtain ⟨j1, j2, j3⟩ := (ih h1).2 hg
          rw [er, ← h2]
          simp only [PollAns.bytes]
          refine ⟨(List.prefix_append_right_inj _).2 j1, ?_, ?_⟩
          · intro bs' hbs'
            rcases List.mem_cons.1 hbs' with hbs' | hbs'
            · cases hbs'; exact h3 bs rfl
            · exact j2 bs' hbs'
          · intro hdn herr
            rw [j3 (by simpa using hdn) (fun h => herr (List.mem_cons_of_mem _ h))]
        | err =>
          have e : s.pollNext alloc a = (.err, { s with reader := r, gone := true }) := by
            simp [AsyncReadStream.pollNext, hg, hp]
          rw [e] at ih ⊢
          have hall := (ih h1).1 rfl
          rw [er, hd hall]
          refine ⟨by simp [PollAns.bytes], ?_, fun _ h => absurd List.mem_cons_self h⟩
          intro bs hbs
          rcases List.mem_cons.1 hbs with hbs | hbs
          · cases hbs
          · cases hall _ hbs
        | done =>
          have e : s.pollNext alloc a = (.done, { s with reader := r, gone := true }) := by
            simp [AsyncReadStream.pollNext, hg, hp]
          rw [e] at ih ⊢
          have hall := (ih h1).1 rfl
          rw [er, hd hall, h4 rfl]
          refine ⟨by simp [PollAns.bytes], ?_, fun _ _ => rfl⟩
          intro bs hbs
          rcases List.mem_cons.1 hbs with hbs | hbs
          · cases hbs
          · cases hall _ hbs

theorem Polls.snoc_gone {s s' : AsyncReadStream} {l : List PollAns}
    (hl : Polls AsyncReadStream.Allows AsyncReadStream.pollNext s l s')
    (h : PollAns.done ∈ l ∨ PollAns.err ∈ l ∨ s.gone = true) : s'.gone = true := by
  induction hl with
  | nil s => simpa using h
  | @cons s s' alloc a l hle ha hp ih =>
    apply ih
    rcases hx : (s.pollNext alloc a).1 with bs | _ | _
    · rw [hx] at h
      rcases h with h | h | h
      · left; simpa using h
      · right; left; simpa using h
      · simp [AsyncReadStream.pollNext, h] at hx
    · right; right
      revert hx
      unfold AsyncReadStream.pollNext
      split
      · simp
      · split <;> simp
    · right; right
      revert hx
      unfold AsyncReadStream.pollNext
      split
      · next hg => intro _; exact hg
      · split <;> simp

/-- The polls of a life are polls. -/
theorem ReaderLife.polls {s s' : AsyncReadStream} {l : List ReaderAns} (h : ReaderLife s l s') :
    Polls AsyncReadStream.Allows AsyncReadStream.pollNext s (l.filterMap ReaderAns.poll?) s' := by
  induction h with
  | nil s => exact .nil s
  | poll halloc ha h ih => exact .cons halloc ha ih
  | seek start stop h ih => exact ih
  | reconnect pos h ih => exact ih

/-- C60: what a stream over a reader delivers, whatever else is called in between, is a prefix
of what the reader delivers, in chunks that are not empty, and all of it if the stream ends
without an error. -/
theorem C60_reader_bytes {rest : List Byte} {len : Option Nat} {l : List ReaderAns} {s : AsyncReadStream}
    (hl : ReaderLife (asyncReadNew rest len) l s) :
    polled (l.filterMap ReaderAns.poll?) <+: rest ∧ (∀ bs, .polled (.chunk bs) ∈ l → bs ≠ []) ∧
      (.polled .done ∈ l → .polled .err ∉ l → polled (l.filterMap ReaderAns.poll?) = rest) := by
  have key : ∀ p, p ∈ l.filterMap ReaderAns.poll? ↔ .polled p ∈ l := by
    intro p
    rw [List.mem_filterMap]
    refine ⟨?_, fun h => ⟨_, h, rfl⟩⟩
    rintro ⟨x, hx, e⟩
    cases x <;> simp [ReaderAns.poll?] at e
    exact e ▸ hx
  obtain ⟨h1, h2, h3⟩ := AsyncReadStream.polls hl.polls rfl rfl
  simp only [key] at h2 h3
  exact ⟨h1, h2, h3⟩

/-- C60: after its end or an error the stream ends for good, whatever the reader would do and
whatever else is called in between. -/
theorem C60_ends_for_good {rest : List Byte} {len : Option Nat} {l : List ReaderAns} {s : AsyncReadStream}
    (hl : ReaderLife (asyncReadNew rest len) l s)
    (h : .polled .done ∈ l ∨ .polled .err ∈ l) (alloc : Nat → Nat) (a : ReadAns) :
    s.pollNext alloc a = (.done, s) := by
  have hg := hl.polls.snoc_gone (h.imp (fun h => List.mem_filterMap.2 ⟨_, h, rfl⟩)
    (fun h => Or.inl (List.mem_filterMap.2 ⟨_, h, rfl⟩)))
  simp [AsyncReadStream.pollNext, hg]

/-- C60: in every history of calls the seeks and reconnects are rejected, the stream says that
it cannot seek, and the polls could have had the same answers without the seeks and reconnects,
which leave the stream and its reader as they are. -/
theorem C60_no_seek {rest : List Byte} {len : Option Nat} {l : List ReaderAns} {s : AsyncReadStream}
    (hl : ReaderLife (asyncReadNew rest len) l s) :
    s.supportsSeek = false ∧
      (∀ r, .sought r ∈ l ∨ .reconnected r ∈ l → r = .err .unsupported) ∧
      ReaderLife (asyncReadNew rest len) ((l.filterMap ReaderAns.poll?).map .polled) s := by
  generalize asyncReadNew rest len = s0 at hl ⊢
  refine ⟨rfl, ?_, ?_⟩
  · induction hl with
    | nil s => simp
    | poll halloc ha h ih => simpa using ih
    | seek start stop h ih =>
      intro r hr
      rcases hr with hr | hr
      · rcases List.mem_cons.1 hr with e | hr
        · cases e; rfl
        · exact ih r (.inl hr)
      · exact ih r (.inr (by simpa using hr))
    | reconnect pos h ih =>
      intro r hr
      rcases hr with hr | hr
      · exact ih r (.inl (by simpa using hr))
      · rcases List.mem_cons.1 hr with e | hr
        · cases e; rfl
        · exact ih r (.inr hr)
  · induction hl with
    | nil s => exact .nil s
    | poll halloc ha h ih => exact .poll halloc ha ih
    | seek start stop h ih => exact ih
    | reconnect pos h ih => exact ih

example : ∃ s', ReaderLife (asyncReadNew [1, 2, 3] none)
    [.polled (.chunk [1, 2]), .sought (.err .unsupported), .polled (.chunk [3]), .reconnected (.err .unsupported),
      .polled .done, .polled .done] s' := by
  refine ⟨_, .poll (alloc := id) (a := .data 2) (fun _ => Nat.le_refl _) ?_ (.seek 0 none
    (.poll (alloc := id) (a := .data 1) (fun _ => Nat.le_refl _) ?_ (.reconnect 3
    (.poll (alloc := id) (a := .data 0) (fun _ => Nat.le_refl _) ?_
    (.poll (alloc := id) (a := .err) (fun _ => Nat.le_refl _) ?_ (.nil _))))))⟩
  · exact ⟨by decide, by decide, by decide⟩
  · exact ⟨by decide, by decide, by decide⟩
  · exact ⟨by decide, by decide, by decide⟩
  · trivial

end SD
