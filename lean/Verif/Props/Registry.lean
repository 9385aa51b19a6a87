import Verif.Proof.Registry

/-!
# Properties C46, C47, C48, C49: the registry
-/

set_option linter.unusedVariables false

namespace SD
open Reg

/-! ### A small library of urls, for the examples -/

/-- A url is `scheme://domain`; everything else is none. -/
def demoUrls : UrlLib where
  Url := Text × Text
  parse s :=
    match s.dropWhile (· ≠ ':') with
    | ':' :: '/' :: '/' :: d => if s.takeWhile (· ≠ ':') = [] then none else some (s.takeWhile (· ≠ ':'), d)
    | _ => none
  print u := u.1 ++ "://".toList ++ u.2
  scheme u := u.1
  domain u := if u.2 = [] then none else some u.2

/-- An entry for the domain `test.com`. -/
def demoDomain : Entry := { priority := 1, rules := [.urlDomain (.string "test.com".toList)], id := 1 }
/-- An entry for the prefix `custom://`. -/
def demoPrefix : Entry := { priority := 2, rules := [.prefix_ "custom://".toList], id := 2 }

/-! ### C46 -/

theorem findMatch_raw {U : UrlLib} {es : List Entry} {s : Text} {e : Entry} {i : Input U}
    (h : findMatch (registry es) (.raw s) = some (e, i)) :
    ∃ A B, registry es = A ++ e :: B ∧ (∀ x ∈ A, ¬ x.Covers U s) ∧ e.Covers U s ∧
      tryEntry (.raw s) (InputType.raw s).parsedInput e = some i := by
  obtain ⟨A, a, B, h1, h2, h3⟩ := findSome_split h
  simp only [Option.map_eq_some_iff] at h3
  obtain ⟨j, h4, h5⟩ := h3
  simp at h5
  obtain ⟨rfl, rfl⟩ := h5
  refine ⟨A, B, h1, ?_, ?_, h4⟩
  · intro x hx
    have := h2 x hx
    simp only [Option.map_eq_none_iff] at this
    exact tryEntry_raw.1.mp this
  · apply Classical.byContradiction
    intro hc
    rw [tryEntry_raw.1.mpr hc] at h4
    simp at h4

/-- C46: the entry that handles an input is, among the entries that cover it, the one with
the smallest priority number, and among several of these the one that was registered
first. -/
theorem C46_chosen_entry {U : UrlLib} {es : List Entry} {s : Text} {e : Entry} {i : Input U}
    (h : findMatch (registry es) (.raw s) = some (e, i)) : Chosen (·.Covers U s) es e := by
  obtain ⟨A, B, h1, h2, h3, -⟩ := findMatch_raw h
  exact chosen_of_first (sorted_registry es) h1 h2 h3

/-- C46: an input is refused only if no entry covers it. -/
theorem C46_no_match {U : UrlLib} {es : List Entry} {s : Text} :
    findMatch (U := U) (registry es) (.raw s) = none ↔ ∀ e ∈ es, ¬ e.Covers U s := by
  unfold findMatch
  rw [List.findSome?_eq_none_iff]
  constructor
  · intro h e he
    have := h e ((sorted_registry es).perm.mem_iff.mpr he)
    simp only [Option.map_eq_none_iff] at this
    exact tryEntry_raw.1.mp this
  · intro h e he
    simp only [Option.map_eq_none_iff]
    exact tryEntry_raw.1.mpr (h e ((sorted_registry es).perm.mem_iff.mp he))

/-- C46: if the priorities differ, the order of registration does not matter. -/
theorem C46_order_irrelevant {U : UrlLib} {es es' : List Entry} (hp : es.Perm es')
    (hd : es.Pairwise fun a b => a.priority ≠ b.priority) (input : InputType U) :
    findMatch (registry es) input = findMatch (registry es') input := by
  have hS := sorted_registry es
  have hS' := sorted_registry es'
  have hd' : (registry es).Pairwise fun a b => a.priority ≠ b.priority :=
    hS.perm.symm.pairwise hd (fun h h' => h h'.symm)
  have hlt : (registry es).Pairwise fun a b => a.priority < b.priority := by
    have := hS.sorted.and hd'
    exact this.imp (fun h => by omega)
  have hd2 : (registry es').Pairwise fun a b => a.priority ≠ b.priority :=
    (hS'.perm.symm.pairwise (hp.pairwise hd (fun h h' => h h'.symm)) (fun h h' => h h'.symm))
  have hlt' : (registry es').Pairwise fun a b => a.priority < b.priority := by
    have := hS'.sorted.and hd2
    exact this.imp (fun h => by omega)
  have : registry es = registry es' :=
    (hS.perm.trans (hp.trans hS'.perm.symm)).eq_of_pairwise
      (fun a b _ _ h1 h2 => absurd h1 (by omega)) hlt hlt'
  rw [this]

example : findMatch (U := demoUrls) (registry [demoPrefix, demoDomain]) (.raw "http://test.com".toList) =
    some (demoDomain, { pre := none, source := .url ("http".toList, "test.com".toList) }) := by
  rw [show registry [demoPrefix, demoDomain] = [demoDomain, demoPrefix] by
    simp [registry, addEntry, List.mergeSort, demoPrefix, demoDomain]]
  rfl

/-! ### C47 -/

theorem ofText_shows {U : UrlLib} (t : Text) : (Source.ofText U t).Shows t := by
  unfold Source.ofText
  refine ⟨fun u hu => ?_, fun hn => ?_⟩
  · rw [hu]
  · rw [hn]

/-- C47: the handler receives the input without the prefix that matched, removed once, and
the prefix; or, if no prefix rule of the entry matches, the whole input. -/
theorem C47_handler_input {U : UrlLib} {es : List Entry} {s : Text} {e : Entry} {i : Input U}
    (h : findMatch (registry es) (.raw s) = some (e, i)) :
    (∃ p rest, Rule.prefix_ p ∈ e.rules ∧ s = p ++ rest ∧ i.pre = some p ∧ i.source.Shows rest) ∨
    ((∀ p, Rule.prefix_ p ∈ e.rules → ¬ ∃ rest, s = p ++ rest) ∧ i.pre = none ∧ i.source.Shows s) := by
  obtain ⟨A, B, h1, h2, h3, h4⟩ := findMatch_raw h
  rcases tryEntry_raw.2 i h4 with ⟨p, rest, h5, h6, rfl⟩ | ⟨h5, rfl⟩
  · exact .inl ⟨p, rest, h5, h6, rfl, ofText_shows rest⟩
  · exact .inr ⟨h5, rfl, ofText_shows s⟩

/-- C47: converting it back gives the original string, if the url parser prints back what
it parses. -/
theorem C47_into_raw {U : UrlLib} (hU : ∀ t u, U.parse t = some u → U.print u = t) {es : List Entry}
    {s : Text} {e : Entry} {i : Input U} (h : findMatch (registry es) (.raw s) = some (e, i)) :
    i.intoRaw = s := by
  have hpr : ∀ t, i.source.Shows t → i.source.print = t := by
    intro t ht
    cases hu : U.parse t with
    | none => rw [ht.2 hu]; rfl
    | some u => rw [ht.1 u hu]; exact hU t u hu
  rcases C47_handler_input h with ⟨p, rest, -, h1, h2, h3⟩ | ⟨-, h2, h3⟩
  · simp [Input.intoRaw, h2, hpr _ h3, h1]
  · simp [Input.intoRaw, h2, hpr _ h3]

/-- A repeated prefix is removed once. -/
example : (findMatch (U := demoUrls) (registry [demoPrefix]) (.raw "custom://custom://x".toList)).map
    (fun r => (r.1.id, r.2.pre, r.2.intoRaw)) =
    some (2, some "custom://".toList, "custom://custom://x".toList) := by decide +kernel

/-! ### C48 -/

/-- C48 fails: `custom://http://test.com` goes to the entry with the prefix; the input that
its handler receives, submitted again, goes to the entry for the domain. -/
theorem C48_resubmit_violated :
    ∃ i : Input demoUrls,
      findMatch (registry [demoDomain, demoPrefix]) (.raw "custom://http://test.com".toList) = some (demoPrefix, i) ∧
      findMatch (registry [demoDomain, demoPrefix]) (.parsed i) = some (demoDomain, i) := by
  rw [show registry [demoDomain, demoPrefix] = [demoDomain, demoPrefix] by
    simp [registry, addEntry, List.mergeSort, demoPrefix, demoDomain]]
  exact ⟨{ pre := some "custom://".toList, source := .url ("http".toList, "test.com".toList) }, rfl, rfl⟩

theorem handle_some {U : UrlLib} {e : Entry} {i j : Input U} (h : handle e i = some j) : j = i := by
  unfold handle at h
  split at h <;> simp at h
  exact h.symm

/-- C48 for inputs that matched without a prefix, and for those with a prefix if no entry
that comes before the chosen one has a rule for the rest of the input. -/
theorem C48_resubmit_partial {U : UrlLib} {es : List Entry} {s : Text} {e : Entry} {i : Input U}
    (h : findMatch (registry es) (.raw s) = some (e, i))
    (hno : ∀ p rest, i.pre = some p → s = p ++ rest → ∀ x ∈ es, x.priority ≤ e.priority →
      ∀ r ∈ x.rules, (∃ q, r = .prefix_ q) ∨ ¬ r.Covers U rest) :
    findMatch (registry es) (.parsed i) = some (e, i) := by
  obtain ⟨A, B, h1, h2, h3, h4⟩ := findMatch_raw h
  have hAin : ∀ x ∈ A, x ∈ es ∧ x.priority ≤ e.priority := by
    intro x hx
    have hS := sorted_registry es
    refine ⟨hS.perm.mem_iff.mp (by rw [h1]; simp [hx]), ?_⟩
    have := hS.sorted
    rw [h1] at this
    exact (List.pairwise_append.mp this).2.2 x hx e (by simp)
  have hA : ∀ x ∈ A, tryEntry (.parsed i) i x = none := by
    intro x hx
    have hx2 := h2 x hx
    rcases tryEntry_raw.2 i h4 with ⟨p, rest, h5, h6, rfl⟩ | ⟨h5, rfl⟩
    · simp only [tryEntry]
      rw [if_neg, handle, if_neg]
      · rw [List.any_eq_true]
        rintro ⟨r, hr, hm⟩
        obtain ⟨k1, k2⟩ := matchesSource_iff.mp hm
        rcases hno p rest rfl h6 x (hAin x hx).1 (hAin x hx).2 r hr with ⟨q, hq⟩ | hc
        · exact k2 q hq
        · exact hc k1
      · rw [List.any_eq_true]
        rintro ⟨q, hq, hm⟩
        simp at hm
        subst hm
        exact hx2 ⟨_, mem_prefixes.mp hq, rest, h6⟩
    · simp only [tryEntry]
      rw [if_neg (by simp), handle, if_neg]
      rw [List.any_eq_true]
      rintro ⟨r, hr, hm⟩
      exact hx2 ⟨r, hr, (matchesSource_iff.mp hm).1⟩
  have he : tryEntry (.parsed i) i e = some i := by
    rcases tryEntry_raw.2 i h4 with ⟨p, rest, h5, h6, rfl⟩ | ⟨h5, rfl⟩
    · simp only [tryEntry]
      rw [if_pos]
      rw [List.any_eq_true]
      exact ⟨p, mem_prefixes.mpr h5, by simp⟩
    · simp only [tryEntry]
      rw [if_neg (by simp)]
      simp only [tryEntry] at h4
      split at h4
      · simp at h4
      · exact h4
  unfold findMatch
  rw [h1, List.findSome?_append, List.findSome?_cons]
  have : A.findSome? (fun e => (tryEntry (.parsed i) (InputType.parsed i).parsedInput e).map fun i => (e, i)) = none := by
    rw [List.findSome?_eq_none_iff]
    intro x hx
    simp only [Option.map_eq_none_iff]
    exact hA x hx
  rw [this]
  simp only [Option.none_or, InputType.parsedInput, he]
  rfl

/-- With the prefix entry first. -/
example : ∃ i : Input demoUrls,
    findMatch (registry [demoPrefix]) (.raw "custom://http://test.com".toList) = some (demoPrefix, i) ∧
    i.pre = some "custom://".toList ∧
    ∀ x ∈ [demoPrefix], ∀ r ∈ x.rules, (∃ q, r = .prefix_ q) ∨ ¬ r.Covers demoUrls "http://test.com".toList := by
  rw [show registry [demoPrefix] = [demoPrefix] by
    simp [registry, addEntry, List.mergeSort, demoPrefix, demoDomain]]
  refine ⟨{ pre := some "custom://".toList, source := .url ("http".toList, "test.com".toList) }, rfl, rfl, ?_⟩
  intro x hx r hr
  simp at hx; subst hx
  simp [demoPrefix] at hr; subst hr
  exact .inl ⟨_, rfl⟩

/-! ### C49 -/

/-- C49: an entry handles an input exactly if one of its rules covers it; entries with no
rules handle nothing. -/
theorem C49_entry {U : UrlLib} {e : Entry} {s : Text} :
    (findMatch (U := U) (registry [e]) (.raw s)).isSome ↔ ∃ r ∈ e.rules, r.Covers U s := by
  have := C46_no_match (U := U) (es := [e]) (s := s)
  rw [← Option.ne_none_iff_isSome, Ne, this]
  simp [Entry.Covers]

/-- A registry whose only rule is `r` finds a match for the input. -/
def Accepts (U : UrlLib) (r : Rule) (s : Text) : Prop :=
  (findMatch (U := U) (registry [{ priority := 1, rules := [r], id := 0 }]) (.raw s)).isSome = true

theorem accepts_iff {U : UrlLib} {r : Rule} {s : Text} : Accepts U r s ↔ r.Covers U s := by
  unfold Accepts
  rw [C49_entry]; simp

/-- C49: `any_url`. -/
theorem C49_any_url {U : UrlLib} {s : Text} : Accepts U Rule.anyUrl s ↔ ∃ u, U.parse s = some u := by
  rw [accepts_iff]; simp [Rule.anyUrl, Rule.Covers]

/-- C49: `any_string`. -/
theorem C49_any_string {U : UrlLib} {s : Text} : Accepts U Rule.anyString s ↔ U.parse s = none := by
  rw [accepts_iff]; simp [Rule.anyString, Rule.Covers]

/-- C49: `string`. -/
theorem C49_string {U : UrlLib} {s : Text} {m : Matcher} :
    Accepts U (Rule.ofString m) s ↔ U.parse s = none ∧ m.isMatch s = true := by
  rw [accepts_iff]; simp [Rule.ofString, Rule.Covers]

/-- C49: `any_http`. -/
theorem C49_any_http {U : UrlLib} {s : Text} : Accepts U Rule.anyHttp s ↔
    ∃ u, U.parse s = some u ∧ (U.scheme u = "http".toList ∨ U.scheme u = "https".toList) := by
  rw [accepts_iff]; simp [Rule.anyHttp, Rule.Covers, httpRegex, Matcher.isMatch]

/-- C49: `url_scheme`. -/
theorem C49_url_scheme {U : UrlLib} {s : Text} {m : Matcher} : Accepts U (Rule.urlScheme m) s ↔
    ∃ u, U.parse s = some u ∧ m.isMatch (U.scheme u) = true := by
  rw [accepts_iff]; simp [Rule.urlScheme, Rule.Covers]

/-- C49: `url_domain`. -/
theorem C49_url_domain {U : UrlLib} {s : Text} {m : Matcher} : Accepts U (Rule.urlDomain m) s ↔
    ∃ u d, U.parse s = some u ∧ U.domain u = some d ∧ m.isMatch d = true := by
  rw [accepts_iff]; simp [Rule.urlDomain, Rule.Covers]

/-- C49: `http_domain`. -/
theorem C49_http_domain {U : UrlLib} {s : Text} {m : Matcher} : Accepts U (Rule.httpDomain m) s ↔
    ∃ u d, U.parse s = some u ∧ (U.scheme u = "http".toList ∨ U.scheme u = "https".toList) ∧
      U.domain u = some d ∧ m.isMatch d = true := by
  rw [accepts_iff]; simp [Rule.httpDomain, Rule.Covers, httpRegex, Matcher.isMatch]

/-- C49: `url`. -/
theorem C49_url {U : UrlLib} {s : Text} {m1 m2 : Matcher} : Accepts U (Rule.ofUrl m1 m2) s ↔
    ∃ u d, U.parse s = some u ∧ m1.isMatch (U.scheme u) = true ∧ U.domain u = some d ∧ m2.isMatch d = true := by
  rw [accepts_iff]; simp [Rule.ofUrl, Rule.Covers]

/-- C49: a string matcher accepts exactly its string. -/
theorem C49_string_matcher {a b : Text} : (Matcher.string a).isMatch b = true ↔ a = b := by
  simp [Matcher.isMatch]

example : Accepts demoUrls Rule.anyHttp "https://a.b".toList :=
  C49_any_http.mpr ⟨("https".toList, "a.b".toList), rfl, .inr rfl⟩
example : Accepts demoUrls Rule.anyString "song.mp3".toList := C49_any_string.mpr rfl

end SD
