import Verif.Model.Http

/-!
# Model of the registry (`registry/matcher.rs`, `registry/mod.rs`)

The crates `url` and `regex` are parameters: `UrlLib` for the first, a predicate for a
compiled regular expression.  A handler is modelled by its call: which entry is called with
which input.
-/

namespace SD
namespace Reg

/-- The functions of the crate `url` that the registry uses. -/
structure UrlLib where
  Url : Type
  parse : Text → Option Url
  print : Url → Text
  scheme : Url → Text
  domain : Url → Option Text

/-- registry/matcher.rs 29-34, `Matcher`; a regular expression is its `is_match`. -/
inductive Matcher where
  | regex (f : Text → Bool)
  | string (s : Text)

/-- registry/matcher.rs 37-42, `Matcher::is_match`. -/
def Matcher.isMatch : Matcher → Text → Bool
  | .regex f, t => f t
  | .string s, t => decide (s = t)

/-- registry/matcher.rs 7-10, `MatchType`. -/
inductive MatchType where
  | any
  | value (m : Matcher)

/-- registry/matcher.rs 13-24, `MatchType::matches_input`. -/
def MatchType.matchesInput : MatchType → Option Text → Bool
  | .any, _ => true
  | .value m, some t => m.isMatch t
  | .value _, none => false

/-- registry/matcher.rs 65-72, 174-176, 194-196, 207-210: `Rule` and its matchers. -/
inductive Rule where
  | prefix_ (p : Text)
  | string (m : MatchType)
  | url (scheme domain : MatchType)

/-- registry/matcher.rs 167-170, `http_regex`: `^https?$`. -/
def httpRegex : Matcher := .regex fun t => decide (t = "http".toList ∨ t = "https".toList)

/-- registry/matcher.rs 87-94. -/
def Rule.ofString (m : Matcher) : Rule := .string (.value m)
/-- registry/matcher.rs 97-101. -/
def Rule.anyString : Rule := .string .any
/-- registry/matcher.rs 104-109. -/
def Rule.anyUrl : Rule := .url .any .any
/-- registry/matcher.rs 112-120. -/
def Rule.urlScheme (m : Matcher) : Rule := .url (.value m) .any
/-- registry/matcher.rs 123-128. -/
def Rule.anyHttp : Rule := .url (.value httpRegex) .any
/-- registry/matcher.rs 131-139. -/
def Rule.urlDomain (m : Matcher) : Rule := .url .any (.value m)
/-- registry/matcher.rs 142-150. -/
def Rule.httpDomain (m : Matcher) : Rule := .url (.value httpRegex) (.value m)
/-- registry/matcher.rs 153-162. -/
def Rule.ofUrl (m1 m2 : Matcher) : Rule := .url (.value m1) (.value m2)

/-- registry/mod.rs 99-104, `Source`. -/
inductive Source (U : UrlLib) where
  | url (u : U.Url)
  | string (s : Text)

/-- registry/mod.rs 106-113, `From<String>`. -/
def Source.ofText (U : UrlLib) (s : Text) : Source U :=
  match U.parse s with
  | some u => .url u
  | none => .string s

/-- registry/mod.rs 115-122, `Display`. -/
def Source.print {U : UrlLib} : Source U → Text
  | .url u => U.print u
  | .string s => s

/-- registry/mod.rs 171-176, `Input`. -/
structure Input (U : UrlLib) where
  pre : Option Text
  source : Source U

/-- registry/mod.rs 180-192, `Input::into_raw` and `Display`. -/
def Input.intoRaw {U : UrlLib} (i : Input U) : Text := i.pre.getD [] ++ i.source.print

/-- registry/mod.rs 196-201, `InputType`. -/
inductive InputType (U : UrlLib) where
  | raw (s : Text)
  | parsed (i : Input U)

/-- `str::replacen(p, "", 1)`: removes the first occurrence. -/
def removeFirst (p : Text) : Text → Text
  | [] => []
  | c :: cs => if p.isPrefixOf (c :: cs) then (c :: cs).drop p.length else c :: removeFirst p cs

/-- registry/matcher.rs 179-185, `PrefixMatcher::match_input`. -/
def matchPrefix (p s : Text) : Option Text :=
  if p.isPrefixOf s then some (removeFirst p s) else none

/-- registry/matcher.rs 200-202 and 213-215, `matches_input` of string and url rules, in the
loops of registry/mod.rs 302-326, `handle`. -/
def Rule.matchesSource {U : UrlLib} : Rule → Source U → Bool
  | .string m, .string s => m.matchesInput (some s)
  | .url sch dom, .url u => sch.matchesInput (some (U.scheme u)) && dom.matchesInput (U.domain u)
  | _, _ => false

/-- registry/mod.rs 87-95, `RegistryEntry`; `id` stands for the handler. -/
structure Entry where
  priority : Nat
  rules : List Rule
  id : Nat

/-- registry/mod.rs 232-238, `filter_matches!` for prefix rules. -/
def prefixes (rules : List Rule) : List Text :=
  rules.filterMap fun
    | .prefix_ p => some p
    | _ => none

/-- registry/mod.rs 302-326, `handle`. -/
def handle {U : UrlLib} (e : Entry) (i : Input U) : Option (Input U) :=
  if e.rules.any (·.matchesSource i.source) then some i else none

/-- One round of the loop of registry/mod.rs 271-296: the input that the handler of `e` is
called with, if it is. -/
def tryEntry {U : UrlLib} (input : InputType U) (parsed : Input U) (e : Entry) : Option (Input U) :=
  match input with
  | .raw s =>
    match (prefixes e.rules).findSome? fun p => (matchPrefix p s).map fun rest => (p, rest) with
    | some (p, rest) => some { pre := some p, source := Source.ofText U rest }
    | none => handle e parsed
  | .parsed i =>
    if (prefixes e.rules).any fun p => decide (i.pre = some p) then some i
    else handle e parsed

/-- registry/mod.rs 264-270. -/
def InputType.parsedInput {U : UrlLib} : InputType U → Input U
  | .raw s => { pre := none, source := Source.ofText U s }
  | .parsed i => i

/-- registry/mod.rs 259-299, `find_match`, on the sorted entries. -/
def findMatch {U : UrlLib} (generators : List Entry) (input : InputType U) : Option (Entry × Input U) :=
  generators.findSome? fun e => (tryEntry input input.parsedInput e).map fun i => (e, i)

/-- registry/mod.rs 249-256, `Registry::entry`: push, then the stable `sort_by_key`. -/
def addEntry (generators : List Entry) (e : Entry) : List Entry :=
  (generators ++ [e]).mergeSort fun a b => decide (a.priority ≤ b.priority)

/-- A registry to which the entries were added in this order. -/
def registry (es : List Entry) : List Entry := es.foldl addEntry []

end Reg
end SD
