import Verif.Model.Registry

/-! # What the rules of a registry say -/

namespace SD
namespace Reg

/-- A rule covers an input string: it starts with the prefix, it is no url and the
string matcher accepts it, or it is a url whose scheme and domain are accepted. -/
def Rule.Covers (U : UrlLib) (s : Text) : Rule → Prop
  | .prefix_ p => ∃ rest, s = p ++ rest
  | .string m => U.parse s = none ∧ (∀ x, m = .value x → x.isMatch s = true)
  | .url sch dom => ∃ u, U.parse s = some u ∧ (∀ x, sch = .value x → x.isMatch (U.scheme u) = true) ∧
      ∀ x, dom = .value x → ∃ d, U.domain u = some d ∧ x.isMatch d = true

/-- An entry covers an input string if one of its rules does. -/
def Entry.Covers (U : UrlLib) (s : Text) (e : Entry) : Prop := ∃ r ∈ e.rules, r.Covers U s

/-- What a handler sees of the text `t`: the url, if it is one, or else the text itself. -/
def Source.Shows {U : UrlLib} (x : Source U) (t : Text) : Prop :=
  (∀ u, U.parse t = some u → x = .url u) ∧ (U.parse t = none → x = .string t)

/-- Among the entries `es`, in the order of registration, `e` is the first of those with
the smallest priority that satisfy `c`. -/
def Chosen (c : Entry → Prop) (es : List Entry) (e : Entry) : Prop :=
  ∃ before after, es = before ++ e :: after ∧ c e ∧
    (∀ x ∈ before, c x → e.priority < x.priority) ∧ (∀ x ∈ after, c x → e.priority ≤ x.priority)

end Reg
end SD
