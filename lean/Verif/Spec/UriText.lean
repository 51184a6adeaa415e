import Verif.Model.UriText
import Verif.Spec.Clean
/-!
The texts of URIs, RFC 3986 section 3 and RFC 9112 section 3.2, as a grammar. `UriLib` gives the character classes.
-/
namespace Verif.Spec

/-- `?query`, if there is a query. -/
def queryText : Option Str → Str
  | none => []
  | some q => '?' :: q

/-- `#fragment`, if there is a fragment. -/
def fragmentText : Option Str → Str
  | none => []
  | some f => '#' :: f

/-- The text after the last `@` or `]`. -/
def lastPart (x : Str) : Str := (x.reverse.takeWhile (fun c => c != '@' && c != ']')).reverse

/-- An authority: user information up to the last `@`; at most one pair of brackets, which may hold an address with up to eight colons;
after these at most one colon and no percent sign. -/
structure AuthText (L : UriLib) (a : Str) : Prop where
  chars : ∀ c ∈ a, c ∉ (c! "/?#") ∧ (L.authChar c = true ∨ c ∈ (c! ":[]@%"))
  colons : ∀ x y, a = x ++ y → (lastPart x).count ':' ≤ 8
  opening : ∀ x y, a = x ++ '[' :: y → '[' ∉ x ∧ '%' ∉ lastPart x
  closing : ∀ x y, a = x ++ ']' :: y → '[' ∈ x ∧ ']' ∉ x
  pair : '[' ∈ a → ']' ∈ a
  port : (lastPart a).count ':' ≤ 1 ∧ '%' ∉ lastPart a
  host : a.getLast? ≠ some '@'

/-- A path and a query, either of which may be empty. -/
structure PathText (L : UriLib) (p : Str) (q : Option Str) : Prop where
  path : ∀ c ∈ p, L.pathChar c = true ∧ c ≠ '?' ∧ c ≠ '#'
  query : ∀ t, q = some t → ∀ c ∈ t, L.queryChar c = true ∧ c ≠ '#'

/-- A scheme. -/
def SchemeText (L : UriLib) (s : Str) : Prop :=
  lower s = c! "http" ∨ lower s = c! "https" ∨
    (s.length ≤ 64 ∧ (s ≠ [] ∨ L.emptyScheme = true) ∧ ∀ c ∈ s, L.schemeChar c = true)

/-- The two schemes of HTTP are kept in lower case, others as they are. -/
def canonScheme (s : Str) : Str := if lower s = c! "http" ∨ lower s = c! "https" then lower s else s

/-- `s` is the text of the URI `u`: the asterisk form, the origin form, the authority form or the absolute form. -/
inductive UriText (L : UriLib) : Str → Uri → Prop
  | asterisk : UriText L ['*'] ⟨none, none, ['*'], none⟩
  | origin {p : Str} {q f : Option Str} : p.head? = some '/' → PathText L p q →
      UriText L (p ++ queryText q ++ fragmentText f) ⟨none, none, p, q⟩
  | authority {a : Str} : a ≠ [] → a ≠ ['*'] → AuthText L a → UriText L a ⟨none, some a, [], none⟩
  | absolute {s a p : Str} {q f : Option Str} : SchemeText L s → a ≠ [] → AuthText L a → (p = [] ∨ p.head? = some '/') →
      PathText L p q → UriText L (s ++ c! "://" ++ a ++ p ++ queryText q ++ fragmentText f) ⟨some (canonScheme s), some a, p, q⟩

end Verif.Spec
