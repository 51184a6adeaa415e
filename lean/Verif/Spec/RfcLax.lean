import Verif.Spec.Rfc9421
import Verif.Spec.Wire
/-!
Where the library has a value for a component though RFC 9421 defines none. For identifiers without `sf` and `key`.
-/
namespace Verif.Spec.Rfc9421
open Sfv Wire

/-- No strict serialization and no member of a dictionary. -/
def PlainId (i : CId) : Prop := ∀ p ∈ i.params, p ≠ .sf ∧ ∀ k, p ≠ .key k

/-- The text of the Host field, if there is exactly one line of it and that is text. -/
def HostText (r : Request) (t : Str) : Prop := ∃ l, linesOf r.headers (c! "host") = [l] ∧ LineText l t

/-- The request has no target URI (RFC 9110 section 7.1): it says no authority, neither itself nor with Host. -/
def NoTarget (r : Request) : Prop := r.uri.authority = none ∧ (r.uri.scheme ≠ none ∨ ∀ t, ¬ HostText r t)

/-- A derived component of a request. -/
inductive LaxRequest (r : Request) (ps : List CParam) : Derived → Prop where
  /-- No target URI: the library takes what there is of a URI. -/
  | targetUri : NoTarget r → LaxRequest r ps .targetUri
  | scheme : NoTarget r → LaxRequest r ps .scheme
  | authority : NoTarget r → LaxRequest r ps .authority
  /-- An authority with user information. -/
  | userinfo {a} : r.uri.authority = some a → '@' ∈ a → LaxRequest r ps .authority
  | hostUserinfo {t} : r.uri.authority = none → r.uri.scheme = none → HostText r t → '@' ∈ t → LaxRequest r ps .authority
  /-- A URI that is none of the four forms of a request target. -/
  | authorityForm : r.uri.scheme = none → r.uri.authority ≠ none → r.method ≠ c! "CONNECT" → LaxRequest r ps .requestTarget
  | noForm : r.uri.scheme ≠ none → r.uri.authority = none → LaxRequest r ps .requestTarget
  /-- Not exactly one parameter with this name, though there is a query. -/
  | queryParam {n} : CParam.name n ∈ ps → (∃ ch ∈ r.uri.query.getD [], ch ≠ '&') →
      ((pieces (r.uri.query.getD [])).filter fun p => reencode (pair p).1 = n).length ≠ 1 → LaxRequest r ps .queryParam
  /-- `@signature-params` as a covered component. -/
  | signatureParams {v} : Wire.SigParamsValue r.headers v → LaxRequest r ps .signatureParams

/-- A component taken from this message: a field that is absent or whose name is not in lower case, or a derived component. -/
def LaxIn (m : Msg) (i : CId) : Prop :=
  match i.name, m with
  | .field f, m => (∀ p ∈ i.params, p = .req) ∧ (linesOf m.headers f = [] ∨ lowerCase f ≠ f) ∧ ∀ l ∈ linesOf m.headers f, ∃ t, LineText l t
  | .derived d, .req r => LaxRequest r i.params d
  | .derived d, .res s => d = .signatureParams ∧ ∃ v, Wire.SigParamsValue s.headers v

/-- A covered component: with `req` it is taken from the request. -/
def Lax (m : Msg) (rf : Option Request) (i : CId) : Prop :=
  (CParam.req ∉ i.params ∧ LaxIn m i) ∨ (CParam.req ∈ i.params ∧ ∃ s r, m = .res s ∧ rf = some r ∧ LaxIn (.req r) i)

end Verif.Spec.Rfc9421
