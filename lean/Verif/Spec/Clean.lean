import Verif.Spec.Value
import Verif.Spec.Safe
/-!
Texts without line breaks. Crate http never lets a line break into a method, a URI or a visible header value; the parser of
structured fields never lets one into an identifier or a parameter (see `OneLineParams` in `Props/C08`). Quotes, colons,
parentheses and any non-ASCII character are allowed here.
-/
namespace Verif.Spec

/-- No line break. -/
def OneLine (s : Str) : Prop := '\n' ∉ s

instance (s : Str) : Decidable (OneLine s) := by unfold OneLine; infer_instance

structure OneLineUri (u : Uri) : Prop where
  scheme : ∀ s, u.scheme = some s → OneLine s
  authority : ∀ s, u.authority = some s → OneLine s
  path : OneLine u.pathData
  query : ∀ s, u.query = some s → OneLine s

/-- A request as crate http can hold it. -/
structure WfRequest (r : Request) : Prop where
  headers : WfHeaders r.headers
  method : OneLine r.method
  uri : OneLineUri r.uri

/-- A message as crate http can hold it. -/
def WfMsg : Msg → Prop
  | .req r => WfRequest r
  | .res s => WfHeaders s.headers

/-- An identifier on one line. -/
structure OneLineId (i : CId) : Prop where
  name : ∀ f, i.name = .field f → OneLine f
  key : ∀ k, CParam.key k ∈ i.params → OneLine k
  param : ∀ n, CParam.name n ∈ i.params → OneLine n

/-- Signature parameters on one line. -/
structure OneLineParams (p : SigParams) : Prop where
  nonce : ∀ s, p.nonce = some s → OneLine s
  alg : ∀ s, p.alg = some s → OneLine s
  keyid : ∀ s, p.keyid = some s → OneLine s
  tag : ∀ s, p.tag = some s → OneLine s
  ids : ∀ i ∈ p.covered, OneLineId i

end Verif.Spec
