import Verif.Model.SigParams
import Verif.Spec.Text
/-!
When a component id or a parameter set can be written to a header as it is.
-/
namespace Verif.Spec

/-- The label of a component parameter. -/
def paramLabel : CParam → Str
  | .sf => c! "sf"
  | .key _ => c! "key"
  | .bs => c! "bs"
  | .tr => c! "tr"
  | .req => c! "req"
  | .name _ => c! "name"

/-- Parameter rules of RFC 9421 as far as the library knows them: no parameter twice, `name` only on `@query-param`,
`sf`, `key`, `bs`, `tr` only on fields, and a field name does not start with `@`. -/
structure IdRules (i : CId) : Prop where
  distinct : (i.params.map paramLabel).Nodup
  name : ∀ n, CParam.name n ∈ i.params → i.name = .derived .queryParam
  fieldOnly : (CParam.sf ∈ i.params ∨ CParam.bs ∈ i.params ∨ CParam.tr ∈ i.params ∨ ∃ k, CParam.key k ∈ i.params) →
    ∃ f, i.name = .field f
  noAt : ∀ f, i.name = .field f → f.head? ≠ some '@'

/-- The rules and the character condition. -/
structure SafeId (i : CId) : Prop extends IdRules i where
  nameText : ∀ f, i.name = .field f → SafeText f
  keyText : ∀ k, CParam.key k ∈ i.params → SafeText k
  nameParam : ∀ n, CParam.name n ∈ i.params → SafeText n

/-- Two ids that differ at most in the order of their parameters. -/
def SameId (a b : CId) : Prop := a.name = b.name ∧ a.params.Perm b.params

/-- Parameters that can be written to a header as they are. -/
structure SafeParams (p : SigParams) : Prop where
  created : ∀ t, p.created = some t → t.toNat < 10 ^ 15
  expires : ∀ t, p.expires = some t → t.toNat < 10 ^ 15
  nonce : ∀ s, p.nonce = some s → SafeText s
  alg : ∀ s, p.alg = some s → SafeText s
  keyid : ∀ s, p.keyid = some s → SafeText s
  tag : ∀ s, p.tag = some s → SafeText s
  ids : ∀ i ∈ p.covered, SafeId i
  distinct : p.covered.Pairwise (fun a b => ¬ SameId a b)

end Verif.Spec
