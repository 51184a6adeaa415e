import Verif.Spec.Sign
/-!
Signatures over signatures, RFC 9421 section 4.3: a component may name one member of the signature fields.
-/
namespace Verif.Spec

/-- The component is not touched by signatures with these labels: it belongs to the request of a response, or to another field, or
it is the member of a signature field with another label. -/
def OtherLabel (labels : List Str) (i : CId) : Prop :=
  CParam.req ∈ i.params ∨ (i.name ≠ .derived .signatureParams ∧
    ∀ f, i.name = .field f → lower f = c! "signature" ∨ lower f = c! "signature-input" →
      ∃ k ps, i.params = .key k :: ps ∧ k ∉ labels)

/-- Every signer leaves alone the members with its own label and with those of the later signers. It may cover earlier ones. -/
def Chained : List Signer → Prop
  | [] => True
  | x :: t => (∀ i ∈ x.1.covered, OtherLabel (x.label :: t.map Signer.label) i) ∧ Chained t

end Verif.Spec
