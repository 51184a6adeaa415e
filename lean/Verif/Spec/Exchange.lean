import Verif.Spec.Service
import Verif.Spec.Forge
/-!
A request and its answer: a client and a server that use `Spec/Service.lean` in both directions. Programs of callers, not code of the repository.
-/
namespace Verif.Exchange
open Spec

/-- Signature-Input of the request that a response answers. -/
def inputOfRequest : CId := ⟨.field (c! "signature-input"), [.req]⟩

/-- What a client needs of an answer: the status, the method and the URI of its request, and Signature-Input of its request. -/
def answerNeed : List CId := [⟨.derived .status, []⟩, ⟨.derived .method, [.req]⟩, ⟨.derived .targetUri, [.req]⟩, inputOfRequest]

/-- A server that answers only requests that it took: `T` is what it took, `S` what it signed. -/
def Answers (T : List (Replay.Arrival × Str × SigParams)) (S : Signing → Prop) : Prop :=
  ∀ y, S y → ∀ r, y.rf = some r → ∃ z ∈ T, z.1.m = .req r

/-- A client that uses no nonce twice. -/
def FreshNonces (S : Signing → Prop) : Prop := ∀ x y, S x → S y → x.p.nonce = y.p.nonce → x = y

/-- The signature does not depend on the fields of the request that is answered: only on its method and its URI. -/
def NoFieldOfRequest (p : SigParams) : Prop :=
  ∀ i ∈ p.covered, CParam.req ∈ i.params → ∃ d, i.name = .derived d ∧ d ≠ .signatureParams

end Verif.Exchange
