import Verif.Spec.Service
import Verif.Spec.Sign
/-!
The order of the calls that set a digest and those that sign.
-/
namespace Verif.CallOrder
open Spec

/-- Two messages that no receiver can tell apart: they agree in everything but the order of lines of different fields. -/
def Alike (m m' : Msg) : Prop := SameButHeaders m m' ∧ ∀ f, fieldLines m'.headers f = fieldLines m.headers f

/-- Content-Digest of the message itself, in any letter case and with any parameters, is not covered. -/
def NoDigest (p : SigParams) : Prop := ∀ i ∈ p.covered, CParam.req ∉ i.params → ∀ f, i.name = .field f → lower f ≠ c! "content-digest"

end Verif.CallOrder
