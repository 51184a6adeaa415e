import Verif.Spec.Wire
import Verif.Spec.Verify
/-!
How the answer to one message changes while time goes on: what the key says of a signature without regard to time, and until when a signature counts.
-/
namespace Verif.Phases
open Spec

/-- The number of seconds of the clock (it shows 0 to 2^64 - 1) at which a signature is not too old. -/
def ends (h : SigHeaders) : Nat :=
  match h.params.expires with
  | none => 2 ^ 64
  | some e => e.toNat + 1

/-- The signature is for this key id, its signature base exists, and the key answers this. -/
def Says (m : Msg) (rf : Option Request) (k : VerifyingKey) (id : Option Str) (a : Res SigErr Unit) (h : SigHeaders) : Prop :=
  (∀ i, id = some i → h.params.keyid = some i) ∧ ∃ t, Wire.BaseOf m rf h.params t ∧ k.verify (utf8 t) h.signature = a

/-- `t` is the latest end of the signatures with this property; 0 if there are none. -/
def LastEnd (q : SigHeaders → Prop) (l : List (Str × SigHeaders)) (t : Nat) : Prop :=
  (∀ kv ∈ l, q kv.2 → ends kv.2 ≤ t) ∧ (t ≠ 0 → ∃ kv ∈ l, q kv.2 ∧ ends kv.2 = t)

end Verif.Phases
