import Verif.Spec.Forge
import Verif.Spec.Replay
/-!
Forgeries. `OnlySigned` (`Spec/Forge.lean`) says of a key that it accepts nothing but what was signed; no real key is such, since its octets can be
guessed. Here is what it means that a message holds a forgery, and a program that finds it.
-/
namespace Verif.Forgery
open Spec

/-- The data is the signature base of something in `S`. -/
def SignedData (S : Signing → Prop) (d : Bytes) : Prop := ∃ x, S x ∧ ∃ t, BaseOf x.m x.rf x.p t ∧ d = utf8 t

/-- A forgery for the key: data and octets that it accepts, though the data was not signed. -/
def Pair (k : VerifyingKey) (S : Signing → Prop) (q : Bytes × Bytes) : Prop := k.verify q.1 q.2 = .ok () ∧ ¬ SignedData S q.1

/-- The signature base of a carried signature, and its octets. -/
def pairOf (m : Msg) (rf : Option Request) (kv : Str × SigHeaders) : Option (Bytes × Bytes) :=
  match buildBase m kv.2.params rf with
  | .ok b => some (b.bytes, kv.2.signature)
  | _ => none

/-- The signature bases of all signatures of a message, each with the octets of the signature. -/
def pairs (m : Msg) (rf : Option Request) : List (Bytes × Bytes) :=
  match extractSignatureHeaders m with
  | .ok l => l.filterMap (pairOf m rf)
  | _ => []

/-- The message holds a forgery: it is among the pairs. -/
def Holds (k : VerifyingKey) (S : Signing → Prop) (m : Msg) (rf : Option Request) : Prop := ∃ q ∈ pairs m rf, Pair k S q

/-- What happens at a holder of a key and at a receiver. -/
inductive Event where
  | signed (x : Signing)
  | arrives (a : Replay.Arrival)

/-- Signed in these events. -/
def SignedIn (es : List Event) (x : Signing) : Prop := .signed x ∈ es

end Verif.Forgery
