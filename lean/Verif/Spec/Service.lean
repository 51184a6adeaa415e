import Verif.Spec.Replay
import Verif.Model.Digest
/-!
A sender and a receiver that use all of the library: digests, signatures, the checks of `Spec/Deploy.lean` and the memory of `Spec/Replay.lean`.
Programs of a caller, not code of the repository.
-/
namespace Verif.Service
open Spec

/-- The field Content-Digest without parameters, in any letter case. -/
def isDigest (i : CId) : Bool :=
  i.params == [] && (match i.name with | .field f => lower f == c! "content-digest" | .derived _ => false)

/-- The signature covers the components that the receiver needs and Content-Digest. -/
def coversAll (need : List CId) (p : SigParams) : Bool := need.all (fun i => decide (i ∈ p.covered)) && p.covered.any isDigest

/-- The message has one line of Content-Digest, and it is right. -/
def digestRight (m : Msg) : Bool :=
  (m.headers.getAll hContentDigest).length == 1 &&
    (match m with
      | .req r => r.verifyContentDigest.isOk
      | .res s => s.verifyContentDigest.isOk)

/-- The receiver: the digest, the signature, and what is covered. -/
def look (key : VerifyingKey) (id : Option Str) (need : List CId) (a : Replay.Arrival) : Option (Str × SigParams) :=
  if digestRight a.m then
    match Replay.careful key id a with
    | some x => if coversAll need x.2 then some x else none
    | none => none
  else none

/-- All messages that the receiver takes. -/
def taken (key : VerifyingKey) (id : Option Str) (need : List CId) (as : List Replay.Arrival) : List (Replay.Arrival × Str × SigParams) :=
  Replay.taken (look key id need) [] as

/-- `set_content_digest`. -/
def setDigest (t : DigestType) : Msg → Option Msg
  | .req r => match r.setContentDigest t with | .ok r => some (.req r) | _ => none
  | .res s => match s.setContentDigest t with | .ok s => some (.res s) | _ => none

/-- The component is not a signature field of the message. -/
def notOwn (i : CId) : Bool :=
  i.params.contains .req ||
    (match i.name with | .field f => lower f != c! "signature" && lower f != c! "signature-input" | .derived d => d != .signatureParams)

/-- The sender: the message has no signature; the parameters have a nonce and an expiry and cover what is needed; then the digest is set and the
message is signed. -/
def send (t : DigestType) (need : List CId) (m : Msg) (p : SigParams) (sk : SigningKey) (name : Option Str) (rf : Option Request) : Option Msg :=
  if (m.headers.getAll hSignature).isEmpty && (m.headers.getAll hSignatureInput).isEmpty && p.nonce.isSome && p.expires.isSome &&
      coversAll need p && p.covered.all notOwn then
    match setDigest t m with
    | some m1 =>
      match Guard.send m1 [(p, sk, name)] rf with
      | (h, .ok ()) => some (m1.withHeaders h)
      | _ => none
    | none => none
  else none

end Verif.Service
