import Verif.Spec.Http1Answers
import Verif.Spec.Chunked
/-!
A whole HTTP/1.1 connection: requests one way, answers the other, with bodies by length, in chunks, or until the end. Nothing of it is code of the repository.
Left out: other transfer codings, CONNECT, and a change of the protocol (status 101).
-/
namespace Verif.Http1

/-- With these lines, the octets `wire` carry this body of an answer; `closed` says that they end with the connection. RFC 9112 section 6.3. -/
def Delivered (method : Str) (status : Nat) (h : Headers) (closed : Bool) (wire body : Bytes) : Prop :=
  (NoBody method status ∧ closed = false ∧ wire = [] ∧ body = []) ∨
  (¬ NoBody method status ∧
    ((Wire.linesOf h (c! "transfer-encoding") = [] ∧ Wire.linesOf h (c! "content-length") = [] ∧ closed = true ∧ wire = body) ∨
     (Wire.linesOf h (c! "transfer-encoding") = [] ∧ (∃ t, Wire.linesOf h (c! "content-length") = [utf8 t] ∧ Number t wire.length) ∧ closed = false ∧ wire = body) ∨
     (Wire.linesOf h (c! "content-length") = [] ∧ (∃ t : Str, Wire.linesOf h (c! "transfer-encoding") = [utf8 t] ∧ t.map Char.toLower = c! "chunked") ∧ closed = false ∧
       Chunked wire body)))

/-- A client that sent requests with these methods reads the octets as these answers. -/
inductive Replies : List Str → Bytes → List Response → Prop where
  | nil {ms} : Replies ms [] []
  | interim {m ms c rest n h l} : ResHead c n h → Interim n → Replies (m :: ms) rest l → Replies (m :: ms) (c ++ rest) l
  | answer {m ms c closed wire body rest s l} : ResHead c s.status s.headers → 200 ≤ s.status → Delivered m s.status s.headers closed wire body →
      (closed = true → rest = []) → s.body = .data body → Replies ms rest l → Replies (m :: ms) (c ++ (wire ++ rest)) (s :: l)

/-- One side of an exchange: lines that its program puts in front, the octets that carry the body, the body, and one signer. -/
structure Side where
  extra : Headers
  wire : Bytes
  body : Bytes
  params : SigParams
  key : SigningKey
  name : Option Str
  checks : VerifyingKey
  now : UInt64

/-- One exchange: the request before it is signed, its signed lines, the request as the server reads it, the answers before, the text of the reason, the answer before
it is signed, its signed lines, and whether it ends with the connection. -/
structure Deal where
  client : Side
  server : Side
  ask : Request
  askLines : Headers
  got : Request
  hints : List (Bytes × Response)
  reason : Bytes
  answer : Response
  answerLines : Headers
  closed : Bool

namespace Deal

/-- The signed request and the signed answer. -/
def asked (d : Deal) : Request := { d.ask with headers := d.askLines }
def answered (d : Deal) : Response := { d.answer with headers := d.answerLines }

/-- What the client writes, and what the server writes. -/
def there (d : Deal) : Bytes := written d.client.extra d.asked ++ d.client.wire
def back (d : Deal) : Bytes := (d.hints.flatMap fun x => writtenRes x.1 [] x.2) ++ (writtenRes d.reason d.server.extra d.answered ++ d.server.wire)

end Deal

end Verif.Http1
