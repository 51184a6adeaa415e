import Verif.Spec.Http1Response
import Verif.Spec.Http1Stream
/-!
Answers one after the other on a connection: RFC 9112 section 6.3. Nothing of it is code of the repository.
Left out: Transfer-Encoding, CONNECT, and a change of the protocol (status 101).
-/
namespace Verif.Http1

/-- Answers that have no body whatever their lines say. -/
def NoBody (method : Str) (status : Nat) : Prop := method = c! "HEAD" ∨ status = 204 ∨ status = 304

instance (m : Str) (n : Nat) : Decidable (NoBody m n) := by unfold NoBody; infer_instance

/-- How long the body of an answer is; `none` is until the connection is closed. -/
def Framing (method : Str) (status : Nat) (h : Headers) (k : Option Nat) : Prop :=
  (NoBody method status ∧ k = some 0) ∨
  (¬ NoBody method status ∧ Wire.linesOf h (c! "transfer-encoding") = [] ∧
    ((Wire.linesOf h (c! "content-length") = [] ∧ k = none) ∨ ∃ t n, Wire.linesOf h (c! "content-length") = [utf8 t] ∧ Number t n ∧ k = some n))

/-- Answers that come before the answer, such as `103`. -/
def Interim (n : Nat) : Prop := n < 200 ∧ n ≠ 101

/-- A client that sent requests with these methods reads the octets as these answers. -/
inductive Answers : List Str → Bytes → List Response → Prop where
  | nil {ms} : Answers ms [] []
  | interim {m ms c rest n h l} : ResHead c n h → Interim n → Answers (m :: ms) rest l → Answers (m :: ms) (c ++ rest) l
  | answer {m ms c body rest s k l} : ResHead c s.status s.headers → 200 ≤ s.status → Framing m s.status s.headers k → (∀ n, k = some n → body.length = n) →
      (k = none → rest = []) → s.body = .data body → Answers ms rest l → Answers (m :: ms) (c ++ (body ++ rest)) (s :: l)

/-- An answer that a server signs and sends: the method of the request, the request as the server has it, the answers before, the text of the reason, the lines that
its program puts in front, the answer before it is signed, the octets of the body, how they end, the signers and the lines after. -/
structure Reply where
  method : Str
  got : Request
  hints : List (Bytes × Response)
  reason : Bytes
  extra : Headers
  before : Response
  body : Bytes
  length : Option Nat
  signers : List Spec.Signer
  lines : Headers

namespace Reply

/-- The signed answer. -/
def signed (a : Reply) : Response := { a.before with headers := a.lines }

/-- What is written. -/
def octets (a : Reply) : Bytes := (a.hints.flatMap fun x => writtenRes x.1 [] x.2) ++ (writtenRes a.reason a.extra a.signed ++ a.body)

end Reply

end Verif.Http1
