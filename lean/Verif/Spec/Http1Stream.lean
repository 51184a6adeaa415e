import Verif.Spec.Http1
import Verif.Spec.Sign
/-!
Requests one after the other on a connection: RFC 9112 section 6.3, as far as lengths are given by Content-Length. Nothing of it is code of the repository.
Left out: Transfer-Encoding. A request with such a line is not in a stream here.
-/
namespace Verif.Http1

/-- `1*DIGIT` and its value. -/
def Number (t : Str) (n : Nat) : Prop := t ≠ [] ∧ (∀ c ∈ t, Spec.Digit c) ∧ n = t.foldl (fun a c => 10 * a + (c.toNat - 48)) 0

/-- How long the body of a request with these lines is. -/
def BodyLength (h : Headers) (n : Nat) : Prop :=
  Wire.linesOf h (c! "transfer-encoding") = [] ∧
  ((Wire.linesOf h (c! "content-length") = [] ∧ n = 0) ∨ ∃ t, Wire.linesOf h (c! "content-length") = [utf8 t] ∧ Number t n)

/-- The octets are these requests, each with its body, and nothing after them. -/
inductive Requests : Bytes → List Request → Prop where
  | nil : Requests [] []
  | cons {c rest body r l} : Head c r.method r.uri r.headers → r.body = .data body → BodyLength r.headers body.length → Requests rest l →
      Requests (c ++ (body ++ rest)) (r :: l)

/-- A request that a client signs and sends: the lines that its program puts in front, the request before it is signed, its body, and the lines after. -/
structure Outgoing where
  extra : Headers
  before : Request
  body : Bytes
  signers : List Spec.Signer
  lines : Headers

namespace Outgoing

/-- The signed request. -/
def signed (s : Outgoing) : Request := { s.before with headers := s.lines }

/-- What is written. -/
def octets (s : Outgoing) : Bytes := written s.extra s.signed ++ s.body

end Outgoing

end Verif.Http1
