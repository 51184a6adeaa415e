import Verif.Spec.Http2
import Verif.Spec.Http1Answers
import Verif.Spec.Frames
/-!
A connection of HTTP/2 with many streams: RFC 9113 sections 5.1 and 8.1. Left out: the packing of field lines and their frames, flow control, resets, pushed answers
and CONNECT. Nothing of it is code of the repository.
-/
namespace Verif.Http2
open Http1

/-- What comes on a stream: a list of field lines, or octets of the body. -/
inductive Piece where
  | fields (h : Headers)
  | data (b : Bytes)
  deriving DecidableEq

/-- A piece on the connection, with its stream and whether it is the last one of this stream. -/
structure Event where
  stream : Nat
  piece : Piece
  last : Bool
  deriving DecidableEq

/-- What comes on one stream. -/
def on (n : Nat) (c : List Event) : List (Piece × Bool) := (c.filter (·.stream = n)).map fun e => (e.piece, e.last)

/-- The rest of a stream after field lines: the body in pieces, and perhaps trailers. The first argument is whether the piece before was the last one. -/
inductive Rest : Bool → List (Piece × Bool) → Bytes → Prop where
  | ended : Rest true [] []
  | data {d e p b} : Rest e p b → Rest false ((.data d, e) :: p) (d ++ b)
  | trailers {h} : (∀ kv ∈ h, Line kv) → Rest false [(.fields h, true)] []

/-- Section 8.1.1: the length that the lines say is the length of the body. -/
def LengthFits (h : Headers) (body : Bytes) : Prop := ∀ v ∈ Wire.linesOf h (c! "content-length"), ∃ t, v = utf8 t ∧ Number t body.length

/-- A server reads these pieces of a stream as this request. -/
def Asked (p : List (Piece × Bool)) (r : Request) : Prop :=
  ∃ fs e q body, p = (.fields fs, e) :: q ∧ ReqFields fs r ∧ Rest e q body ∧ LengthFits r.headers body ∧ r.body = .data body

/-- A client reads the pieces of a stream as this answer to a request with this method. -/
inductive Told (method : Str) : List (Piece × Bool) → Response → Prop where
  | interim {fs s0 p s} : ResFields fs s0 → Interim s0.status → Told method p s → Told method ((.fields fs, false) :: p) s
  | final {fs e q body s} : ResFields fs s → 200 ≤ s.status → Rest e q body → ((NoBody method s.status ∧ body = []) ∨ (¬ NoBody method s.status ∧ LengthFits s.headers body)) →
      s.body = .data body → Told method ((.fields fs, e) :: q) s

/-- The streams are mixed on the connection: the next piece is the next one of some stream. -/
inductive Mixed : List (Nat × List (Piece × Bool)) → List Event → Prop where
  | nil {l} : (∀ x ∈ l, x.2 = []) → Mixed l []
  | next {l l' n q p c} : Mixed (l ++ (n, p) :: l') c → Mixed (l ++ (n, q :: p) :: l') (⟨n, q.1, q.2⟩ :: c)

/-- The body as the program gets it: the pieces in their order, between which it may have to wait. -/
inductive Polled : List (Piece × Bool) → Verif.Stream → Prop where
  | nil : Polled [] []
  | wait {p s} : Polled p s → Polled p (.pending :: s)
  | data {d e p s} : Polled p s → Polled ((.data d, e) :: p) (.frame (.data d) :: s)
  | trailers {h e p s} : Polled p s → Polled ((.fields h, e) :: p) (.frame (.trailers h) :: s)

end Verif.Http2
