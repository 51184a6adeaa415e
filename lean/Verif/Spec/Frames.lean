import Verif.Model.Frames
/-! What a stream of frames carries, said without the collecting code. -/
namespace Verif.Spec

/-- The data of one answer of the body. -/
def dataOf : BodyPoll → Bytes
  | .frame (.data b) => b
  | _ => []

/-- All data of a body in order. -/
def content (s : Stream) : Bytes := s.flatMap dataOf

/-- How often the body makes its reader wait. -/
def waits (s : Stream) : Nat := s.count .pending

/-- The body without trailers and waiting. -/
def NoTrailers (s : Stream) : Prop := ∀ h, BodyPoll.frame (.trailers h) ∉ s

/-- The body of the frame-free model. -/
def asBody (s : Stream) : Body := if BodyPoll.error ∈ s then .fail else .data (content s)

end Verif.Spec
