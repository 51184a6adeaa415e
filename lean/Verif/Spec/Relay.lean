import Verif.Spec.Arrival
/-!
A request that was signed for one server and is sent to another, by somebody in between who may set Host. A server either verifies the request as it came, or first
puts its own scheme and name into the URI (`Arrival.restored`).
-/
namespace Verif.Relay

/-- `r'` is `r` with another value in Host. -/
structure Redirected (host : Str) (r r' : Request) : Prop where
  method : r'.method = r.method
  uri : r'.uri = r.uri
  fields : ∀ f : Str, f.map Char.toLower ≠ c! "host" → Wire.linesOf r'.headers f = Wire.linesOf r.headers f
  host : Wire.linesOf r'.headers (c! "host") = [utf8 host]

/-- The identifier is one of the field Host. -/
def OfHost (i : CId) : Prop := ∃ f, i.name = .field f ∧ f.map Char.toLower = c! "host"

/-- A name as it can stand in Host: printable ASCII. -/
def HostName (a : Str) : Prop := ∀ c ∈ a, 32 ≤ c.toNat ∧ c.toNat ≤ 126

/-- What is covered does not tell the server `s' :// b` from `s :// a`. -/
def Matches (s a s' b : Str) (i : CId) : Prop :=
  (i.name = .derived .authority → a.map Char.toLower = b.map Char.toLower) ∧
  (i.name = .derived .scheme → s.map Char.toLower = s'.map Char.toLower) ∧
  (i.name = .derived .targetUri → s ++ c! "://" ++ a = s' ++ c! "://" ++ b)

end Verif.Relay
