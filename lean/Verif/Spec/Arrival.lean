import Verif.Spec.Wire
/-!
A request on its way over HTTP/1.1. The client has it with an absolute URI. The request line holds path and query only (RFC 9112 section 3.2.1), the authority goes
into the field Host, and the scheme is not sent. The server has the request with what was in the request line as its URI. It is not code of the repository; it says
how hyper makes requests on the two sides.
-/
namespace Verif.Arrival

/-- A URI as a client needs it to send a request, with scheme and authority. -/
structure Absolute (u : Uri) : Prop where
  scheme : ∃ s, u.scheme = some s ∧ s ≠ []
  authority : ∃ a, u.authority = some a ∧ a ≠ []

/-- What the server has of the client's URI. -/
def originForm (u : Uri) : Uri := ⟨none, none, if u.pathData = [] then c! "/" else u.pathData, u.query⟩

/-- `r'` is what the server has of the request `r`. Lines of the names in `added` may have been added or changed on the way, such as Host. -/
structure Arrives (added : List Str) (r r' : Request) : Prop where
  method : r'.method = r.method
  uri : r'.uri = originForm r.uri
  fields : ∀ f : Str, f.map Char.toLower ∉ added → Wire.linesOf r'.headers f = Wire.linesOf r.headers f

/-- Components that are taken from the scheme and the authority. -/
def Lost (i : CId) : Prop := i.name = .derived .authority ∨ i.name = .derived .scheme ∨ i.name = .derived .targetUri

/-- Components that do not depend on lines of these names. -/
def Clear (added : List Str) (i : CId) : Prop :=
  (∀ f, i.name = .field f → f.map Char.toLower ∉ added) ∧ (i.name = .derived .signatureParams → c! "signature-input" ∉ added)

/-- The signature lines are not among the changed ones. -/
def Untouched (added : List Str) : Prop := c! "signature-input" ∉ added ∧ c! "signature" ∉ added

/-- A server that knows its scheme and puts it and the authority back. -/
def restored (s a : Str) (r : Request) : Request := { r with uri := { r.uri with scheme := some s, authority := some a } }

/-- The component is lost: it is one of the request, or one of a response that is taken from its request. -/
def LostIn (m : Msg) (i : CId) : Prop := Lost i ∧ ((∃ r, m = .req r) ∨ CParam.req ∈ i.params)

/-- The two sides of an exchange: a request that the client sends and the server gets, or a response whose request this is. -/
inductive TwoSides (added : List Str) : Msg → Option Request → Msg → Option Request → Prop where
  | request {r r' : Request} : Arrives added r r' → Absolute r.uri → r.method ≠ c! "CONNECT" → TwoSides added (.req r) none (.req r') none
  | response {r r' : Request} (s : Response) : Arrives added r r' → Absolute r.uri → r.method ≠ c! "CONNECT" → TwoSides added (.res s) (some r) (.res s) (some r')

end Verif.Arrival
