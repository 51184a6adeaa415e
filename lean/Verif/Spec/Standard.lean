import Verif.Spec.Deploy
import Verif.Spec.Value
/-!
A sender that only signs what every program that follows RFC 9421 reads in the same way, whatever that program knows about types of fields
and about the scheme of the connection. As `Spec/Guard.lean` this is not code of the repository but what a caller can write.
-/
namespace Verif.Guard
open Sfv Spec

/-- No letter in lower case. -/
def noLower (s : Str) : Bool := s.all fun c => !(decide ('a' ≤ c) && decide (c ≤ 'z'))

/-- No letter in upper case. -/
def noUpper (s : Str) : Bool := s.all fun c => !(decide ('A' ≤ c) && decide (c ≤ 'Z'))

def isBlank (c : Char) : Bool := c == ' ' || c == '\t'

/-- A line that is text and neither begins nor ends with a blank. -/
def trimmed (l : Bytes) : Bool :=
  match hvToStr l with
  | some t => !(t.head?.any isBlank) && !(t.getLast?.any isBlank)
  | none => false

/-- A text that form encoding leaves as it is: letters, digits, `*`, `-`, `.` and `_`. -/
def formPlain (s : Str) : Bool :=
  s.all fun c => (decide ('0' ≤ c) && decide (c ≤ '9')) || (decide ('A' ≤ c) && decide (c ≤ 'Z')) || (decide ('a' ≤ c) && decide (c ≤ 'z')) ||
    c == '*' || c == '-' || c == '.' || c == '_'

/-- A piece of a query: name, `=`, value. -/
def piecePlain (p : Str) : Bool := formPlain (p.takeWhile (· ≠ '=')) && formPlain ((p.dropWhile (· ≠ '=')).drop 1)

/-- The parameter is once in the query, and all pieces are plain. -/
def queryOnce (q : Str) : CParam → Bool
  | .name n => (pieces q).all piecePlain && ((pieces q).filter (fun p => p.takeWhile (· ≠ '=') == n)).length == 1
  | _ => false

/-- The ports that some program leaves out. Without a scheme in the request that is the matter of the connection. -/
def leftOut : Option Str → List Str
  | none => [c! ":80", c! ":443"]
  | some s => if s.map Char.toLower == c! "http" then [c! ":80"] else if s.map Char.toLower == c! "https" then [c! ":443"] else []

/-- A derived component of a request. -/
def stdRequest (r : Request) (ps : List CParam) : Derived → Bool
  | .method => noLower r.method
  | .targetUri => r.uri.scheme.isSome && r.uri.authority.isSome
  | .scheme => r.uri.scheme.isSome && r.uri.authority.isSome
  | .authority => r.uri.authority.any fun a => !a.contains '@' && (leftOut r.uri.scheme).all fun p => !p.isSuffixOf a
  | .path => true
  | .query => true
  | .requestTarget =>
    r.uri.scheme.isNone && (if r.method == c! "CONNECT" then r.uri.authority.isSome else r.uri.authority.isNone) &&
      (r.method != c! "OPTIONS" || (r.uri.pathData == c! "*" && r.uri.query.isNone)) &&
      (match r.uri.pathData.head? with | some c => c == '/' || c == '*' | none => true)
  | .queryParam => ps.any (queryOnce (r.uri.query.getD []))
  | .status => false
  | .signatureParams => false

/-- A component of this message: a field, or a derived component. -/
def stdIn (m : Msg) (i : CId) : Bool :=
  match i.name, m with
  | .field f, m => i.params.all (· == .req) && noUpper f && !(m.headers.getAll f).isEmpty && (m.headers.getAll f).all trimmed
  | .derived d, .req r => stdRequest r i.params d
  | .derived d, .res _ => d == .status

/-- A component: with `req` it is one of the request that the response answers. -/
def standard (m : Msg) (rf : Option Request) (i : CId) : Bool :=
  if i.params.contains .req then (match m, rf with | .res _, some r => stdIn (.req r) i | _, _ => false) else stdIn m i

/-- The fields of the signatures themselves. -/
def notSelf (i : CId) : Bool :=
  i.params.contains .req || i.name != .field (c! "signature") && i.name != .field (c! "signature-input")

/-- The sender of `Spec/Deploy.lean` with this check on top. -/
def sendStandard (m : Msg) (l : List (SigParams × SigningKey × Option Str)) (rf : Option Request) : Headers × Res (Option HyperErr) Unit :=
  if l.all (fun x => x.1.covered.all fun i => standard m rf i && notSelf i) then send m l rf else (m.headers, .err none)

end Verif.Guard
