import Verif.Spec.Arrival
import Verif.Spec.Grammar
/-!
The head of an HTTP/1.1 request as octets: RFC 9112 sections 2.1, 3 and 5 as a grammar, and how a client writes a request. Nothing of it is code of the repository.
Left out: the absolute form, the authority form and the asterisk form of the target, other versions, and bare LF as the end of a line.
-/
namespace Verif.Http1

/-- `tchar`, RFC 9110 section 5.6.2. -/
def TChar (c : Char) : Prop := Grammar.Alpha c ∨ Spec.Digit c ∨ c ∈ c! "!#$%&'*+-.^_`|~"

/-- `token`. -/
def Token (s : Str) : Prop := s ≠ [] ∧ ∀ c ∈ s, TChar c

/-- A blank of `OWS`. -/
def Ows (b : UInt8) : Prop := b = 32 ∨ b = 9

instance (b : UInt8) : Decidable (Ows b) := by unfold Ows; infer_instance

/-- Octets of a field value: no control characters but the tab. -/
def ValueByte (b : UInt8) : Prop := b.toNat = 9 ∨ (32 ≤ b.toNat ∧ b.toNat ≠ 127)

/-- No blank at either end. -/
def NoOuter (v : Bytes) : Prop := (∀ b ∈ v.head?, ¬ Ows b) ∧ ∀ b ∈ v.getLast?, ¬ Ows b

instance (v : Bytes) : Decidable (NoOuter v) := by unfold NoOuter; infer_instance

/-- `w` is `v` without the blanks at its ends. -/
def Stripped (v w : Bytes) : Prop := ∃ x y, v = x ++ w ++ y ∧ (∀ b ∈ x, Ows b) ∧ (∀ b ∈ y, Ows b) ∧ NoOuter w

/-- `field-line = field-name ":" OWS field-value OWS`. Names are kept in lower case. -/
inductive FieldLine : Bytes → Str × Bytes → Prop where
  | mk {name v w} : Token name → (∀ b ∈ v, ValueByte b) → Stripped v w → FieldLine (utf8 name ++ 58 :: v) (name.map Char.toLower, w)

/-- Lines, each with CRLF at its end, and the empty line. -/
def linesBytes : List Bytes → Bytes
  | [] => [13, 10]
  | l :: ls => l ++ 13 :: 10 :: linesBytes ls

/-- `method SP request-target SP HTTP-version CRLF` and the lines. -/
def headBytes (method target : Str) (ls : List Bytes) : Bytes :=
  utf8 method ++ 32 :: (utf8 target ++ 32 :: (utf8 (c! "HTTP/1.1") ++ 13 :: 10 :: linesBytes ls))

/-- A character of a request target. -/
def Visible (c : Char) : Prop := 33 ≤ c.toNat ∧ c.toNat ≤ 126

/-- `origin-form = absolute-path [ "?" query ]`. -/
structure OriginTarget (t : Str) (u : Uri) : Prop where
  scheme : u.scheme = none
  authority : u.authority = none
  text : t = u.pathData ++ Wire.queryText u
  slash : u.pathData.head? = some '/'
  mark : '?' ∉ u.pathData
  chars : ∀ c ∈ t, Visible c

/-- The octets `b` are the head of a request with this method, URI and header lines. -/
def Head (b : Bytes) (method : Str) (u : Uri) (h : Headers) : Prop :=
  ∃ t ls, b = headBytes method t ls ∧ Token method ∧ OriginTarget t u ∧ List.Forall₂ FieldLine ls h

/-- What can be sent. -/
structure Sendable (r : Request) : Prop where
  method : Token r.method
  path : r.uri.pathData = [] ∨ r.uri.pathData.head? = some '/'
  mark : '?' ∉ r.uri.pathData
  pathChars : ∀ c ∈ r.uri.pathData, Visible c
  queryChars : ∀ q, r.uri.query = some q → ∀ c ∈ q, Visible c

/-- Lines that can be sent. -/
def SendableLines (h : Headers) : Prop := ∀ kv ∈ h, ∀ b ∈ kv.2, ValueByte b

/-- What a client writes. It puts further lines in front, such as Host. -/
def written (extra : Headers) (r : Request) : Bytes :=
  headBytes r.method ((Arrival.originForm r.uri).pathData ++ Wire.queryText r.uri) ((extra ++ r.headers).map fun kv => utf8 kv.1 ++ 58 :: 32 :: kv.2)

/-- Names whose lines are not the same after the way: those of the lines that the client put in front, and those of lines with blanks at an end. -/
def changed (extra h : Headers) : List Str := (extra ++ h.filter (fun kv => ¬ NoOuter kv.2)).map Prod.fst

/-- A server reads `r'` from a stream that starts with the octets `b`. -/
def Reads (b : Bytes) (r' : Request) : Prop := ∃ c rest, Head c r'.method r'.uri r'.headers ∧ c ++ rest = b

end Verif.Http1
