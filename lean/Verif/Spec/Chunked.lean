import Verif.Spec.Http1Stream
/-!
The chunked coding, RFC 9112 section 7.1, and connections whose requests have bodies of either kind. Nothing of it is code of the repository.
-/
namespace Verif.Http1

/-- `HEXDIG`, and its value. -/
def HexChar (c : Char) : Prop := Spec.Digit c ∨ ('a' ≤ c ∧ c ≤ 'f') ∨ ('A' ≤ c ∧ c ≤ 'F')

instance (c : Char) : Decidable (HexChar c) := by unfold HexChar Spec.Digit; infer_instance

def hexValue (c : Char) : Nat := if c.toNat ≤ 57 then c.toNat - 48 else if c.toNat ≤ 70 then c.toNat - 55 else c.toNat - 87

/-- `chunk-size`. -/
def ChunkSize (t : Str) (n : Nat) : Prop := t ≠ [] ∧ (∀ c ∈ t, HexChar c) ∧ n = t.foldl (fun a c => 16 * a + hexValue c) 0

/-- The size and extensions, which begin with a semicolon or a blank. -/
def ChunkLine (l : Bytes) (n : Nat) : Prop :=
  ∃ t ext, l = utf8 t ++ ext ∧ ChunkSize t n ∧ (∀ b ∈ ext.head?, b = 59 ∨ Ows b) ∧ ∀ b ∈ ext, ValueByte b

/-- `chunked-body`: chunks, the last one of size zero, and trailers. The second part is the body. -/
inductive Chunked : Bytes → Bytes → Prop where
  | last {l ls h} : ChunkLine l 0 → List.Forall₂ FieldLine ls h → Chunked (l ++ 13 :: 10 :: linesBytes ls) []
  | chunk {l data rest body} : ChunkLine l data.length → data ≠ [] → Chunked rest body → Chunked (l ++ 13 :: 10 :: (data ++ 13 :: 10 :: rest)) (data ++ body)

/-- With these lines, the octets `wire` carry this body. -/
def Carried (h : Headers) (wire body : Bytes) : Prop :=
  (BodyLength h wire.length ∧ wire = body) ∨
  (Wire.linesOf h (c! "content-length") = [] ∧ (∃ t : Str, Wire.linesOf h (c! "transfer-encoding") = [utf8 t] ∧ t.map Char.toLower = c! "chunked") ∧ Chunked wire body)

/-- The octets are these requests, each with its body, and nothing after them. -/
inductive Stream : Bytes → List Request → Prop where
  | nil : Stream [] []
  | cons {c wire rest body r l} : Head c r.method r.uri r.headers → r.body = .data body → Carried r.headers wire body → Stream rest l →
      Stream (c ++ (wire ++ rest)) (r :: l)

/-- A request that a client signs and sends, with the octets that carry its body. -/
structure Sending extends Outgoing where
  wire : Bytes

/-- What is written. -/
def Sending.octets (s : Sending) : Bytes := written s.extra s.signed ++ s.wire

/-- How a client cuts a body into chunks, with the sizes in hexadecimal and no trailers. -/
def chunks : List Bytes → Bytes
  | [] => utf8 (c! "0\r\n\r\n")
  | d :: l => utf8 (Nat.toDigits 16 d.length) ++ 13 :: 10 :: (d ++ 13 :: 10 :: chunks l)

/-- The same request with other lines about how the body is carried. -/
structure Reframed (r r' : Request) : Prop where
  method : r'.method = r.method
  uri : r'.uri = r.uri
  body : r'.body = r.body
  fields : ∀ f : Str, f.map Char.toLower ∉ [c! "transfer-encoding", c! "content-length"] → Wire.linesOf r'.headers f = Wire.linesOf r.headers f

end Verif.Http1
