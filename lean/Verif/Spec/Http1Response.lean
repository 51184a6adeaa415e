import Verif.Spec.Http1
/-!
The head of an HTTP/1.1 response as octets, RFC 9112 section 4, and how a server writes a response. Nothing of it is code of the repository.
-/
namespace Verif.Http1

/-- `HTTP-version SP status-code SP [ reason-phrase ] CRLF` and the lines. -/
def statusBytes (status : Nat) (reason : Bytes) (ls : List Bytes) : Bytes :=
  utf8 (c! "HTTP/1.1") ++ 32 :: (utf8 (Spec.decimal status) ++ 32 :: (reason ++ 13 :: 10 :: linesBytes ls))

/-- The status has three digits. -/
def Status (n : Nat) : Prop := 100 ≤ n ∧ n ≤ 999

/-- The octets `b` are the head of a response with this status and these header lines. The text of the reason means nothing. -/
def ResHead (b : Bytes) (status : Nat) (h : Headers) : Prop :=
  ∃ reason ls, b = statusBytes status reason ls ∧ Status status ∧ (∀ c ∈ reason, ValueByte c) ∧ List.Forall₂ FieldLine ls h

/-- What a server writes. It puts further lines in front, such as Date. -/
def writtenRes (reason : Bytes) (extra : Headers) (s : Response) : Bytes :=
  statusBytes s.status reason ((extra ++ s.headers).map fun kv => utf8 kv.1 ++ 58 :: 32 :: kv.2)

/-- A client reads `s'` from a stream that starts with the octets `b`. -/
def ReadsRes (b : Bytes) (s' : Response) : Prop := ∃ c rest, ResHead c s'.status s'.headers ∧ c ++ rest = b

end Verif.Http1
