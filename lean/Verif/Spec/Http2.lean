import Verif.Spec.Http1Response
/-!
Requests and responses as lists of field lines, as HTTP/2 and HTTP/3 carry them: RFC 9113 sections 8.2 and 8.3. Frames and the packing of field lines are left out;
they give the list back as it was. Nothing of it is code of the repository.
-/
namespace Verif.Http2
open Http1

/-- Fields that belong to one connection, RFC 9113 section 8.2.2. They are not sent, and a message with one of them is malformed. -/
def connectionNames : List Str := [c! "connection", c! "proxy-connection", c! "keep-alive", c! "transfer-encoding", c! "upgrade"]

/-- A field line of a message that is not malformed, section 8.2.1. -/
structure Line (kv : Str × Bytes) : Prop where
  token : Token kv.1
  lower : kv.1.map Char.toLower = kv.1
  connection : kv.1 ∉ connectionNames
  value : ∀ b ∈ kv.2, ValueByte b
  outer : NoOuter kv.2

/-- The control data of a request, section 8.3.1. -/
def reqControl (method scheme authority path : Str) : Headers :=
  [(c! ":method", utf8 method), (c! ":scheme", utf8 scheme), (c! ":authority", utf8 authority), (c! ":path", utf8 path)]

/-- The list `fs` is that of the request `r`. The control data comes first, in any order. -/
def ReqFields (fs : Headers) (r : Request) : Prop :=
  ∃ ctl s a t u, fs = ctl ++ r.headers ∧ ctl.Perm (reqControl r.method s a t) ∧ Token r.method ∧ OriginTarget t u ∧
    r.uri = { u with scheme := some s, authority := some a } ∧ ∀ kv ∈ r.headers, Line kv

/-- The list `fs` is that of the response `s`, section 8.3.2. -/
def ResFields (fs : Headers) (s : Response) : Prop :=
  fs = (c! ":status", utf8 (Spec.decimal s.status)) :: s.headers ∧ Status s.status ∧ ∀ kv ∈ s.headers, Line kv

/-- How the lines of a message are sent: those of the connection are left out, and a line Cookie may be cut, section 8.2.3,
where no further blank stands. -/
inductive Lines : Headers → Headers → Prop where
  | nil : Lines [] []
  | keep {kv h h'} : kv.1 ∉ connectionNames → Lines h h' → Lines (kv :: h) (kv :: h')
  | drop {kv h h'} : kv.1 ∈ connectionNames → Lines h h' → Lines (kv :: h) h'
  | cut {a b : Bytes} {h h'} : NoOuter a → NoOuter b → Lines ((c! "cookie", a) :: (c! "cookie", b) :: h) h' → Lines ((c! "cookie", a ++ 59 :: 32 :: b) :: h) h'

/-- The client sends the request `r` as `fs`, with further lines `extra`. -/
def SentAs (extra : Headers) (r : Request) (fs : Headers) : Prop :=
  ∃ ctl s a h', r.uri.scheme = some s ∧ r.uri.authority = some a ∧ Lines r.headers h' ∧
    ctl.Perm (reqControl r.method s a ((Arrival.originForm r.uri).pathData ++ Wire.queryText r.uri)) ∧ fs = ctl ++ (extra ++ h')

/-- The server sends the response `s` as `fs`, with further lines `extra`. -/
def AnsweredAs (extra : Headers) (s : Response) (fs : Headers) : Prop :=
  ∃ h', Lines s.headers h' ∧ fs = (c! ":status", utf8 (Spec.decimal s.status)) :: (extra ++ h')

/-- Names whose lines may differ after the way. -/
def changed2 (extra : Headers) : List Str := c! "cookie" :: connectionNames ++ extra.map Prod.fst

end Verif.Http2
