import Verif.Model.Hyper
import Verif.Spec.Text
import Verif.Spec.Sfv
/-!
What the value of a component id is in a message, as a relation written from the English description (RFC 9421 section 2 as
far as the library follows it), not from the code. `HasValue` is the specification used by C08, C09, C22-C30.
-/
namespace Verif.Spec
open Sfv

/-- Legal header map: names are non-empty lower-case tokens. -/
def WfName (n : Str) : Prop := n ≠ [] ∧ n.length ≤ 65535 ∧ ∀ c ∈ n, isTchar c = true ∧ ¬ ('A' ≤ c ∧ c ≤ 'Z')
def WfHeaders (h : Headers) : Prop := ∀ kv ∈ h, WfName kv.1

/-- The lines of a field, in arrival order; names are compared without regard to letter case. -/
def fieldLines (h : Headers) (name : Str) : List Bytes := (h.filter (fun kv => lower kv.1 = lower name)).map Prod.snd

/-- The texts of the lines; there are none unless all lines are visible ASCII (or tabs). -/
def LineTexts (ls : List Bytes) (ts : List Str) : Prop := List.Forall₂ (fun l t => hvToStr l = some t) ls ts

/-- `t` is the canonical form of the field line `v`: the serialization of the list it is, or else of the dictionary it is. An
empty list or dictionary has none. -/
def Canon (v t : Str) : Prop :=
  (∃ l, parseList v = some l ∧ serList l = some t) ∨
  (parseList v = none ∧ ∃ d, parseDict v = some d ∧ serDict d = some t)

/-- Selection of a member: every line is a dictionary; `out` are the canonical forms of the members with this key. -/
def Members (k : Str) (vs out : List Str) : Prop :=
  ∃ ds : List Dict, List.Forall₂ (fun v d => parseDict v = some d) vs ds ∧
    out = ds.filterMap (fun d => (d.lookup k).map serEntry)

/-- The parameters are applied from left to right; `bs` and `tr` are not supported by the library. -/
inductive Applied : List CParam → List Str → List Str → Prop where
  | done (vs) : Applied [] vs vs
  | req {ps vs out} : Applied ps vs out → Applied (.req :: ps) vs out
  | sf {ps vs mid out} : List.Forall₂ Canon vs mid → Applied ps mid out → Applied (.sf :: ps) vs out
  | key {k ps vs mid out} : Members k vs mid → Applied ps mid out → Applied (.key k :: ps) vs out

/-- Value of a field component. -/
def FieldValue (h : Headers) (name : Str) (ps : List CParam) (v : Str) : Prop :=
  ∃ ts out, LineTexts (fieldLines h name) ts ∧ Applied ps ts out ∧ v = join (c! ", ") out

/-- Non-empty pieces of a query. -/
def pieces (q : Str) : List Str := (splitOn '&' q).filter (· ≠ [])

/-- Values of the query parameters called `name`: the pieces `name=value`. -/
def queryValues (name : Str) (ps : List Str) : List Str :=
  ps.filterMap (fun p => if (name ++ ['=']).isPrefixOf p ∧ '=' ∉ name then some (p.drop (name.length + 1)) else none)

/-- Value of a derived component of a request. -/
def RequestValue (r : Request) (d : Derived) (ps : List CParam) (v : Str) : Prop :=
  match d with
  | .method => v = r.method.map Char.toUpper
  | .targetUri => v = r.uri.toStr
  | .authority => v = (r.uri.authority.getD []).map Char.toLower
  | .scheme => v = (r.uri.scheme.getD []).map Char.toLower
  | .requestTarget =>
    v = if r.method = c! "CONNECT" then r.uri.authority.getD []
        else if r.method = c! "OPTIONS" then c! "*"
        else r.uri.pathAndQuery.getD []
  | .path => v = if r.uri.path = [] then c! "/" else r.uri.path
  | .query => v = '?' :: r.uri.query.getD []
  | .queryParam => ∃ n, ps.findSome? CParam.nameOf = some n ∧ pieces (r.uri.query.getD []) ≠ [] ∧
      v = join (c! ", ") (queryValues n (pieces (r.uri.query.getD [])))
  | .status => False
  | .signatureParams => SigParamsValue r.headers v
where
  /-- The text after the first `=` of the first Signature-Input line. -/
  SigParamsValue (h : Headers) (v : Str) : Prop :=
    ∃ l t k, (fieldLines h (c! "signature-input")).head? = some l ∧ (hvToStr l = some t ∨ (hvToStr l = none ∧ t = [])) ∧
      trim t = k ++ '=' :: v ∧ '=' ∉ k

/-- Value of a derived component of a response. -/
def ResponseValue (r : Response) (d : Derived) (v : Str) : Prop :=
  match d with
  | .status => v = natStr r.status
  | .signatureParams => RequestValue.SigParamsValue r.headers v
  | _ => False

/-- Parameters a derived component may have: `req`, and `name` on `@query-param`. -/
def DerivedParams (d : Derived) (ps : List CParam) : Prop :=
  ∀ p ∈ ps, p = .req ∨ (d = .queryParam ∧ ∃ n, p = .name n)

/-- Value of a component id taken from one message. -/
def ValueIn (m : Msg) (i : CId) (v : Str) : Prop :=
  match i.name, m with
  | .field f, m => FieldValue m.headers f i.params v
  | .derived d, .req r => DerivedParams d i.params ∧ RequestValue r d i.params v
  | .derived d, .res r => i.params = [] ∧ ResponseValue r d v

/-- Value of a component id for a message: an id with `req` belongs to a response and is taken from its request. -/
def HasValue (m : Msg) (rf : Option Request) (i : CId) (v : Str) : Prop :=
  if CParam.req ∈ i.params then ∃ s r, m = .res s ∧ rf = some r ∧ ValueIn (.req r) i v
  else ValueIn m i v

/-- The signature base as RFC 9421 section 2.5 describes it, from the covered ids with their values and the parameters line. -/
def baseText (ids : List CId) (vs : List Str) (params : Str) : Str :=
  (List.zipWith (fun i v => i.disp ++ c! ": " ++ v ++ c! "\n") ids vs).flatten ++ c! "\"@signature-params\": " ++ params

end Verif.Spec
