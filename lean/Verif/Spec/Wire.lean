import Verif.Model.Hyper
import Verif.Spec.Canonical
import Verif.Spec.Layout
import Verif.Spec.Safe
/-!
Verification of a message from its bytes: what the two signature fields say, what the covered components are worth, which text was
signed, and when a message is accepted. Everything is a relation between texts and values, built on the grammar of structured
fields. From the model only the data types are used (messages, ids, signature parameters), and the `verify` operation of a key.

Where the library differs from RFC 9421 the relations follow the library; `Spec/Rfc9421.lean` is the RFC.
-/
namespace Verif.Wire
open Sfv Spec Grammar

/-! ### Text -/

/-- Characters with the Unicode property White_Space. -/
def Blank (c : Char) : Prop :=
  c.toNat ∈ [0x9, 0xA, 0xB, 0xC, 0xD, 0x20, 0x85, 0xA0, 0x1680, 0x2000, 0x2001, 0x2002, 0x2003, 0x2004, 0x2005, 0x2006, 0x2007, 0x2008,
    0x2009, 0x200A, 0x2028, 0x2029, 0x202F, 0x205F, 0x3000]

/-- `v` is `s` without the white space around it. -/
def Trimmed (s v : Str) : Prop :=
  ∃ a b, s = a ++ v ++ b ∧ (∀ c ∈ a, Blank c) ∧ (∀ c ∈ b, Blank c) ∧
    (∀ c, v.head? = some c → ¬ Blank c) ∧ ∀ c, v.getLast? = some c → ¬ Blank c

/-- A header line as text: printable ASCII and tabs only. -/
def LineText (l : Bytes) (t : Str) : Prop :=
  (∀ b ∈ l, b.toNat = 9 ∨ (32 ≤ b.toNat ∧ b.toNat ≤ 126)) ∧ t.map Char.toNat = l.map UInt8.toNat

/-- The lines of a field, in order; letter case does not matter in names. -/
def linesOf (h : Headers) (name : Str) : List Bytes :=
  (h.filter (fun kv => kv.1.map Char.toLower = name.map Char.toLower)).map Prod.snd

def LinesText (h : Headers) (name : Str) (ts : List Str) : Prop := List.Forall₂ LineText (linesOf h name) ts

/-- Texts with a comma and a space between them. -/
def commas (ts : List Str) : Str := List.intercalate (c! ", ") ts

/-! ### Component identifiers -/

/-- The parameters of an identifier. The value of a flag does not matter. -/
inductive ParamOf : Str × Bare → CParam → Prop where
  | sf {v} : ParamOf (c! "sf", v) .sf
  | bs {v} : ParamOf (c! "bs", v) .bs
  | tr {v} : ParamOf (c! "tr", v) .tr
  | req {v} : ParamOf (c! "req", v) .req
  | key {s} : ParamOf (c! "key", .str s) (.key s)
  | name {s} : ParamOf (c! "name", .str s) (.name s)

inductive NameOf : Str → CName → Prop where
  | field {f} : f.head? ≠ some '@' → NameOf f (.field f)
  | derived {d} : NameOf (derivedText d).toList (.derived d)

/-- Where a parameter may stand. -/
def Allowed (n : CName) : CParam → Prop
  | .req => True
  | .name _ => n = .derived .queryParam
  | .sf | .bs | .tr | .key _ => ∃ f, n = .field f

/-- The identifier that a string item is. -/
def IdOf (it : Item) (i : CId) : Prop :=
  ∃ n, it.bare = .str n ∧ NameOf n i.name ∧ List.Forall₂ ParamOf it.params i.params ∧ ∀ p ∈ i.params, Allowed i.name p

/-- The identifier that a text is; a text without quotes is put between quotes. -/
def IdText (s : Str) (i : CId) : Prop :=
  ∃ v it, Trimmed s v ∧ (('"' ∈ v ∧ ItemFieldText it v) ∨ (v ≠ [] ∧ '"' ∉ v ∧ ItemFieldText it (quoted v))) ∧ IdOf it i

/-- The identifier that an item of Signature-Input is. An item that is no string counts as a field named by its text, unless the
text holds a quote or starts with `@`. -/
def CoveredId (it : Item) (i : CId) : Prop :=
  IdOf it i ∨ ((∀ n, it.bare ≠ .str n) ∧ ∃ t, CanonItem it t ∧ '"' ∉ t ∧ t.head? ≠ some '@' ∧ i = ⟨.field t, []⟩)

/-! ### Signature parameters -/

/-- A time: the integer with this key, which is not negative. A value of another type counts as none. -/
def TimeOf (ps : Params) (k : Str) (o : Option UInt64) : Prop :=
  (∀ n : Int, (k, Bare.int n) ∈ ps → 0 ≤ n) ∧ ∀ t : UInt64, o = some t ↔ (k, Bare.int t.toNat) ∈ ps

/-- A text: the string with this key. -/
def TextOf (ps : Params) (k : Str) (o : Option Str) : Prop := ∀ s, o = some s ↔ (k, Bare.str s) ∈ ps

/-- The signature parameters that an inner list is. -/
structure ParamsOf (l : InnerList) (p : SigParams) : Prop where
  covered : List.Forall₂ CoveredId l.items p.covered
  distinct : p.covered.Pairwise (fun i j => ¬ (i.name = j.name ∧ i.params.Perm j.params))
  created : TimeOf l.params (c! "created") p.created
  expires : TimeOf l.params (c! "expires") p.expires
  nonce : TextOf l.params (c! "nonce") p.nonce
  alg : TextOf l.params (c! "alg") p.alg
  keyid : TextOf l.params (c! "keyid") p.keyid
  tag : TextOf l.params (c! "tag") p.tag

/-- The signature parameters that a text is. -/
def SigParamsText (s : Str) (p : SigParams) : Prop := ∃ l, ListText [.inner l] s ∧ ParamsOf l p

/-! ### The two header fields -/

/-- Signature (`a`) and Signature-Input (`b`) belong together and say `l`: they have the same labels, every signature is a byte
sequence, every input an inner list; the order is that of Signature-Input. -/
structure Agrees (a b : Dict) (l : List (Str × SigHeaders)) : Prop where
  labels : ∀ k, k ∈ a.map Prod.fst ↔ k ∈ b.map Prod.fst
  bytes : ∀ kv ∈ a, ∃ x ps, kv.2 = .item ⟨.bytes x, ps⟩
  order : List.Forall₂ (fun (kv : Str × Entry) (kh : Str × SigHeaders) =>
    kh.1 = kv.1 ∧ kh.2.name = kv.1 ∧ (∃ ps, (kv.1, .item ⟨.bytes kh.2.signature, ps⟩) ∈ a) ∧ ∃ il, kv.2 = .inner il ∧ ParamsOf il kh.2.params) b l

/-- Two texts, of Signature and of Signature-Input, say `l`. -/
def HeadersText (s t : Str) (l : List (Str × SigHeaders)) : Prop := ∃ a b, DictText a s ∧ DictText b t ∧ Agrees a b l

/-- The header lines say `l`. -/
def Carries (h : Headers) (l : List (Str × SigHeaders)) : Prop :=
  ∃ ts us, LinesText h (c! "signature-input") ts ∧ LinesText h (c! "signature") us ∧ ts ≠ [] ∧ us ≠ [] ∧
    HeadersText (commas us) (commas ts) l

/-! ### Values of components -/

/-- `sf`: the canonical text of the list that the line is, else of the dictionary that it is. -/
def Canon (v t : Str) : Prop :=
  (∃ l, ListText l v ∧ CanonList l t) ∨ ((¬ ∃ l, ListText l v) ∧ ∃ d, DictText d v ∧ CanonDict d t)

/-- `key`: the canonical texts of the members with this key, from the lines that have one. -/
inductive Members (k : Str) : List Str → List Str → Prop where
  | nil : Members k [] []
  | has {v vs d e t ts} : DictText d v → (k, e) ∈ d → CanonEntry e t → Members k vs ts → Members k (v :: vs) (t :: ts)
  | lacks {v vs d ts} : DictText d v → k ∉ d.map Prod.fst → Members k vs ts → Members k (v :: vs) ts

/-- The parameters from left to right. `bs` and `tr` are not implemented. -/
inductive Applied : List CParam → List Str → List Str → Prop where
  | done {vs} : Applied [] vs vs
  | req {ps vs out} : Applied ps vs out → Applied (.req :: ps) vs out
  | sf {ps vs mid out} : List.Forall₂ Canon vs mid → Applied ps mid out → Applied (.sf :: ps) vs out
  | key {k ps vs mid out} : Members k vs mid → Applied ps mid out → Applied (.key k :: ps) vs out

def FieldValue (h : Headers) (name : Str) (ps : List CParam) (v : Str) : Prop :=
  ∃ ts out, LinesText h name ts ∧ Applied ps ts out ∧ v = commas out

/-- The pieces of a query. -/
def Pieces (q : Str) (ps : List Str) : Prop := q = List.intercalate ['&'] ps ∧ ∀ p ∈ ps, '&' ∉ p

/-- The values of the pieces `n=value`. -/
inductive QueryValues (n : Str) : List Str → List Str → Prop where
  | nil : QueryValues n [] []
  | hit {v ps vs} : '=' ∉ n → QueryValues n ps vs → QueryValues n ((n ++ '=' :: v) :: ps) (v :: vs)
  | miss {p ps vs} : (∀ v, p = n ++ '=' :: v → '=' ∈ n) → QueryValues n ps vs → QueryValues n (p :: ps) vs

/-- `?` and the query, or nothing. -/
def queryText (u : Uri) : Str := match u.query with | some q => '?' :: q | none => []

/-- The text of a URI. The empty path is `/` if there is a scheme or a query. -/
def uriText (u : Uri) : Str :=
  (match u.scheme with | some s => s ++ c! "://" | none => []) ++ u.authority.getD [] ++
  (if u.pathData = [] ∧ (u.query ≠ none ∨ u.scheme ≠ none) then c! "/" else u.pathData) ++ queryText u

/-- The request target: the authority for CONNECT, `*` for OPTIONS, otherwise path and query with a `/` in front (nothing if the
URI is an authority). -/
def targetText (method : Str) (u : Uri) : Str :=
  if method = c! "CONNECT" then u.authority.getD []
  else if method = c! "OPTIONS" then c! "*"
  else if u.scheme = none ∧ u.authority ≠ none then []
  else if (u.pathData ++ queryText u).head? = some '/' ∨ (u.pathData ++ queryText u).head? = some '*' then u.pathData ++ queryText u
  else '/' :: (u.pathData ++ queryText u)

/-- `@signature-params`: what follows the first `=` of the first line of Signature-Input. A line that is no text gives none. -/
def SigParamsValue (h : Headers) (v : Str) : Prop :=
  ∃ l t k, (linesOf h (c! "signature-input")).head? = some l ∧ LineText l t ∧ Trimmed t (k ++ '=' :: v) ∧ '=' ∉ k

def RequestValue (r : Request) (d : Derived) (ps : List CParam) (v : Str) : Prop :=
  match d with
  | .method => v = r.method.map Char.toUpper
  | .targetUri => v = uriText r.uri
  | .authority => v = (r.uri.authority.getD []).map Char.toLower
  | .scheme => v = (r.uri.scheme.getD []).map Char.toLower
  | .requestTarget => v = targetText r.method r.uri
  | .path => v = if r.uri.pathData = [] then c! "/" else r.uri.pathData
  | .query => v = '?' :: r.uri.query.getD []
  | .queryParam => ∃ n l1 l2 pcs vs, ps = l1 ++ .name n :: l2 ∧ (∀ x, CParam.name x ∉ l1) ∧ Pieces (r.uri.query.getD []) pcs ∧
      (∃ p ∈ pcs, p ≠ []) ∧ QueryValues n pcs vs ∧ v = commas vs
  | .status => False
  | .signatureParams => SigParamsValue r.headers v

def ResponseValue (s : Response) (d : Derived) (v : Str) : Prop :=
  match d with
  | .status => v = decimal s.status
  | .signatureParams => SigParamsValue s.headers v
  | _ => False

/-- Value of an identifier in one message. -/
def ValueIn (m : Msg) (i : CId) (v : Str) : Prop :=
  match i.name, m with
  | .field f, .req r => FieldValue r.headers f i.params v
  | .field f, .res s => FieldValue s.headers f i.params v
  | .derived d, .req r => (∀ p ∈ i.params, p = .req ∨ (d = .queryParam ∧ ∃ n, p = .name n)) ∧ RequestValue r d i.params v
  | .derived d, .res s => i.params = [] ∧ ResponseValue s d v

/-- With `req` the value is that of the request that a response answers. -/
def HasValue (m : Msg) (rf : Option Request) (i : CId) (v : Str) : Prop :=
  (CParam.req ∉ i.params ∧ ValueIn m i v) ∨
  (CParam.req ∈ i.params ∧ ∃ s r, m = .res s ∧ rf = some r ∧ ValueIn (.req r) i v)

/-! ### The signed text and the decision -/

/-- The lines of the covered components and the line of the parameters. -/
inductive Lines (m : Msg) (rf : Option Request) : List CId → Str → Prop where
  | nil : Lines m rf [] []
  | cons {i is v t} : HasValue m rf i v → Lines m rf is t → Lines m rf (i :: is) (idText i ++ c! ": " ++ v ++ c! "\n" ++ t)

def BaseOf (m : Msg) (rf : Option Request) (p : SigParams) (text : Str) : Prop :=
  ∃ t, Lines m rf p.covered t ∧ text = t ++ c! "\"@signature-params\": " ++ paramsText p

/-- The signature is one for this key id, if one is asked for. -/
def ForKey (id : Option Str) (h : SigHeaders) : Prop := id = none ∨ id = h.params.keyid

/-- The signature is not expired. -/
def InTime (now : UInt64) (h : SigHeaders) : Prop := ∀ e, h.params.expires = some e → now.toNat ≤ e.toNat

/-- The key says `o` of the signature of the rebuilt text. -/
def Checked (now : UInt64) (m : Msg) (rf : Option Request) (k : VerifyingKey) (id : Option Str) (h : SigHeaders) (o : Res SigErr Unit) : Prop :=
  ∃ text, BaseOf m rf h.params text ∧ ForKey id h ∧ InTime now h ∧ k.verify (utf8 text) h.signature = o

/-- The signature is looked at. -/
def Candidate (m : Msg) (rf : Option Request) (id : Option Str) (h : SigHeaders) : Prop := (∃ text, BaseOf m rf h.params text) ∧ ForKey id h

/-! ### Signing -/

/-- Octets that a header line may hold. -/
def LineOk (l : Bytes) : Prop := ∀ b ∈ l, b.toNat = 9 ∨ (32 ≤ b.toNat ∧ b.toNat ≠ 127)

/-- The two lines that a signer (parameters, key, label; `sig` without a label) adds. -/
def Added (m : Msg) (rf : Option Request) (x : SigParams × SigningKey × Option Str) (out : Headers) : Prop :=
  ∃ text sig t, BaseOf m rf x.1 text ∧ x.2.1.sign (utf8 text) = .ok sig ∧ CanonBare (.bytes sig) t ∧
    LineOk (utf8 (x.2.2.getD (c! "sig") ++ '=' :: paramsText x.1)) ∧
    out = [(c! "signature-input", utf8 (x.2.2.getD (c! "sig") ++ '=' :: paramsText x.1)),
      (c! "signature", utf8 (x.2.2.getD (c! "sig") ++ '=' :: t))]

end Verif.Wire
