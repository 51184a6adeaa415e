import Verif.Spec.Value
import Verif.Spec.Base64
import Verif.Spec.Layout
import Mathlib.Data.List.Perm.Basic
/-!
The signature base of RFC 9421 section 2, written from the RFC and not from the library: a function from a member of
Signature-Input (an inner list) and a message to the text that a conforming signer signs. It uses the parser and serializer of
RFC 9651 (`Model/Sfv.lean`, with the round trips of C32). `none` means that the RFC defines no base.

Left out: trailers (`tr` has no value here), normalization of paths beyond the empty path, and the text decoding of query
parameters that are not UTF-8 (they are kept as bytes).
-/
namespace Verif.Spec.Rfc9421
open Sfv

/-- Type of a structured field. -/
inductive Kind where
  | list | dict | item
  deriving DecidableEq

/-- What signer and verifier know besides the message: the types of structured fields and the scheme of the connection. -/
structure Ctx where
  kind : Str → Option Kind
  scheme : Str

/-! ### Parameters of component identifiers (sections 2.1, 2.2.8, 2.4) -/

structure Wants where
  sf : Bool
  bs : Bool
  tr : Bool
  req : Bool
  key : Option Str
  name : Option Str
  deriving DecidableEq

/-- The parameters the RFC defines: flags are true, `key` and `name` are strings. -/
def known (kv : Str × Bare) : Bool :=
  match kv.2 with
  | .bool true => kv.1 ∈ [c! "sf", c! "bs", c! "tr", c! "req"]
  | .str _ => kv.1 ∈ [c! "key", c! "name"]
  | _ => false

def textOf (ps : Params) (k : Str) : Option Str :=
  match ps.lookup k with
  | some (.str s) => some s
  | _ => none

/-- An identifier with any other parameter is an error. -/
def wants (ps : Params) : Option Wants :=
  if ps.all known then
    some { sf := (ps.lookup (c! "sf")).isSome, bs := (ps.lookup (c! "bs")).isSome, tr := (ps.lookup (c! "tr")).isSome,
           req := (ps.lookup (c! "req")).isSome, key := textOf ps (c! "key"), name := textOf ps (c! "name") }
  else none

/-! ### Fields (section 2.1) -/

def blank (c : Char) : Bool := c == ' ' || c == '\t'
/-- Without leading and trailing whitespace. -/
def strip (s : Str) : Str := ((s.dropWhile blank).reverse.dropWhile blank).reverse

def blankByte (b : UInt8) : Bool := b == 32 || b == 9
def stripBytes (s : Bytes) : Bytes := ((s.dropWhile blankByte).reverse.dropWhile blankByte).reverse

/-- All of them, or nothing. -/
def allSome {α : Type} : List (Option α) → Option (List α)
  | [] => some []
  | none :: _ => none
  | some a :: t => (allSome t).map (a :: ·)

/-- Section 2.1: the lines without surrounding whitespace, joined by a comma and a space. -/
def combined (ts : List Str) : Str := List.intercalate (c! ", ") (ts.map strip)

/-- Section 2.1.1: strict serialization of the whole field. -/
def structured : Kind → Str → Option Str
  | .list, v => (parseList v).bind serList
  | .dict, v => (parseDict v).bind serDict
  | .item, v => (parseItemTop v).map serItem

/-- Section 2.1.2: the member of the dictionary that the whole field is. -/
def member (k : Str) (v : Str) : Option Str := ((parseDict v).bind (fun d => d.lookup k)).map serEntry

/-- Section 2.1 with 2.1.1-2.1.3. A field that is not there is an error, and so is `bs` together with `sf` or `key`. -/
def fieldValue (c : Ctx) (h : Headers) (name : Str) (w : Wants) : Option Str :=
  let lines := fieldLines h name
  if lines = [] ∨ w.tr ∨ w.name.isSome then none
  else if w.bs then
    if w.sf ∨ w.key.isSome then none
    else some (List.intercalate (c! ", ") (lines.map (fun l => c! ":" ++ base64 (stripBytes l) ++ c! ":")))
  else
    (allSome (lines.map hvToStr)).bind (fun ts =>
      match w.key with
      | some k => member k (combined ts)
      | none => if w.sf then (c.kind name).bind (fun k => structured k (combined ts)) else some (combined ts))

/-! ### Derived components (section 2.2) -/

/-- Scheme and authority of the target URI (RFC 9110 section 7.1): from the request if it has them, else the scheme of the connection and
the Host field. -/
def target (c : Ctx) (r : Request) : Option (Str × Str) :=
  match r.uri.scheme, r.uri.authority with
  | some s, some a => some (s, a)
  | none, some a => some (c.scheme, a)
  | none, none =>
    match fieldLines r.headers (c! "host") with
    | [l] => (hvToStr l).map (fun t => (c.scheme, strip t))
    | _ => none
  | some _, none => none

def lowerCase (s : Str) : Str := s.map Char.toLower

/-- `:80` for http, `:443` for https. -/
def defaultPort (scheme : Str) : Option Str :=
  if lowerCase scheme = c! "http" then some (c! ":80")
  else if lowerCase scheme = c! "https" then some (c! ":443")
  else none

/-- Section 2.2.3: lower case, without the default port. Authorities with user information are not allowed in HTTP. -/
def authority (scheme a : Str) : Option Str :=
  if '@' ∈ a then none
  else match defaultPort scheme with
    | some p => some (lowerCase (if p.isSuffixOf a then a.take (a.length - p.length) else a))
    | none => some (lowerCase a)

def pathOf (u : Uri) : Str := if u.pathData = [] then c! "/" else u.pathData
def queryOf (u : Uri) : Str := match u.query with | some q => '?' :: q | none => []

/-- Section 2.2.5: the request target as sent. The forms of RFC 9112 section 3.2 are what the URI of the request holds: only a
path (origin form, `*`), everything (absolute form) or only an authority (CONNECT). -/
def requestTarget (r : Request) : Option Str :=
  match r.uri.scheme, r.uri.authority with
  | some s, some a => some (s ++ c! "://" ++ a ++ pathOf r.uri ++ queryOf r.uri)
  | none, some a => if r.method = c! "CONNECT" then some a else none
  | none, none => some (pathOf r.uri ++ queryOf r.uri)
  | some _, none => none

/-! Query parameters, section 2.2.8 with the algorithms for `application/x-www-form-urlencoded` of the URL standard. -/

def hexDigit (b : UInt8) : Option Nat :=
  if 48 ≤ b.toNat ∧ b.toNat ≤ 57 then some (b.toNat - 48)
  else if 65 ≤ b.toNat ∧ b.toNat ≤ 70 then some (b.toNat - 55)
  else if 97 ≤ b.toNat ∧ b.toNat ≤ 102 then some (b.toNat - 87)
  else none

/-- Percent-decoding; `+` is a space. -/
def formDecode : Bytes → Bytes
  | [] => []
  | b :: t =>
    if b = 43 then 32 :: formDecode t
    else if b = 37 then
      match t with
      | x :: y :: t' =>
        match hexDigit x, hexDigit y with
        | some i, some j => UInt8.ofNat (i * 16 + j) :: formDecode t'
        | _, _ => 37 :: formDecode (x :: y :: t')
      | t => 37 :: t
    else b :: formDecode t

def hexUpper (n : Nat) : Char := if n < 10 then Char.ofNat (48 + n) else Char.ofNat (55 + n)

/-- Letters, digits, `*`, `-`, `.` and `_` stand for themselves. -/
def unreserved (b : UInt8) : Bool :=
  (48 ≤ b.toNat && b.toNat ≤ 57) || (65 ≤ b.toNat && b.toNat ≤ 90) || (97 ≤ b.toNat && b.toNat ≤ 122) ||
  b == 42 || b == 45 || b == 46 || b == 95

/-- Percent-encoding of everything else. -/
def formEncode : Bytes → Str
  | [] => []
  | b :: t =>
    if unreserved b then Char.ofNat b.toNat :: formEncode t
    else '%' :: hexUpper (b.toNat / 16) :: hexUpper (b.toNat % 16) :: formEncode t

/-- The text as the RFC writes it into the base. -/
def reencode (s : Str) : Str := formEncode (formDecode (utf8 s))

/-- Name and value of a piece of the query. -/
def pair (p : Str) : Str × Str := (p.takeWhile (· ≠ '='), (p.dropWhile (· ≠ '=')).drop 1)

/-- The value of the only parameter with this name; several are an error. -/
def queryParam (q n : Str) : Option Str :=
  match ((pieces q).map pair).filter (fun kv => reencode kv.1 = n) with
  | [kv] => some (reencode kv.2)
  | _ => none

/-- Sections 2.2.1-2.2.8. `@signature-params` is not allowed among the covered components (section 2.3). -/
def requestValue (c : Ctx) (r : Request) (name : Str) (w : Wants) : Option Str :=
  if w.sf ∨ w.bs ∨ w.tr ∨ w.key.isSome then none
  else if name = c! "@query-param" then w.name.bind (fun n => queryParam (r.uri.query.getD []) n)
  else if w.name.isSome then none
  else if name = c! "@method" then some r.method
  else if name = c! "@target-uri" then (target c r).map (fun sa => sa.1 ++ c! "://" ++ sa.2 ++ pathOf r.uri ++ queryOf r.uri)
  else if name = c! "@authority" then (target c r).bind (fun sa => authority sa.1 sa.2)
  else if name = c! "@scheme" then (target c r).map (fun sa => lowerCase sa.1)
  else if name = c! "@request-target" then requestTarget r
  else if name = c! "@path" then some (pathOf r.uri)
  else if name = c! "@query" then some ('?' :: r.uri.query.getD [])
  else none

/-- Section 2.2.9. -/
def responseValue (s : Response) (name : Str) (w : Wants) : Option Str :=
  if w.sf ∨ w.bs ∨ w.tr ∨ w.key.isSome ∨ w.name.isSome then none
  else if name = c! "@status" then some (decimal s.status)
  else none

/-- Value of a component in one message. Field names are in lower case. -/
def valueIn (c : Ctx) (m : Msg) (name : Str) (w : Wants) : Option Str :=
  if name.head? = some '@' then
    match m with
    | .req r => requestValue c r name w
    | .res s => responseValue s name w
  else if lowerCase name = name then fieldValue c m.headers name w
  else none

/-- Section 2.4: `req` is for responses and takes the component from the request. -/
def value (c : Ctx) (m : Msg) (rf : Option Request) (i : Item) : Option Str :=
  match i.bare with
  | .str name => (wants i.params).bind (fun w =>
      if w.req then
        match m, rf with
        | .res _, some r => valueIn c (.req r) name w
        | _, _ => none
      else valueIn c m name w)
  | _ => none

/-! ### The base (section 2.5) -/

/-- The same identifier: the order of the parameters does not matter. -/
def Same (i j : Item) : Prop := i.bare = j.bare ∧ i.params.Perm j.params

instance (i j : Item) : Decidable (Same i j) := by unfold Same; infer_instance

/-- One line. -/
def line (c : Ctx) (m : Msg) (rf : Option Request) (i : Item) : Option Str :=
  (value c m rf i).map (fun v => serItem i ++ c! ": " ++ v ++ c! "\n")

/-- The signature base: every identifier once, a line each, then the line of the parameters. -/
def base (c : Ctx) (m : Msg) (rf : Option Request) (l : InnerList) : Option Str :=
  if l.items.Pairwise (fun i j => ¬ Same i j) then
    (allSome (l.items.map (line c m rf))).map (fun ls => ls.flatten ++ c! "\"@signature-params\": " ++ serInner l)
  else none

/-! ### Examples of the RFC -/

section
private def ctx : Ctx := { kind := fun n => if n = c! "example-dict" then some .dict else none, scheme := c! "https" }
private def origin (p : Str) (q : Option Str) (h : List (String × String)) : Msg :=
  .req ⟨c! "POST", ⟨none, none, p, q⟩, h.map (fun kv => (kv.1.toList, utf8 kv.2.toList)), .data []⟩
private def baseOf (m : Msg) (input : String) : Option String :=
  (parseList input.toList).bind (fun l => match l with
    | [.inner l] => (base ctx m none l).map String.ofList
    | _ => none)

-- section 2.5
#guard baseOf (origin (c! "/foo") (some (c! "param=Value&Pet=dog")) [("host", "example.com"), ("date", "Tue, 20 Apr 2021 02:07:55 GMT"),
    ("content-type", "application/json"),
    ("content-digest", "sha-512=:WZDPaVn/7XgHaAy8pmojAkGWoRx2UFChF41A2svX+TaPm+AbwAgBWnrIiYllu7BNNyealdVLvRwEmTHWXvJwew==:"),
    ("content-length", "18")])
  "(\"@method\" \"@authority\" \"@path\" \"content-digest\" \"content-length\" \"content-type\");created=1618884473;keyid=\"test-key-rsa-pss\"" =
  some "\"@method\": POST\n\"@authority\": example.com\n\"@path\": /foo\n\"content-digest\": sha-512=:WZDPaVn/7XgHaAy8pmojAkGWoRx2UFChF41A2svX+TaPm+AbwAgBWnrIiYllu7BNNyealdVLvRwEmTHWXvJwew==:\n\"content-length\": 18\n\"content-type\": application/json\n\"@signature-params\": (\"@method\" \"@authority\" \"@path\" \"content-digest\" \"content-length\" \"content-type\");created=1618884473;keyid=\"test-key-rsa-pss\""
-- section 2.2.8
#guard baseOf (origin (c! "/path") (some (c! "param=value&foo=bar&baz=batman&qux=")) [])
  "(\"@query-param\";name=\"baz\" \"@query-param\";name=\"qux\" \"@query-param\";name=\"param\")" =
  some "\"@query-param\";name=\"baz\": batman\n\"@query-param\";name=\"qux\": \n\"@query-param\";name=\"param\": value\n\"@signature-params\": (\"@query-param\";name=\"baz\" \"@query-param\";name=\"qux\" \"@query-param\";name=\"param\")"
#guard baseOf (origin (c! "/parameters") (some (c! "var=this%20is%20a%20big%0Amultiline%20value&bar=with+plus+whitespace&fa%C3%A7ade%22%3A%20=something")) [])
  "(\"@query-param\";name=\"var\" \"@query-param\";name=\"bar\" \"@query-param\";name=\"fa%C3%A7ade%22%3A%20\")" =
  some "\"@query-param\";name=\"var\": this%20is%20a%20big%0Amultiline%20value\n\"@query-param\";name=\"bar\": with%20plus%20whitespace\n\"@query-param\";name=\"fa%C3%A7ade%22%3A%20\": something\n\"@signature-params\": (\"@query-param\";name=\"var\" \"@query-param\";name=\"bar\" \"@query-param\";name=\"fa%C3%A7ade%22%3A%20\")"
-- sections 2.1.1-2.1.3
#guard baseOf (origin (c! "/") none [("example-dict", "  a=1,    b=2;x=1;y=2,   c=(a   b   c), d")])
  "(\"example-dict\";sf \"example-dict\";key=\"b\" \"example-dict\";key=\"c\" \"example-dict\";key=\"d\")" =
  some "\"example-dict\";sf: a=1, b=2;x=1;y=2, c=(a b c), d\n\"example-dict\";key=\"b\": 2;x=1;y=2\n\"example-dict\";key=\"c\": (a b c)\n\"example-dict\";key=\"d\": ?1\n\"@signature-params\": (\"example-dict\";sf \"example-dict\";key=\"b\" \"example-dict\";key=\"c\" \"example-dict\";key=\"d\")"
#guard baseOf (origin (c! "/") none [("example-header", "value, with, lots"), ("example-header", "of, commas")]) "(\"example-header\";bs)" =
  some "\"example-header\";bs: :dmFsdWUsIHdpdGgsIGxvdHM=:, :b2YsIGNvbW1hcw==:\n\"@signature-params\": (\"example-header\";bs)"
end

/-! ### Where the library may part from the RFC

The conditions under which it does not, for a base that the RFC defines. `Props/C62.lean` has an example for each of them. -/

/-- Signature parameters as the library writes them: known ones in its order, strings without quote or backslash. -/
structure UsualParams (ps : Params) : Prop where
  order : (ps.map Prod.fst).Sublist [c! "created", c! "expires", c! "nonce", c! "alg", c! "keyid", c! "tag"]
  times : ∀ kv ∈ ps, kv.1 = c! "created" ∨ kv.1 = c! "expires" → ∃ n : Nat, kv.2 = .int n ∧ n < 10 ^ 15
  texts : ∀ kv ∈ ps, kv.1 ≠ c! "created" → kv.1 ≠ c! "expires" → ∃ s, kv.2 = .str s ∧ SafeText s

/-- For `sf`: every line is a list or dictionary of its own, the type of a dictionary shows, and no key is on two lines. -/
def UsualSf (k : Option Kind) (ts : List Str) : Prop :=
  match k with
  | none => True
  | some .item => ts.length ≤ 1
  | some .list => ∀ t ∈ ts, ∃ l, l ≠ [] ∧ parseList t = some l
  | some .dict => (∀ t ∈ ts, parseList t = none ∧ ∃ d, d ≠ [] ∧ parseDict t = some d) ∧
      ts.Pairwise (fun t u => ∀ d e k, parseDict t = some d → parseDict u = some e → k ∈ d.map Prod.fst → k ∉ e.map Prod.fst)

/-- For `key`: every line is a dictionary of its own, and the member is on one line only. -/
def UsualKey (k : Str) (ts : List Str) : Prop :=
  (∀ t ∈ ts, ∃ d, d ≠ [] ∧ parseDict t = some d) ∧
  ts.Pairwise (fun t u => ∀ d e, parseDict t = some d → parseDict u = some e → k ∈ d.map Prod.fst → k ∉ e.map Prod.fst)

/-- A field with these lines: not `sf` and `key` together, no surrounding whitespace. -/
def UsualField (c : Ctx) (name : Str) (w : Wants) (ts : List Str) : Prop :=
  (∀ t ∈ ts, strip t = t) ∧
  match w.key, w.sf with
  | none, false => True
  | none, true => UsualSf (c.kind name) ts
  | some k, false => UsualKey k ts
  | some _, true => False

/-- A derived component of a request. -/
structure UsualRequest (c : Ctx) (r : Request) (name : Str) : Prop where
  method : name = c! "@method" → r.method.map Char.toUpper = r.method
  targetUri : name = c! "@target-uri" → r.uri.scheme ≠ none
  authority : name = c! "@authority" → ∃ a, r.uri.authority = some a ∧
    ∀ p, defaultPort (r.uri.scheme.getD c.scheme) = some p → ¬ p <:+ a
  scheme : name = c! "@scheme" → r.uri.scheme ≠ none
  requestTarget : name = c! "@request-target" → r.uri.scheme = none ∧
    (r.method = c! "CONNECT" → r.uri.authority ≠ none) ∧
    (r.method = c! "OPTIONS" → r.uri.pathData = c! "*" ∧ r.uri.query = none) ∧
    ∀ ch, r.uri.pathData.head? = some ch → ch = '/' ∨ ch = '*'
  queryParam : name = c! "@query-param" → ∀ p ∈ pieces (r.uri.query.getD []), reencode (pair p).1 = (pair p).1 ∧
    reencode (pair p).2 = (pair p).2

/-- A component taken from this message; a field is without `bs`. -/
def UsualIn (c : Ctx) (m : Msg) (name : Str) (w : Wants) : Prop :=
  if name.head? = some '@' then ∀ r, m = .req r → UsualRequest c r name
  else w.bs = false ∧ ∀ ts, LineTexts (fieldLines m.headers name) ts → UsualField c name w ts

/-- A covered component: with `req` it is taken from the request. -/
def UsualItem (c : Ctx) (m : Msg) (rf : Option Request) (i : Item) : Prop :=
  ∀ name w, i.bare = .str name → wants i.params = some w →
    if w.req then ∀ r, rf = some r → UsualIn c (.req r) name w else UsualIn c m name w

/-- A member of Signature-Input. -/
structure Usual (c : Ctx) (m : Msg) (rf : Option Request) (l : InnerList) : Prop where
  params : UsualParams l.params
  items : ∀ i ∈ l.items, UsualItem c m rf i

end Verif.Spec.Rfc9421
