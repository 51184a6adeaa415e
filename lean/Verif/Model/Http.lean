import Verif.Model.SigBase
/-!
Model of the parts of crate http 1.x that httpsig-hyper uses: header maps, header values, URIs, requests and responses.
The source of the crate is not in /repo; this is a transcription of its documented behaviour.
-/
namespace Verif
open Sfv

/-! ### Header values -/

/-- Bytes a `HeaderValue` may hold. -/
def hvByteOk (b : UInt8) : Bool := (32 ≤ b.toNat && b.toNat ≠ 127) || b.toNat == 9

/-- `str::parse::<HeaderValue>()`. -/
def hvOfStr (s : Str) : Option Bytes := if (utf8 s).all hvByteOk then some (utf8 s) else none

/-- Byte allowed by `HeaderValue::to_str`: visible ASCII or tab. -/
def hvVisible (b : UInt8) : Bool := (32 ≤ b.toNat && b.toNat < 127) || b.toNat == 9

/-- `HeaderValue::to_str`. -/
def hvToStr (b : Bytes) : Option Str :=
  if b.all hvVisible then some (b.map (fun x => Char.ofNat x.toNat)) else none

/-! ### Header maps -/

/-- `HeaderMap`: the lines in arrival order, names in lower case. Only the relative order of lines with
the same name is observable through the functions used. -/
abbrev Headers := List (Str × Bytes)

/-- Look-up key of a name: an invalid name matches nothing, letters are folded to lower case. -/
def hdrKey (n : Str) : Option Str :=
  if n ≠ [] ∧ n.length ≤ 65535 ∧ n.all isTchar then some (lower n) else none

/-- `HeaderMap::get_all(name)`. -/
def Headers.getAll (h : Headers) (n : Str) : List Bytes :=
  match hdrKey n with
  | none => []
  | some k => (h.filter (fun kv => kv.1 == k)).map Prod.snd

/-- `HeaderMap::get(name)`: the first value. -/
def Headers.get (h : Headers) (n : Str) : Option Bytes := (h.getAll n).head?

/-- `HeaderMap::contains_key(name)`. -/
def Headers.contains (h : Headers) (n : Str) : Bool := (h.getAll n) != []

/-- `HeaderMap::append` with a constant lower-case name. -/
def Headers.append (h : Headers) (n : Str) (v : Bytes) : Headers := h ++ [(n, v)]

/-- `HeaderMap::insert` with a constant lower-case name: all earlier values of the name are dropped. -/
def Headers.insert (h : Headers) (n : Str) (v : Bytes) : Headers :=
  h.filter (fun kv => kv.1 != n) ++ [(n, v)]

/-! ### URIs -/

/-- `Uri`: optional scheme and authority; `data` is the path part and `query` the part after `?`. -/
structure Uri where
  scheme : Option Str
  authority : Option Str
  pathData : Str
  query : Option Str
  deriving DecidableEq, Repr

/-- The stored path-and-query text. -/
def Uri.pqData (u : Uri) : Str :=
  match u.query with
  | none => u.pathData
  | some q => u.pathData ++ '?' :: q

/-- `Uri::path`. -/
def Uri.path (u : Uri) : Str :=
  if u.pqData ≠ [] ∨ u.scheme.isSome then (if u.pathData = [] then ['/'] else u.pathData) else []

/-- `Uri::path_and_query().map(|s| s.to_string())`. -/
def Uri.pathAndQuery (u : Uri) : Option Str :=
  if u.scheme.isSome ∨ u.authority.isNone then
    some (match u.pqData with
      | [] => ['/']
      | c :: t => if c = '/' ∨ c = '*' then c :: t else '/' :: c :: t)
  else none

/-- `Display for Uri`. -/
def Uri.toStr (u : Uri) : Str :=
  (match u.scheme with | some s => s ++ c! "://" | none => []) ++
  (match u.authority with | some a => a | none => []) ++
  u.path ++
  (match u.query with | some q => '?' :: q | none => [])

/-! ### Messages -/

/-- A body: its bytes, or an error while it is read. Trailers are not modelled. -/
inductive Body where
  | data (b : Bytes)
  | fail
  deriving DecidableEq, Repr

structure Request where
  method : Str
  uri : Uri
  headers : Headers
  body : Body
  deriving DecidableEq, Repr

structure Response where
  status : Nat
  headers : Headers
  body : Body
  deriving DecidableEq, Repr

end Verif
