import Verif.Model.Sha2
import Verif.Model.Crypto
/-!
DER (X.690) as read by the crates der, pkcs8, spki, sec1 and pkcs1 for asymmetric.rs 87, 95, 104, 123-125, 279, 286 and
303-304, and the PEM text format of asymmetric.rs 153 and 298. The crates' sources are not in the repository; this follows
X.690, RFC 5208, RFC 5280, RFC 5915, RFC 8017 and RFC 7468. Points on which the sources would be needed are fields of
`Lib`; every theorem holds for all choices.
-/
namespace Verif.Der
open Sha2

/-- What may differ between versions of the libraries. -/
structure Lib where
  /-- largest length of the contents of an element (the crate der: `0xfffffff`) -/
  maxLen : Nat
  /-- tags accepted for the parameters of an algorithm -/
  anyTag : UInt8 → Bool
  /-- contents accepted as an object identifier, besides being whole groups -/
  oidOk : Bytes → Bool
  /-- what may follow the key in a `PrivateKeyInfo` of the version given: attributes, public key -/
  pkiRest : Nat → Bytes → Bool
  /-- what may follow the key in an `ECPrivateKey`: parameters, public key -/
  sec1Rest : Bytes → Bool
  /-- removal of text before the first boundary of a PEM text -/
  preamble : Str → Str
  /-- line lengths accepted in a PEM text -/
  widths : List Nat → Bool

/-- Length octets of X.690 section 10.1: the shortest form. -/
def lenBytes (n : Nat) : Bytes :=
  if n < 128 then [UInt8.ofNat n] else UInt8.ofNat (128 + (Nat.log2 n / 8 + 1)) :: beBytes (Nat.log2 n / 8 + 1) n

/-- An element: tag, length, contents. -/
def tlv (tag : UInt8) (c : Bytes) : Bytes := tag :: lenBytes c.length ++ c

/-- Read length octets. Lengths of more than four octets and lengths not in the shortest form are rejected. -/
def readLen : Bytes → Option (Nat × Bytes)
  | [] => none
  | b :: t =>
    if b.toNat < 128 then some (b.toNat, t)
    else
      let k := b.toNat - 128
      let n := beNat (t.take k)
      if k = 0 ∨ 4 < k ∨ t.length < k ∨ n < 128 ∨ n < 256 ^ (k - 1) then none else some (n, t.drop k)

/-- Read one element: tag, contents and rest. -/
def readAny (L : Lib) : Bytes → Option (UInt8 × Bytes × Bytes)
  | [] => none
  | tag :: t =>
    match readLen t with
    | none => none
    | some (n, t) => if L.maxLen < n ∨ t.length < n then none else some (tag, t.take n, t.drop n)

/-- Read one element with the given tag. -/
def read (L : Lib) (tag : UInt8) (b : Bytes) : Option (Bytes × Bytes) :=
  match readAny L b with
  | some (t, c, r) => if t = tag then some (c, r) else none
  | none => none

/-- Read one element with the given tag and nothing after it. -/
def readAll (L : Lib) (tag : UInt8) (b : Bytes) : Option Bytes :=
  match read L tag b with
  | some (c, []) => some c
  | _ => none

/-- The number of an INTEGER that is not negative; the shortest form is required. -/
def decUint (c : Bytes) : Option Nat :=
  match c with
  | [] => none
  | [a] => if a.toNat < 128 then some a.toNat else none
  | a :: b :: t => if 128 ≤ a.toNat ∨ (a = 0 ∧ b.toNat < 128) then none else some (beNat (a :: b :: t))

/-- Contents of an INTEGER that is not negative. -/
def uintBytes (n : Nat) : Bytes := beBytes ((if n = 0 then 0 else Nat.log2 n + 1) / 8 + 1) n

/-- Read one INTEGER that is not negative. -/
def readUint (L : Lib) (b : Bytes) : Option (Nat × Bytes) :=
  match read L 2 b with
  | some (c, r) => (decUint c).map (·, r)
  | none => none

/-- Groups of seven bits of an object identifier, each ended by a byte below 128. The second argument says whether a group
has begun. -/
def arcs : Nat → Bool → Bytes → Option (List Nat)
  | _, mid, [] => if mid then none else some []
  | a, _, b :: t =>
    if b.toNat < 128 then (arcs 0 false t).map ((a * 128 + b.toNat) :: ·)
    else arcs (a * 128 + (b.toNat - 128)) true t

/-- Dotted text of an object identifier: the first group holds two numbers. -/
def oidText (L : Lib) (c : Bytes) : Option Str :=
  if L.oidOk c then
    match arcs 0 false c with
    | some (n :: t) =>
      let r := if n < 40 then 0 else if n < 80 then 1 else 2
      some (join (c! ".") ((r :: (n - 40 * r) :: t).map natStr))
    | _ => none
  else none

/-- Contents of an `AlgorithmIdentifier`: object identifier, and its parameters if they are an object identifier. -/
def algId (L : Lib) (c : Bytes) : Option (Str × Option Str) := do
  let (o, r) ← read L 6 c
  let o ← oidText L o
  if r = [] then some (o, none)
  else
    let (t, c, r) ← readAny L r
    if r ≠ [] ∨ L.anyTag t = false then none
    else some (o, if t = 6 then oidText L c else none)

/-- `PrivateKeyInfo::from_der`, RFC 5208 and RFC 5958. -/
def pkiOfDer (L : Lib) (b : Bytes) : Option Pki := do
  let c ← readAll L 0x30 b
  let (v, r) ← readUint L c
  let (a, r) ← read L 0x30 r
  let (o, p) ← algId L a
  let (k, r) ← read L 4 r
  if 1 < v ∨ L.pkiRest v r = false then none else some ⟨o, p, k⟩

/-- Contents of a BIT STRING as whole bytes: the outer `none` is an error, the inner one a string of other length. -/
def bitString : Bytes → Option (Option Bytes)
  | [] => none
  | u :: t =>
    if 7 < u.toNat ∨ (u ≠ 0 ∧ t = []) then none
    else if u = 0 then some (some t) else some none

/-- `SubjectPublicKeyInfoRef::from_der`, RFC 5280. -/
def spkiOfDer (L : Lib) (b : Bytes) : Option Spki := do
  let c ← readAll L 0x30 b
  let (a, r) ← read L 0x30 c
  let (o, p) ← algId L a
  let s ← readAll L 3 r
  let k ← bitString s
  some ⟨o, p, k⟩

/-- The private key of `sec1::EcPrivateKey::try_from`, RFC 5915. -/
def sec1 (L : Lib) (b : Bytes) : Option Bytes := do
  let c ← readAll L 0x30 b
  let (v, r) ← readUint L c
  let (k, r) ← read L 4 r
  if v ≠ 1 ∨ L.sec1Rest r = false then none else some k

/-! ### PEM -/

/-- Drop one carriage return at the end. -/
def chomp (l : Str) : Str := if l.getLast? = some '\r' then l.dropLast else l

/-- The label of a boundary line: the text between `-----BEGIN ` (or `-----END `) and `-----`. -/
def boundary (kind : Str) (l : Str) : Option Str :=
  let a := c! "-----" ++ kind ++ [' ']
  if a.length + 5 ≤ l.length ∧ l.take a.length = a ∧ l.drop (l.length - 5) = c! "-----"
  then some ((l.drop a.length).take (l.length - a.length - 5)) else none

/-- The lines up to the closing boundary; after it only one empty line. -/
def body (label : Str) : List Str → Option (List Str)
  | [] => none
  | l :: t =>
    if boundary (c! "END") l = some label then
      if t = [] ∨ t = [[]] then some [] else none
    else (body label t).map (l :: ·)

/-- `Document::from_pem`, RFC 7468: label and DER bytes, which must be one SEQUENCE. -/
def pem (L : Lib) (s : Str) : Option (Str × Bytes) :=
  match (splitOn '\n' (L.preamble s)).map chomp with
  | [] => none
  | l :: t => do
    let label ← boundary (c! "BEGIN") l
    let ls ← body label t
    if L.widths (ls.map List.length) = false then none
    else
      let der ← Base64.decode true ls.flatten
      let _ ← readAll L 0x30 der
      some (label, der)

/-! ### One choice of the parameters -/

/-- A sequence of elements whose tags satisfy `ok`; the first argument bounds their number. -/
def elems (L : Lib) (ok : UInt8 → Bool) : Nat → Bytes → Bool
  | 0, b => b == []
  | f + 1, b => b == [] ||
    match readAny L b with
    | some (t, _, r) => ok t && elems L ok f r
    | none => false

/-- Drop lines before the first one with an opening boundary. -/
def dropPreamble (s : Str) : Str :=
  join ['\n'] ((splitOn '\n' s).dropWhile fun l => (boundary (c! "BEGIN") (chomp l)).isNone)

/-- Lengths of lines: 64, the last one shorter or equal. -/
def wrap64 : List Nat → Bool
  | [] => true
  | [n] => n ≤ 64
  | n :: m :: t => n == 64 && wrap64 (m :: t)

/-- The limits of the crates as far as they are documented. -/
def lib : Lib :=
  let L : Lib := ⟨0xfffffff, fun _ => true, fun _ => true, fun _ _ => true, fun _ => true, id, fun _ => true⟩
  { L with
    anyTag := fun t => t.toNat % 32 ≠ 31
    oidOk := fun c => 2 ≤ c.length ∧ c.length ≤ 39
    pkiRest := fun _ r => elems L (fun t => t.toNat / 64 = 2) r.length r
    sec1Rest := fun r => elems L (fun t => t = 0xa0 || t = 0xa1) 2 r
    preamble := dropPreamble
    widths := wrap64 }

end Verif.Der
