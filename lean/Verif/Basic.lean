import Mathlib.Data.List.Basic
/-!
Notation and text helpers used by the model.

Rust `str` is modelled by `Str = List Char`, byte strings by `Bytes = List UInt8`.
`Res` separates a Rust `Err` from a Rust panic.
-/
namespace Verif

/-- Rust `str` / `String`, as the list of its characters. -/
abbrev Str := List Char
/-- Rust `[u8]` / `Vec<u8>`. -/
abbrev Bytes := List UInt8

/-- `c! "abc"` is the character list `['a','b','c']`. -/
macro "c!" s:str : term => do
  let cs : Array (Lean.TSyntax `term) :=
    (s.getString.toList.map (fun c => (Lean.Syntax.mkCharLit c : Lean.TSyntax `term))).toArray
  `(([$cs,*] : List Char))

/-- Outcome of a Rust call: a value, an `Err`, or a panic. -/
inductive Res (ε α : Type) where
  | ok (a : α)
  | err (e : ε)
  | panic
  deriving DecidableEq, Repr

namespace Res
variable {ε ε' α β : Type}

/-- Rust `?` / `and_then`. A panic is never caught. -/
def bind (x : Res ε α) (f : α → Res ε β) : Res ε β :=
  match x with
  | ok a => f a
  | err e => err e
  | panic => panic

instance : Monad (Res ε) where
  pure := ok
  bind := bind

/-- Rust `Result::map_err`. -/
def mapErr (g : ε → ε') (x : Res ε α) : Res ε' α :=
  match x with
  | ok a => ok a
  | err e => err (g e)
  | panic => panic

/-- Rust `Option::ok_or`. -/
def ofOption (e : ε) : Option α → Res ε α
  | some a => ok a
  | none => err e

/-- Rust `iter.map(f).collect::<Result<Vec<_>, _>>()`: left to right, stops at the first `Err`. -/
def collect (f : α → Res ε β) : List α → Res ε (List β)
  | [] => ok []
  | a :: t =>
    match f a with
    | ok b =>
      match collect f t with
      | ok bs => ok (b :: bs)
      | err e => err e
      | panic => panic
    | err e => err e
    | panic => panic

/-- Rust `iter.filter_map(|x| f(x).ok())`: an `Err` is skipped, a panic is not. -/
def filterOk (f : α → Res ε β) : List α → Res ε' (List β)
  | [] => ok []
  | a :: t =>
    match f a with
    | ok b =>
      match filterOk f t with
      | ok bs => ok (b :: bs)
      | err e => err e
      | panic => panic
    | err _ => filterOk f t
    | panic => panic

/-- The call returned `Ok`. -/
def isOk : Res ε α → Bool
  | ok _ => true
  | _ => false

/-- The call panicked. -/
def isPanic : Res ε α → Bool
  | panic => true
  | _ => false

@[simp] theorem bind_ok (a : α) (f : α → Res ε β) : (ok a >>= f) = f a := rfl
@[simp] theorem bind_err (e : ε) (f : α → Res ε β) : ((err e : Res ε α) >>= f) = err e := rfl
@[simp] theorem bind_panic (f : α → Res ε β) : ((panic : Res ε α) >>= f) = panic := rfl
@[simp] theorem pure_eq (a : α) : (pure a : Res ε α) = ok a := rfl
@[simp] theorem mapErr_ok (g : ε → ε') (a : α) : mapErr g (ok a) = ok a := rfl
@[simp] theorem mapErr_err (g : ε → ε') (e : ε) : mapErr g (err e : Res ε α) = err (g e) := rfl
@[simp] theorem mapErr_panic (g : ε → ε') : mapErr g (panic : Res ε α) = panic := rfl
@[simp] theorem ofOption_some (e : ε) (a : α) : ofOption e (some a) = ok a := rfl
@[simp] theorem ofOption_none (e : ε) : (ofOption e none : Res ε α) = err e := rfl

end Res

/-! ### Text helpers (Rust `str` methods) -/

/-- Rust `char::is_whitespace` (Unicode White_Space), used by `str::trim`. -/
def isWs (c : Char) : Bool :=
  let n := c.toNat
  (9 ≤ n && n ≤ 13) || n == 0x20 || n == 0x85 || n == 0xA0 || n == 0x1680 ||
  (0x2000 ≤ n && n ≤ 0x200A) || n == 0x2028 || n == 0x2029 || n == 0x202F || n == 0x205F || n == 0x3000

/-- Rust `str::trim_end`. -/
def trimEnd (s : Str) : Str := (s.reverse.dropWhile isWs).reverse

/-- Rust `str::trim`. -/
def trim (s : Str) : Str := trimEnd (s.dropWhile isWs)

/-- Rust `str::split_once(c)` for a character. -/
def splitOnce (c : Char) : Str → Option (Str × Str)
  | [] => none
  | x :: t =>
    if x = c then some ([], t)
    else match splitOnce c t with
      | some (a, b) => some (x :: a, b)
      | none => none

/-- Rust `str::split(c)` for a character: always at least one piece. -/
def splitOn (c : Char) : Str → List Str
  | [] => [[]]
  | x :: t =>
    if x = c then [] :: splitOn c t
    else match splitOn c t with
      | [] => [[x]]
      | p :: ps => (x :: p) :: ps

/-- Rust `[String]::join(sep)`. -/
def join (sep : Str) : List Str → Str
  | [] => []
  | [a] => a
  | a :: b :: t => a ++ sep ++ join sep (b :: t)

/-- Rust `str::to_ascii_uppercase`. Lean's `Char.toUpper` only changes ASCII letters. -/
def upper (s : Str) : Str := s.map Char.toUpper
/-- Rust `str::to_ascii_lowercase`. -/
def lower (s : Str) : Str := s.map Char.toLower

/-- Rust `str::contains(pat)` for a string pattern. -/
def containsStr (pat : Str) : Str → Bool
  | [] => pat.isPrefixOf []
  | x :: t => pat.isPrefixOf (x :: t) || containsStr pat t

/-- Decimal digit character. -/
def digitChar (n : Nat) : Char := Char.ofNat (48 + n)

/-- Decimal digits, with a recursion bound. -/
def natStrAux : Nat → Nat → Str
  | 0, _ => []
  | f + 1, n => if n < 10 then [digitChar n] else natStrAux f (n / 10) ++ [digitChar (n % 10)]

/-- Rust `Display` of an unsigned integer. -/
def natStr (n : Nat) : Str := natStrAux (n + 1) n

/-- Value of a string of decimal digits. -/
def digitsVal (s : Str) : Nat := s.foldl (fun a c => a * 10 + (c.toNat - 48)) 0

/-- UTF-8 bytes of a Rust string (`str::as_bytes`). -/
def utf8 (s : Str) : Bytes := s.flatMap String.utf8EncodeChar

/-- Rust `String::from_utf8(b).is_ok()`. -/
def validUtf8 (b : Bytes) : Bool := (ByteArray.utf8Decode? ⟨b.toArray⟩).isSome

/-! ### Insertion-ordered maps (crate `indexmap`) -/

/-- `IndexMap::insert`: an existing key keeps its place and gets the new value, a new key goes to the end. -/
def imInsert {κ ν : Type} [DecidableEq κ] (m : List (κ × ν)) (k : κ) (v : ν) : List (κ × ν) :=
  match m with
  | [] => [(k, v)]
  | (k', v') :: t => if k' = k then (k', v) :: t else (k', v') :: imInsert t k v

/-- `IndexMap::get`. -/
def imGet {κ ν : Type} [DecidableEq κ] (m : List (κ × ν)) (k : κ) : Option ν :=
  match m with
  | [] => none
  | (k', v') :: t => if k' = k then some v' else imGet t k

/-- `iter.collect::<IndexMap<_, _>>()`. -/
def imOfList {κ ν : Type} [DecidableEq κ] (l : List (κ × ν)) : List (κ × ν) :=
  l.foldl (fun m kv => imInsert m kv.1 kv.2) []

/-- `IndexSet::insert`. -/
def isInsert {κ : Type} [DecidableEq κ] (s : List κ) (k : κ) : List κ :=
  if k ∈ s then s else s ++ [k]

/-- `iter.collect::<IndexSet<_>>()`. -/
def isOfList {κ : Type} [DecidableEq κ] (l : List κ) : List κ := l.foldl isInsert []

#guard trim (c! "  a b ") = c! "a b"
#guard splitOn '&' (c! "a&&b") = [c! "a", [], c! "b"]
#guard splitOnce '=' (c! "a=b=c") = some (c! "a", c! "b=c")
#guard natStr 1704972031 = c! "1704972031"
#guard join (c! ", ") [c! "a", c! "b"] = c! "a, b"
#guard digitsVal (c! "0120") = 120

end Verif
