import Verif.Model.Http
/-!
Construction of URIs, methods, header names, header values and status codes from text, as crate http 1.x does it for the requests
and responses that httpsig-hyper is given (`Request::builder()` in httpsig-hyper/examples/hyper-request.rs 23-30 and
hyper-response.rs 23-45, and the HTTP server in front of the code). The source of the crate is not in /repo. Points on which the
source would be needed are fields of `UriLib`; every theorem holds for all choices.
-/
namespace Verif
open Sfv

/-- What may differ between versions of the library. -/
structure UriLib where
  /-- longest URI in bytes -/
  maxLen : Nat
  /-- characters of a scheme -/
  schemeChar : Char → Bool
  /-- characters of an authority besides `:`, `[`, `]`, `@` and `%` -/
  authChar : Char → Bool
  /-- characters of a path -/
  pathChar : Char → Bool
  /-- characters of a query -/
  queryChar : Char → Bool
  /-- whether `://host` is a URI with an empty scheme -/
  emptyScheme : Bool
  scheme_clean : ∀ c, schemeChar c = true → 32 < c.toNat ∧ c ≠ '/' ∧ c ≠ ':' ∧ c ≠ '#'
  auth_clean : ∀ c, authChar c = true → 32 < c.toNat
  path_clean : ∀ c, pathChar c = true → 32 < c.toNat
  path_slash : pathChar '/' = true
  query_clean : ∀ c, queryChar c = true → 32 < c.toNat

/-- Split before the first character that satisfies `f`. -/
def splitAtFirst (f : Char → Bool) (s : Str) : Str × Str := (s.takeWhile (fun c => !f c), s.dropWhile (fun c => !f c))

/-- Drop the fragment. The crate does so in `PathAndQuery::from_shared`; the text after `#` is not looked at. -/
def dropFragment (s : Str) : Str := (splitAtFirst (· == '#') s).1

/-- `PathAndQuery::from_shared`: path, and query if there is a `?`. -/
def pathQuery (L : UriLib) (s : Str) : Option (Str × Option Str) :=
  match splitAtFirst (· == '?') (dropFragment s) with
  | (p, []) => if p.all L.pathChar then some (p, none) else none
  | (p, _ :: q) => if p.all L.pathChar ∧ q.all L.queryChar then some (p, some q) else none

/-- State of the loop of `Authority::parse`. -/
structure AuthSt where
  colons : Nat
  opened : Bool
  closed : Bool
  percent : Bool
  atLast : Bool

def AuthSt.start : AuthSt := ⟨0, false, false, false, false⟩

/-- One character of the loop of `Authority::parse`. -/
def AuthSt.step (L : UriLib) (st : AuthSt) (c : Char) : Option AuthSt :=
  if c = ':' then if 8 ≤ st.colons then none else some { st with colons := st.colons + 1, atLast := false }
  else if c = '[' then if st.percent ∨ st.opened then none else some { st with opened := true, atLast := false }
  else if c = ']' then
    if ¬ st.opened ∨ st.closed then none else some { st with closed := true, colons := 0, percent := false, atLast := false }
  else if c = '@' then some { st with colons := 0, percent := false, atLast := true }
  else if c = '%' then some { st with percent := true, atLast := false }
  else if L.authChar c then some { st with atLast := false }
  else none

/-- The tests of `Authority::parse` after the loop. -/
def AuthSt.ok (st : AuthSt) : Bool := st.opened == st.closed && st.colons ≤ 1 && !st.atLast && !st.percent

/-- `Authority::parse` on a text without `/`, `?` and `#`. -/
def authorityOk (L : UriLib) (a : Str) : Bool :=
  match a.foldlM (AuthSt.step L) AuthSt.start with
  | some st => st.ok
  | none => false

/-- The end of an authority. -/
def authEnd (c : Char) : Bool := c == '/' || c == '?' || c == '#'

/-- `Scheme2::parse` for schemes other than http and https: the scheme and the text after `://`. -/
def otherScheme (L : UriLib) : Str → Option (Str × Str)
  | [] => none
  | c :: t =>
    if c = ':' then
      match t with
      | '/' :: '/' :: r => some ([], r)
      | _ => none
    else if L.schemeChar c then (otherScheme L t).map (fun x => (c :: x.1, x.2))
    else none

/-- `Scheme2::parse` and the removal of the scheme. A scheme that is too long is an error in the code; here it is not a scheme, which
gives an error as well, because the text has a `/` and does not begin with it. -/
def splitScheme (L : UriLib) (s : Str) : Option Str × Str :=
  if lower (s.take 7) = c! "http://" then (some (c! "http"), s.drop 7)
  else if lower (s.take 8) = c! "https://" then (some (c! "https"), s.drop 8)
  else match otherScheme L s with
    | some (n, r) => if n.length ≤ 64 ∧ (n ≠ [] ∨ L.emptyScheme) then (some n, r) else (none, s)
    | none => (none, s)

/-- `parse_full`. -/
def parseFull (L : UriLib) (s : Str) : Option Uri :=
  match splitScheme L s with
  | (none, s) =>
    match splitAtFirst authEnd s with
    | (a, []) => if authorityOk L a then some ⟨none, some a, [], none⟩ else none
    | _ => none
  | (some sch, s) =>
    match splitAtFirst authEnd s with
    | (a, r) =>
      if a ≠ [] ∧ authorityOk L a then (pathQuery L r).map fun x => ⟨some sch, some a, x.1, x.2⟩ else none

/-- `Uri::from_shared` on text. A single character other than `/` and `*` goes through `Authority::from_shared` in the code, with the
same result as `parseFull`. Inputs that are bytes outside UTF-8 are left out; they could differ from text only in the fragment. -/
def Uri.parse (L : UriLib) (s : Str) : Option Uri :=
  if L.maxLen < (utf8 s).length then none
  else match s with
    | [] => none
    | ['*'] => some ⟨none, none, ['*'], none⟩
    | '/' :: _ => (pathQuery L s).map fun x => ⟨none, none, x.1, x.2⟩
    | _ => parseFull L s

/-- `Method::from_bytes`. -/
def methodOfText (s : Str) : Option Str := if s ≠ [] ∧ s.all isTchar then some s else none

/-- `HeaderMap` from lines: `HeaderName::from_bytes` (lower case) and `HeaderValue::from_bytes` of each. -/
def headersOfText : List (Str × Bytes) → Option Headers
  | [] => some []
  | (n, v) :: t => do
    let k ← hdrKey n
    if v.all hvByteOk then do
      let h ← headersOfText t
      some ((k, v) :: h)
    else none

/-- `Request::builder()` with method, URI, header lines and body. -/
def Request.ofText (L : UriLib) (method target : Str) (lines : List (Str × Bytes)) (body : Body) : Option Request := do
  let m ← methodOfText method
  let u ← Uri.parse L target
  let h ← headersOfText lines
  some ⟨m, u, h, body⟩

/-- `Response::builder()`; `StatusCode::from_u16` wants three digits. -/
def Response.ofText (status : Nat) (lines : List (Str × Bytes)) (body : Body) : Option Response :=
  if 100 ≤ status ∧ status < 1000 then do
    let h ← headersOfText lines
    some ⟨status, h, body⟩
  else none

/-! ### One choice of the parameters -/

/-- Letters and digits. -/
def alnum (n : Nat) : Bool := (48 ≤ n && n ≤ 57) || (65 ≤ n && n ≤ 90) || (97 ≤ n && n ≤ 122)

/-- The tables of crate http 1.3. -/
def httpLib : UriLib where
  maxLen := 65534
  schemeChar c := alnum c.toNat || c.toNat = 43 || c.toNat = 45 || c.toNat = 46 || c.toNat = 126
  authChar c := alnum c.toNat || c.toNat = 33 || c.toNat = 36 || (38 ≤ c.toNat && c.toNat ≤ 46) || c.toNat = 59 || c.toNat = 61 ||
    c.toNat = 95 || c.toNat = 126
  pathChar c := c.toNat = 33 || c.toNat = 34 || (36 ≤ c.toNat && c.toNat ≤ 59) || c.toNat = 61 ||
    (64 ≤ c.toNat && c.toNat ≤ 95) || 97 ≤ c.toNat
  queryChar c := c.toNat = 33 || (36 ≤ c.toNat && c.toNat ≤ 59) || c.toNat = 61 || 63 ≤ c.toNat
  emptyScheme := true
  scheme_clean c h := by
    simp [alnum] at h
    refine ⟨by omega, ?_, ?_, ?_⟩ <;> (rintro rfl; revert h; decide)
  auth_clean c h := by simp [alnum] at h; omega
  path_clean c h := by simp at h; omega
  path_slash := by decide
  query_clean c h := by simp at h; omega

end Verif
