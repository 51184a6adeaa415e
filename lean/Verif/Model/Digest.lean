import Verif.Model.Http
/-!
Model of httpsig-hyper/src/hyper_content_digest.rs and of `ContentDigestType` in httpsig-hyper/src/lib.rs.
Requests and responses have the same code (111-155 and 166-207), modelled once on a header map and a body.
-/
namespace Verif
open Sfv

/-- `HyperDigestError`, httpsig-hyper/src/error.rs. -/
inductive DigestErr where
  | httpBody | noDigestHeader | invalidHeaderValue | toStr | invalidContentDigest | invalidContentDigestType
  deriving DecidableEq, Repr

/-- `ContentDigestType`, httpsig-hyper/src/lib.rs 33-36. -/
inductive DigestType where
  | sha256 | sha512
  deriving DecidableEq, Repr

/-- `Display`, lib.rs 38-45. -/
def DigestType.toStr : DigestType → Str
  | .sha256 => c! "sha-256"
  | .sha512 => c! "sha-512"

/-- `FromStr`, lib.rs 47-56. -/
def DigestType.ofStr (s : Str) : Res DigestErr DigestType :=
  if s = c! "sha-256" then .ok .sha256
  else if s = c! "sha-512" then .ok .sha512
  else .err .invalidContentDigestType

def hContentDigest : Str := c! "content-digest"

/-- `derive_digest`, hyper_content_digest.rs 45-59. -/
def deriveDigest (b : Bytes) : DigestType → Bytes
  | .sha256 => Sha2.sha256 b
  | .sha512 => Sha2.sha512 b

/-- `is_equal_digest`, hyper_content_digest.rs 211-218. -/
def isEqualDigest (a b : Bytes) : Bool :=
  if a.length ≠ b.length then false else a == b

/-- The header text written at hyper_content_digest.rs 122-124 and 177-179. -/
def digestText (t : DigestType) (body : Bytes) : Str :=
  t.toStr ++ '=' :: ':' :: (Base64.encode (deriveDigest body t) ++ [':'])

/-- `set_content_digest`, hyper_content_digest.rs 111-128 and 166-183. The `unwrap` of the header value is `panic`. -/
def setDigest (t : DigestType) (h : Headers) (body : Body) : Res DigestErr (Headers × Body) :=
  match body with
  | .fail => .err .httpBody
  | .data b =>
    match hvOfStr (digestText t b) with
    | none => .panic
    | some v => .ok (h.insert hContentDigest v, .data b)

/-- `extract_content_digest`, hyper_content_digest.rs 220-256. `indexmap.iter().next().unwrap()` at 233 and the
`unreachable!()` at 253 are `panic`. -/
def extractDigest (h : Headers) : Res DigestErr (DigestType × Bytes) := do
  let v ← Res.ofOption .noDigestHeader (h.get hContentDigest)
  let s ← Res.ofOption .toStr (hvToStr v)
  let d ← Res.ofOption .invalidHeaderValue (parseDict s)
  if d.length ≠ 1 then .err .invalidHeaderValue
  else match d with
    | [] => .panic
    | (k, e) :: _ => do
      let t ← (DigestType.ofStr k).mapErr (fun _ => .invalidHeaderValue)
      if ¬ (entryBytes e).isSome then .err .invalidHeaderValue
      else match entryBytes e with
        | some b => .ok (t, b)
        | none => .panic

/-- `verify_content_digest`, hyper_content_digest.rs 132-155 and 184-207. -/
def verifyDigest (h : Headers) (body : Body) : Res DigestErr (Headers × Body) := do
  let te ← extractDigest h
  match body with
  | .fail => .err .httpBody
  | .data b =>
    if isEqualDigest (deriveDigest b te.1) te.2 then .ok (h, .data b)
    else .err .invalidContentDigest

/-! The public functions on requests and responses. -/

def Request.setContentDigest (r : Request) (t : DigestType) : Res DigestErr Request := do
  let x ← setDigest t r.headers r.body
  .ok { r with headers := x.1, body := x.2 }

def Request.verifyContentDigest (r : Request) : Res DigestErr Request := do
  let x ← verifyDigest r.headers r.body
  .ok { r with headers := x.1, body := x.2 }

def Response.setContentDigest (r : Response) (t : DigestType) : Res DigestErr Response := do
  let x ← setDigest t r.headers r.body
  .ok { r with headers := x.1, body := x.2 }

def Response.verifyContentDigest (r : Response) : Res DigestErr Response := do
  let x ← verifyDigest r.headers r.body
  .ok { r with headers := x.1, body := x.2 }

end Verif
