import Verif.Model.Crypto
/-!
Which algorithm an encoded key declares, and HMAC as RFC 2104 describes it.
-/
namespace Verif.Spec

/-- Algorithm and parameter identifiers of an encoded key, by algorithm (RFC 5480, RFC 8410, RFC 8017). -/
def Declares (alg : Alg) (oid : Str) (paramsOid : Option Str) : Prop :=
  match alg with
  | .ecdsaP256Sha256 => oid = c! "1.2.840.10045.2.1" ∧ paramsOid = some (c! "1.2.840.10045.3.1.7")
  | .ecdsaP384Sha384 => oid = c! "1.2.840.10045.2.1" ∧ paramsOid = some (c! "1.3.132.0.34")
  | .ed25519 => oid = c! "1.3.101.112"
  | .rsaV15Sha256 | .rsaPssSha512 => oid = c! "1.2.840.113549.1.1.1"
  | .hmacSha256 => False

/-- HMAC (RFC 2104 section 2) over a hash with 64 byte blocks: a long key is hashed first, the key is filled with zeros. -/
def hmacSpec (H : Bytes → Bytes) (k m : Bytes) : Bytes :=
  let k0 := if k.length > 64 then H k else k
  let kb := (List.range 64).map (fun i => k0.getD i 0)
  H (kb.map (fun b => b ^^^ 0x5c) ++ H (kb.map (fun b => b ^^^ 0x36) ++ m))

end Verif.Spec
