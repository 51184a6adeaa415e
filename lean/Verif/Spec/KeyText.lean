import Verif.Spec.Keys
import Verif.Model.KeyText
/-!
What the errors of keys say: for each way of reading a key the first thing that is wrong, in the order of the code, with its message. Messages of other
crates are those of `KeyErrLib`.
-/
namespace Verif.KeySays
open Spec

section
variable (L : KeyErrLib) (P : Prims) (rsa : Bool) (alg : Alg)

/-- The crate of the algorithm refuses the bytes of a private key. -/
def SecretRefused : Alg → Bytes → Prop
  | .ecdsaP256Sha256, b => b.length = 32 ∧ P.p256.skOf b = none
  | .ecdsaP384Sha384, b => b.length = 48 ∧ P.p384.skOf b = none
  | .rsaV15Sha256, b => P.rsa15.skOf b = none
  | .rsaPssSha512, b => P.rsaPss.skOf b = none
  | _, _ => False

/-- The crate of the algorithm refuses the bytes of a public key. -/
def PublicRefused : Alg → Bytes → Prop
  | .ecdsaP256Sha256, b => P.p256.pkOf b = none
  | .ecdsaP384Sha384, b => P.p384.pkOf b = none
  | .ed25519, b => P.ed25519.pkOf b = none
  | .rsaV15Sha256, b => P.rsa15.pkOf b = none
  | .rsaPssSha512, b => P.rsaPss.pkOf b = none
  | .hmacSha256, _ => False

/-- There are keys of this algorithm in this build. -/
def Asymmetric : Prop := alg ≠ .hmacSha256 ∧ (alg = .rsaV15Sha256 ∨ alg = .rsaPssSha512 → rsa = true)

inductive SecretBytes (b : Bytes) : Str → Prop where
  | algorithm : ¬ Asymmetric rsa alg → SecretBytes b (c! "Unsupported algorithm")
  | refused : Asymmetric rsa alg → SecretRefused P alg b → SecretBytes b (L.secretKey alg b)

inductive PublicBytes (b : Bytes) : Str → Prop where
  | algorithm : ¬ Asymmetric rsa alg → PublicBytes b (c! "Unsupported algorithm")
  | refused : Asymmetric rsa alg → PublicRefused P alg b → PublicBytes b (L.publicKey alg b)

/-- What a file declares does not fit the algorithm that was asked for. -/
inductive Declared (der : Bytes) (oid : Str) (params : Option Str) : Str → Prop where
  | params : oid = c! "1.2.840.10045.2.1" → params = none → Declared der oid params (L.params der)
  | curve {o} : oid = c! "1.2.840.10045.2.1" → params = some o → o ≠ c! "1.2.840.10045.3.1.7" → o ≠ c! "1.3.132.0.34" →
      Declared der oid params (c! "Unsupported curve")
  | mismatch {a} : Asymmetric rsa a → Declares a oid params → ¬ Declares alg oid params → Declared der oid params (c! "Algorithm mismatch")
  | unknown : oid ≠ c! "1.2.840.10045.2.1" → oid ≠ c! "1.3.101.112" → (oid = c! "1.2.840.113549.1.1.1" → rsa = false) →
      Declared der oid params (c! "Unsupported algorithm")

/-- The bytes of the private key in the key field of a file. -/
def SecretField (key b : Bytes) : Prop :=
  match alg with
  | .ecdsaP256Sha256 | .ecdsaP384Sha384 => P.sec1 key = some b
  | .ed25519 => ∃ x y, key = x :: y :: b
  | .rsaV15Sha256 | .rsaPssSha512 => b = key
  | .hmacSha256 => False

inductive SecretDer (der : Bytes) : Str → Prop where
  | der : P.pkiOfDer der = none → SecretDer der (L.pki der)
  | declared {pki t} : P.pkiOfDer der = some pki → Declared L rsa alg der pki.oid pki.paramsOid t → SecretDer der t
  | sec1 {pki} : P.pkiOfDer der = some pki → Declares alg pki.oid pki.paramsOid → alg = .ecdsaP256Sha256 ∨ alg = .ecdsaP384Sha384 →
      P.sec1 pki.privateKey = none → SecretDer der (c! "Error decoding EcPrivateKey: " ++ L.sec1 pki.privateKey)
  | key {pki b t} : P.pkiOfDer der = some pki → Declares alg pki.oid pki.paramsOid → Asymmetric rsa alg → SecretField P alg pki.privateKey b →
      SecretBytes L P rsa alg b t → SecretDer der t

inductive SecretPem (s : Str) : Str → Prop where
  | pem : P.pem s = none → SecretPem s (L.pem s)
  | tag {l d} : P.pem s = some (l, d) → l ≠ c! "PRIVATE KEY" → SecretPem s (c! "Invalid tag")
  | der {d t} : P.pem s = some (c! "PRIVATE KEY", d) → SecretDer L P rsa alg d t → SecretPem s t

inductive PublicPem (s : Str) : Str → Prop where
  | pem : P.pem s = none → PublicPem s (L.pem s)
  | tag {l d} : P.pem s = some (l, d) → l ≠ c! "PUBLIC KEY" → PublicPem s (c! "Invalid tag")
  | der {d} : P.pem s = some (c! "PUBLIC KEY", d) → P.spkiOfDer d = none →
      PublicPem s (c! "Error decoding SubjectPublicKeyInfo: " ++ L.spki d)
  | declared {d spki t} : P.pem s = some (c! "PUBLIC KEY", d) → P.spkiOfDer d = some spki → Declared L rsa alg d spki.oid spki.paramsOid t → PublicPem s t
  | bits {d spki} : P.pem s = some (c! "PUBLIC KEY", d) → P.spkiOfDer d = some spki → Declares alg spki.oid spki.paramsOid → Asymmetric rsa alg →
      spki.publicKey = none → PublicPem s (c! "Invalid public key")
  | key {d spki b t} : P.pem s = some (c! "PUBLIC KEY", d) → P.spkiOfDer d = some spki → Declares alg spki.oid spki.paramsOid → Asymmetric rsa alg →
      spki.publicKey = some b → PublicBytes L P rsa alg b t → PublicPem s t

variable {P}

/-- The bytes of a public key. -/
def keyBytes : PublicKey P → Bytes
  | .ecdsaP256Sha256 k => P.p256.enc k
  | .ecdsaP384Sha384 k => P.p384.enc k
  | .ed25519 k => P.ed25519.enc k
  | .rsaV15Sha256 k => P.rsa15.enc k
  | .rsaPssSha512 k => P.rsaPss.enc k

end
end Verif.KeySays
