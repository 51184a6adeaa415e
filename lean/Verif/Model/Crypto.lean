import Verif.Model.Component
import Verif.Model.Sha2
/-!
Model of httpsig/src/crypto. SHA-2 and HMAC are concrete. Curve arithmetic, Ed25519, RSA, DER and PEM are
parameters (`Prims`): nothing is assumed about them here.
-/
namespace Verif
open Sha2

/-- `AlgorithmName`, crypto/mod.rs 11-20. The two RSA cases exist only with feature `rsa-signature`. -/
inductive Alg where
  | hmacSha256 | ecdsaP256Sha256 | ecdsaP384Sha384 | ed25519 | rsaV15Sha256 | rsaPssSha512
  deriving DecidableEq, Repr

/-- `AlgorithmName::as_str` and `Display`, crypto/mod.rs 22-41. -/
def Alg.toStr : Alg → Str
  | .hmacSha256 => c! "hmac-sha256"
  | .ecdsaP256Sha256 => c! "ecdsa-p256-sha256"
  | .ecdsaP384Sha384 => c! "ecdsa-p384-sha384"
  | .ed25519 => c! "ed25519"
  | .rsaV15Sha256 => c! "rsa-v1_5-sha256"
  | .rsaPssSha512 => c! "rsa-pss-sha512"

/-- The algorithm exists in a build with (`true`) or without (`false`) feature `rsa-signature`. -/
def Alg.available (rsa : Bool) : Alg → Bool
  | .rsaV15Sha256 | .rsaPssSha512 => rsa
  | _ => true

/-- `FromStr for AlgorithmName`, crypto/mod.rs 43-59; `rsa` is the feature flag. -/
def Alg.ofStr (rsa : Bool) (s : Str) : Res SigErr Alg :=
  if s = c! "hmac-sha256" then .ok .hmacSha256
  else if s = c! "ecdsa-p256-sha256" then .ok .ecdsaP256Sha256
  else if s = c! "ecdsa-p384-sha384" then .ok .ecdsaP384Sha384
  else if s = c! "ed25519" then .ok .ed25519
  else if rsa ∧ s = c! "rsa-v1_5-sha256" then .ok .rsaV15Sha256
  else if rsa ∧ s = c! "rsa-pss-sha512" then .ok .rsaPssSha512
  else .err .invalidAlgorithmName

/-- `trait SigningKey`, crypto/mod.rs 62-66. Random choices of a signing call are fixed inside `sign`: a value of
this type stands for the key together with the random bytes of one call. -/
structure SigningKey where
  sign : Bytes → Res SigErr Bytes
  keyId : Str
  alg : Alg

/-- `trait VerifyingKey`, crypto/mod.rs 69-73. -/
structure VerifyingKey where
  verify : Bytes → Bytes → Res SigErr Unit
  keyId : Str
  alg : Alg

/-! ### Shared keys (symmetric.rs) -/

/-- `SharedKey`, symmetric.rs 16-19. -/
inductive SharedKey where
  | hmacSha256 (key : Bytes)
  deriving DecidableEq, Repr

/-- `SharedKey::from_base64`, symmetric.rs 23-33. -/
def SharedKey.fromBase64 (alg : Alg) (key : Str) : Res SigErr SharedKey := do
  let k ← Res.ofOption .base64Decode (Base64.decode true key)
  match alg with
  | .hmacSha256 => .ok (.hmacSha256 k)
  | _ => .err .invalidAlgorithmName

/-- `sign`, symmetric.rs 38-47. `Hmac::new_from_slice` accepts every key length, so its `unwrap` does not panic. -/
def SharedKey.sign : SharedKey → Bytes → Res SigErr Bytes
  | .hmacSha256 k, data => .ok (hmac k data)

/-- `verify`, symmetric.rs 61-72. `verify_slice` compares the full tag, including its length. -/
def SharedKey.verify : SharedKey → Bytes → Bytes → Res SigErr Unit
  | .hmacSha256 k, data, tag => if tag = hmac k data then .ok () else .err .invalidSignature

/-- `key_id`, symmetric.rs 75-84 (and 49-52 for the signing trait). -/
def SharedKey.keyId : SharedKey → Str
  | .hmacSha256 k => Base64.encode (sha256 k)

/-- `alg`, symmetric.rs 86-90 (and 54-57). -/
def SharedKey.alg : SharedKey → Alg
  | .hmacSha256 _ => .hmacSha256

/-- The shared key as a signing key. -/
def SharedKey.signing (k : SharedKey) : SigningKey := ⟨k.sign, k.keyId, k.alg⟩
/-- The shared key as a verifying key. -/
def SharedKey.verifying (k : SharedKey) : VerifyingKey := ⟨k.verify, k.keyId, k.alg⟩

/-! ### Asymmetric keys (asymmetric.rs) -/

/-- Object identifiers, asymmetric.rs 27-43. -/
def oidEC : Str := c! "1.2.840.10045.2.1"
def oidEd25519 : Str := c! "1.3.101.112"
def oidRsa : Str := c! "1.2.840.113549.1.1.1"
def oidP256 : Str := c! "1.2.840.10045.3.1.7"
def oidP384 : Str := c! "1.3.132.0.34"

/-- Decoded PKCS#8 `PrivateKeyInfo`: algorithm OID, parameters OID (if it is one), key bytes. -/
structure Pki where
  oid : Str
  paramsOid : Option Str
  privateKey : Bytes

/-- Decoded `SubjectPublicKeyInfo`; the key is `none` when the bit string is not whole bytes. -/
structure Spki where
  oid : Str
  paramsOid : Option Str
  publicKey : Option Bytes

/-- One signature scheme of the libraries p256, p384, ed25519_compact or rsa. -/
structure Scheme where
  SK : Type
  PK : Type
  Sig : Type
  /-- private key from bytes (of the length the library takes) -/
  skOf : Bytes → Option SK
  pkOf : Bytes → Option PK
  pub : SK → PK
  /-- signing; the first argument is randomness, `none` is a panic inside the library -/
  sign : Bytes → SK → Bytes → Option Bytes
  sigOf : Bytes → Option Sig
  verify : PK → Bytes → Sig → Bool
  /-- byte representation used for key ids -/
  enc : PK → Bytes

/-- All external primitives used by asymmetric.rs. -/
structure Prims where
  p256 : Scheme
  p384 : Scheme
  ed25519 : Scheme
  rsa15 : Scheme
  rsaPss : Scheme
  pkiOfDer : Bytes → Option Pki
  spkiOfDer : Bytes → Option Spki
  /-- `sec1::EcPrivateKey::try_from`, its key bytes -/
  sec1 : Bytes → Option Bytes
  /-- `Document::from_pem`: label and DER -/
  pem : Str → Option (Str × Bytes)

variable (P : Prims)

/-- `SecretKey`, asymmetric.rs 49-61. -/
inductive SecretKey where
  | ecdsaP384Sha384 (k : P.p384.SK)
  | ecdsaP256Sha256 (k : P.p256.SK)
  | ed25519 (k : P.ed25519.SK)
  | rsaV15Sha256 (k : P.rsa15.SK)
  | rsaPssSha512 (k : P.rsaPss.SK)

/-- `PublicKey`, asymmetric.rs 243-256. -/
inductive PublicKey where
  | ecdsaP256Sha256 (k : P.p256.PK)
  | ecdsaP384Sha384 (k : P.p384.PK)
  | ed25519 (k : P.ed25519.PK)
  | rsaV15Sha256 (k : P.rsa15.PK)
  | rsaPssSha512 (k : P.rsaPss.PK)

variable {P}

/-- `SecretKey::from_bytes`, asymmetric.rs 65-100. `bytes.into()` (a `GenericArray` reference) panics unless the length
is 32 or 48; `copy_from_slice` panics unless it is 32. `rsa` is the feature flag. -/
def SecretKey.fromBytes (rsa : Bool) (alg : Alg) (b : Bytes) : Res SigErr (SecretKey P) :=
  match alg with
  | .ecdsaP256Sha256 =>
    if b.length ≠ 32 then .panic
    else do let k ← Res.ofOption .parsePrivateKey (P.p256.skOf b); .ok (.ecdsaP256Sha256 k)
  | .ecdsaP384Sha384 =>
    if b.length ≠ 48 then .panic
    else do let k ← Res.ofOption .parsePrivateKey (P.p384.skOf b); .ok (.ecdsaP384Sha384 k)
  | .ed25519 =>
    if b.length ≠ 32 then .panic
    else match P.ed25519.skOf b with
      | some k => .ok (.ed25519 k)
      | none => .panic
  | .rsaV15Sha256 =>
    if rsa then do let k ← Res.ofOption .parsePrivateKey (P.rsa15.skOf b); .ok (.rsaV15Sha256 k)
    else .err .parsePrivateKey
  | .rsaPssSha512 =>
    if rsa then do let k ← Res.ofOption .parsePrivateKey (P.rsaPss.skOf b); .ok (.rsaPssSha512 k)
    else .err .parsePrivateKey
  | .hmacSha256 => .err .parsePrivateKey

/-- Curve of an EC key, asymmetric.rs 113-117 and 313-317. -/
def algOfCurve (e : SigErr) (o : Str) : Res SigErr Alg :=
  if o = oidP256 then .ok .ecdsaP256Sha256
  else if o = oidP384 then .ok .ecdsaP384Sha384
  else .err e

/-- The key bytes selected by `SecretKey::from_der`, asymmetric.rs 106-146. -/
def skBytesOfPki (P : Prims) (rsa : Bool) (alg : Alg) (pki : Pki) : Res SigErr Bytes :=
  if pki.oid = oidEC then do
    let param ← Res.ofOption .parsePrivateKey pki.paramsOid
    let a ← algOfCurve .parsePrivateKey param
    if a ≠ alg then .err .parsePrivateKey
    else Res.ofOption .parsePrivateKey (P.sec1 pki.privateKey)
  else if pki.oid = oidEd25519 then
    if alg ≠ .ed25519 then .err .parsePrivateKey
    else if pki.privateKey.length < 2 then .panic
    else .ok (pki.privateKey.drop 2)
  else if rsa ∧ pki.oid = oidRsa then
    if alg = .rsaV15Sha256 ∨ alg = .rsaPssSha512 then .ok pki.privateKey
    else .err .parsePrivateKey
  else .err .parsePrivateKey

/-- `SecretKey::from_der`, asymmetric.rs 103-149. -/
def SecretKey.fromDer (rsa : Bool) (alg : Alg) (der : Bytes) : Res SigErr (SecretKey P) := do
  let pki ← Res.ofOption .parsePrivateKey (P.pkiOfDer der)
  let b ← skBytesOfPki P rsa alg pki
  SecretKey.fromBytes rsa alg b

/-- `SecretKey::from_pem`, asymmetric.rs 152-158. -/
def SecretKey.fromPem (rsa : Bool) (alg : Alg) (pem : Str) : Res SigErr (SecretKey P) := do
  let td ← Res.ofOption .parsePrivateKey (P.pem pem)
  if td.1 ≠ c! "PRIVATE KEY" then .err .parsePrivateKey
  else SecretKey.fromDer rsa alg td.2

/-- `SecretKey::public_key`, asymmetric.rs 161-171. -/
def SecretKey.publicKey : SecretKey P → PublicKey P
  | .ecdsaP256Sha256 k => .ecdsaP256Sha256 (P.p256.pub k)
  | .ecdsaP384Sha384 k => .ecdsaP384Sha384 (P.p384.pub k)
  | .ed25519 k => .ed25519 (P.ed25519.pub k)
  | .rsaV15Sha256 k => .rsaV15Sha256 (P.rsa15.pub k)
  | .rsaPssSha512 k => .rsaPssSha512 (P.rsaPss.pub k)

/-- Result of a library signing call: a failure inside it is a panic (the `Signer` traits used unwrap). -/
def signRes : Option Bytes → Res SigErr Bytes
  | some s => .ok s
  | none => .panic

/-- `SigningKey::sign for SecretKey`, asymmetric.rs 176-212; `rnd` is the randomness of the call. -/
def SecretKey.sign (rnd : Bytes) : SecretKey P → Bytes → Res SigErr Bytes
  | .ecdsaP256Sha256 k, d => signRes (P.p256.sign rnd k d)
  | .ecdsaP384Sha384 k, d => signRes (P.p384.sign rnd k d)
  | .ed25519 k, d => signRes (P.ed25519.sign rnd k d)
  | .rsaV15Sha256 k, d => signRes (P.rsa15.sign rnd k d)
  | .rsaPssSha512 k, d => signRes (P.rsaPss.sign rnd k d)

/-- `PublicKey::from_bytes`, asymmetric.rs 260-293. -/
def PublicKey.fromBytes (rsa : Bool) (alg : Alg) (b : Bytes) : Res SigErr (PublicKey P) :=
  match alg with
  | .ecdsaP256Sha256 => do let k ← Res.ofOption .parsePublicKey (P.p256.pkOf b); .ok (.ecdsaP256Sha256 k)
  | .ecdsaP384Sha384 => do let k ← Res.ofOption .parsePublicKey (P.p384.pkOf b); .ok (.ecdsaP384Sha384 k)
  | .ed25519 => do let k ← Res.ofOption .parsePublicKey (P.ed25519.pkOf b); .ok (.ed25519 k)
  | .rsaV15Sha256 =>
    if rsa then do let k ← Res.ofOption .parsePublicKey (P.rsa15.pkOf b); .ok (.rsaV15Sha256 k)
    else .err .parsePublicKey
  | .rsaPssSha512 =>
    if rsa then do let k ← Res.ofOption .parsePublicKey (P.rsaPss.pkOf b); .ok (.rsaPssSha512 k)
    else .err .parsePublicKey
  | .hmacSha256 => .err .parsePublicKey

/-- The key bytes selected by `PublicKey::from_pem`, asymmetric.rs 306-351. -/
def pkBytesOfSpki (rsa : Bool) (alg : Alg) (spki : Spki) : Res SigErr Bytes :=
  if spki.oid = oidEC then do
    let param ← Res.ofOption .parsePublicKey spki.paramsOid
    let a ← algOfCurve .parsePublicKey param
    if a ≠ alg then .err .parsePublicKey
    else Res.ofOption .parsePublicKey spki.publicKey
  else if spki.oid = oidEd25519 then
    if alg ≠ .ed25519 then .err .parsePublicKey
    else Res.ofOption .parsePublicKey spki.publicKey
  else if rsa ∧ spki.oid = oidRsa then
    if alg = .rsaV15Sha256 ∨ alg = .rsaPssSha512 then Res.ofOption .parsePublicKey spki.publicKey
    else .err .parsePublicKey
  else .err .parsePublicKey

/-- `PublicKey::from_pem`, asymmetric.rs 297-353. -/
def PublicKey.fromPem (rsa : Bool) (alg : Alg) (pem : Str) : Res SigErr (PublicKey P) := do
  let td ← Res.ofOption .parsePublicKey (P.pem pem)
  if td.1 ≠ c! "PUBLIC KEY" then .err .parsePublicKey
  else do
    let spki ← Res.ofOption .parsePublicKey (P.spkiOfDer td.2)
    let b ← pkBytesOfSpki rsa alg spki
    PublicKey.fromBytes rsa alg b

/-- Parse the signature, then verify. -/
def verifyRes (S : Scheme) (pk : S.PK) (data sig : Bytes) : Res SigErr Unit :=
  match S.sigOf sig with
  | none => .err .parseSignature
  | some s => if S.verify pk data s then .ok () else .err .invalidSignature

/-- `VerifyingKey::verify for PublicKey`, asymmetric.rs 358-402. For ECDSA `signature.into()` (a `GenericArray` reference)
panics unless the length is 64 or 96. -/
def PublicKey.verify : PublicKey P → Bytes → Bytes → Res SigErr Unit
  | .ecdsaP256Sha256 pk, d, s => if s.length ≠ 64 then .panic else verifyRes P.p256 pk d s
  | .ecdsaP384Sha384 pk, d, s => if s.length ≠ 96 then .panic else verifyRes P.p384 pk d s
  | .ed25519 pk, d, s => verifyRes P.ed25519 pk d s
  | .rsaV15Sha256 pk, d, s => verifyRes P.rsa15 pk d s
  | .rsaPssSha512 pk, d, s => verifyRes P.rsaPss pk d s

/-- `key_id for PublicKey`, asymmetric.rs 408-432. The fallback for a failed RSA serialization is inside `enc`. -/
def PublicKey.keyId : PublicKey P → Str
  | .ecdsaP256Sha256 k => Base64.encode (sha256 (P.p256.enc k))
  | .ecdsaP384Sha384 k => Base64.encode (sha256 (P.p384.enc k))
  | .ed25519 k => Base64.encode (sha256 (P.ed25519.enc k))
  | .rsaV15Sha256 k => Base64.encode (sha256 (P.rsa15.enc k))
  | .rsaPssSha512 k => Base64.encode (sha256 (P.rsaPss.enc k))

/-- `alg for PublicKey`, asymmetric.rs 435-445. -/
def PublicKey.alg : PublicKey P → Alg
  | .ecdsaP256Sha256 _ => .ecdsaP256Sha256
  | .ecdsaP384Sha384 _ => .ecdsaP384Sha384
  | .ed25519 _ => .ed25519
  | .rsaV15Sha256 _ => .rsaV15Sha256
  | .rsaPssSha512 _ => .rsaPssSha512

/-- `key_id`, `alg` and `verify` for `SecretKey`, asymmetric.rs 214-237: delegation to the public key. -/
def SecretKey.keyId (k : SecretKey P) : Str := k.publicKey.keyId
def SecretKey.alg (k : SecretKey P) : Alg := k.publicKey.alg
def SecretKey.verify (k : SecretKey P) (d s : Bytes) : Res SigErr Unit := k.publicKey.verify d s

def SecretKey.signing (k : SecretKey P) (rnd : Bytes) : SigningKey := ⟨k.sign rnd, k.keyId, k.alg⟩
def SecretKey.verifying (k : SecretKey P) : VerifyingKey := ⟨k.verify, k.keyId, k.alg⟩
def PublicKey.verifying (k : PublicKey P) : VerifyingKey := ⟨k.verify, k.keyId, k.alg⟩

end Verif
