import Verif.Model.ErrText
import Verif.Model.Crypto
/-!
Errors of keys with their messages, and `Debug` of shared keys. The functions are those of Model/Crypto.lean with the message beside the kind of
every error; Props/C112.lean proves that without the messages they are the same.
-/
namespace Verif
open Sha2

/-- Messages of other crates: of `base64` for a text; of `pem`, `pkcs8`, `spki`, `sec1` for what they were given; of the parameters of an algorithm in
a file; of the crates of the algorithms for a private key, a public key and a signature that cannot be read, and for a signature that is wrong
under a public key (given by its bytes). -/
structure KeyErrLib where
  base64 : Str → Str
  pem : Str → Str
  pki : Bytes → Str
  spki : Bytes → Str
  params : Bytes → Str
  sec1 : Bytes → Str
  secretKey : Alg → Bytes → Str
  publicKey : Alg → Bytes → Str
  signature : Alg → Bytes → Str
  wrong : Alg → Bytes → Bytes → Bytes → Str

section
variable (L : KeyErrLib)

/-- `FromStr for AlgorithmName`, crypto/mod.rs 43-59. -/
def Alg.ofStrT (rsa : Bool) (s : Str) : Res SigErrT Alg :=
  if s = c! "hmac-sha256" then .ok .hmacSha256
  else if s = c! "ecdsa-p256-sha256" then .ok .ecdsaP256Sha256
  else if s = c! "ecdsa-p384-sha384" then .ok .ecdsaP384Sha384
  else if s = c! "ed25519" then .ok .ed25519
  else if rsa ∧ s = c! "rsa-v1_5-sha256" then .ok .rsaV15Sha256
  else if rsa ∧ s = c! "rsa-pss-sha512" then .ok .rsaPssSha512
  else .err ⟨.invalidAlgorithmName, s⟩

/-! ### symmetric.rs -/

/-- `SharedKey::from_base64`, symmetric.rs 23-33; the message of the first error is that of `base64` (error.rs 9-10). -/
def SharedKey.fromBase64T (alg : Alg) (key : Str) : Res SigErrT SharedKey := do
  let k ← Res.ofOption ⟨.base64Decode, L.base64 key⟩ (Base64.decode true key)
  match alg with
  | .hmacSha256 => .ok (.hmacSha256 k)
  | a => .err ⟨.invalidAlgorithmName, c! "Unsupported algorithm for SharedKey: " ++ a.toStr⟩

/-- `verify`, symmetric.rs 61-72. -/
def SharedKey.verifyT : SharedKey → Bytes → Bytes → Res SigErrT Unit
  | .hmacSha256 k, data, tag => if tag = hmac k data then .ok () else .err ⟨.invalidSignature, c! "Invalid MAC"⟩

/-- `Debug` of a shared key (derived, symmetric.rs 13): the name of the variant and the bytes in decimal. -/
def SharedKey.debug : SharedKey → Str
  | .hmacSha256 k => c! "HmacSha256([" ++ join (c! ", ") (k.map fun b => natStr b.toNat) ++ c! "])"

/-! ### asymmetric.rs -/

variable {P : Prims}

/-- `SecretKey::from_bytes`, asymmetric.rs 65-100. -/
def SecretKey.fromBytesT (rsa : Bool) (alg : Alg) (b : Bytes) : Res SigErrT (SecretKey P) :=
  match alg with
  | .ecdsaP256Sha256 =>
    if b.length ≠ 32 then .panic
    else do let k ← Res.ofOption ⟨.parsePrivateKey, L.secretKey alg b⟩ (P.p256.skOf b); .ok (.ecdsaP256Sha256 k)
  | .ecdsaP384Sha384 =>
    if b.length ≠ 48 then .panic
    else do let k ← Res.ofOption ⟨.parsePrivateKey, L.secretKey alg b⟩ (P.p384.skOf b); .ok (.ecdsaP384Sha384 k)
  | .ed25519 =>
    if b.length ≠ 32 then .panic
    else match P.ed25519.skOf b with
      | some k => .ok (.ed25519 k)
      | none => .panic
  | .rsaV15Sha256 =>
    if rsa then do let k ← Res.ofOption ⟨.parsePrivateKey, L.secretKey alg b⟩ (P.rsa15.skOf b); .ok (.rsaV15Sha256 k)
    else .err ⟨.parsePrivateKey, c! "Unsupported algorithm"⟩
  | .rsaPssSha512 =>
    if rsa then do let k ← Res.ofOption ⟨.parsePrivateKey, L.secretKey alg b⟩ (P.rsaPss.skOf b); .ok (.rsaPssSha512 k)
    else .err ⟨.parsePrivateKey, c! "Unsupported algorithm"⟩
  | .hmacSha256 => .err ⟨.parsePrivateKey, c! "Unsupported algorithm"⟩

/-- Curve of an EC key, asymmetric.rs 113-117 and 313-317. -/
def algOfCurveT (e : SigErr) (o : Str) : Res SigErrT Alg :=
  if o = oidP256 then .ok .ecdsaP256Sha256
  else if o = oidP384 then .ok .ecdsaP384Sha384
  else .err ⟨e, c! "Unsupported curve"⟩

/-- The key bytes selected by `SecretKey::from_der`, asymmetric.rs 106-146. -/
def skBytesOfPkiT (P : Prims) (rsa : Bool) (alg : Alg) (der : Bytes) (pki : Pki) : Res SigErrT Bytes :=
  if pki.oid = oidEC then do
    let param ← Res.ofOption ⟨.parsePrivateKey, L.params der⟩ pki.paramsOid
    let a ← algOfCurveT .parsePrivateKey param
    if a ≠ alg then .err ⟨.parsePrivateKey, c! "Algorithm mismatch"⟩
    else Res.ofOption ⟨.parsePrivateKey, c! "Error decoding EcPrivateKey: " ++ L.sec1 pki.privateKey⟩ (P.sec1 pki.privateKey)
  else if pki.oid = oidEd25519 then
    if alg ≠ .ed25519 then .err ⟨.parsePrivateKey, c! "Algorithm mismatch"⟩
    else if pki.privateKey.length < 2 then .panic
    else .ok (pki.privateKey.drop 2)
  else if rsa ∧ pki.oid = oidRsa then
    if alg = .rsaV15Sha256 ∨ alg = .rsaPssSha512 then .ok pki.privateKey
    else .err ⟨.parsePrivateKey, c! "Algorithm mismatch"⟩
  else .err ⟨.parsePrivateKey, c! "Unsupported algorithm"⟩

/-- `SecretKey::from_der`, asymmetric.rs 103-149. -/
def SecretKey.fromDerT (rsa : Bool) (alg : Alg) (der : Bytes) : Res SigErrT (SecretKey P) := do
  let pki ← Res.ofOption ⟨.parsePrivateKey, L.pki der⟩ (P.pkiOfDer der)
  let b ← skBytesOfPkiT L P rsa alg der pki
  SecretKey.fromBytesT L rsa alg b

/-- `SecretKey::from_pem`, asymmetric.rs 152-158. -/
def SecretKey.fromPemT (rsa : Bool) (alg : Alg) (pem : Str) : Res SigErrT (SecretKey P) := do
  let td ← Res.ofOption ⟨.parsePrivateKey, L.pem pem⟩ (P.pem pem)
  if td.1 ≠ c! "PRIVATE KEY" then .err ⟨.parsePrivateKey, c! "Invalid tag"⟩
  else SecretKey.fromDerT L rsa alg td.2

/-- `PublicKey::from_bytes`, asymmetric.rs 260-293. -/
def PublicKey.fromBytesT (rsa : Bool) (alg : Alg) (b : Bytes) : Res SigErrT (PublicKey P) :=
  match alg with
  | .ecdsaP256Sha256 => do let k ← Res.ofOption ⟨.parsePublicKey, L.publicKey alg b⟩ (P.p256.pkOf b); .ok (.ecdsaP256Sha256 k)
  | .ecdsaP384Sha384 => do let k ← Res.ofOption ⟨.parsePublicKey, L.publicKey alg b⟩ (P.p384.pkOf b); .ok (.ecdsaP384Sha384 k)
  | .ed25519 => do let k ← Res.ofOption ⟨.parsePublicKey, L.publicKey alg b⟩ (P.ed25519.pkOf b); .ok (.ed25519 k)
  | .rsaV15Sha256 =>
    if rsa then do let k ← Res.ofOption ⟨.parsePublicKey, L.publicKey alg b⟩ (P.rsa15.pkOf b); .ok (.rsaV15Sha256 k)
    else .err ⟨.parsePublicKey, c! "Unsupported algorithm"⟩
  | .rsaPssSha512 =>
    if rsa then do let k ← Res.ofOption ⟨.parsePublicKey, L.publicKey alg b⟩ (P.rsaPss.pkOf b); .ok (.rsaPssSha512 k)
    else .err ⟨.parsePublicKey, c! "Unsupported algorithm"⟩
  | .hmacSha256 => .err ⟨.parsePublicKey, c! "Unsupported algorithm"⟩

/-- The key bytes selected by `PublicKey::from_pem`, asymmetric.rs 306-351. -/
def pkBytesOfSpkiT (rsa : Bool) (alg : Alg) (der : Bytes) (spki : Spki) : Res SigErrT Bytes :=
  if spki.oid = oidEC then do
    let param ← Res.ofOption ⟨.parsePublicKey, L.params der⟩ spki.paramsOid
    let a ← algOfCurveT .parsePublicKey param
    if a ≠ alg then .err ⟨.parsePublicKey, c! "Algorithm mismatch"⟩
    else Res.ofOption ⟨.parsePublicKey, c! "Invalid public key"⟩ spki.publicKey
  else if spki.oid = oidEd25519 then
    if alg ≠ .ed25519 then .err ⟨.parsePublicKey, c! "Algorithm mismatch"⟩
    else Res.ofOption ⟨.parsePublicKey, c! "Invalid public key"⟩ spki.publicKey
  else if rsa ∧ spki.oid = oidRsa then
    if alg = .rsaV15Sha256 ∨ alg = .rsaPssSha512 then Res.ofOption ⟨.parsePublicKey, c! "Invalid public key"⟩ spki.publicKey
    else .err ⟨.parsePublicKey, c! "Algorithm mismatch"⟩
  else .err ⟨.parsePublicKey, c! "Unsupported algorithm"⟩

/-- `PublicKey::from_pem`, asymmetric.rs 297-353. -/
def PublicKey.fromPemT (rsa : Bool) (alg : Alg) (pem : Str) : Res SigErrT (PublicKey P) := do
  let td ← Res.ofOption ⟨.parsePublicKey, L.pem pem⟩ (P.pem pem)
  if td.1 ≠ c! "PUBLIC KEY" then .err ⟨.parsePublicKey, c! "Invalid tag"⟩
  else do
    let spki ← Res.ofOption ⟨.parsePublicKey, c! "Error decoding SubjectPublicKeyInfo: " ++ L.spki td.2⟩ (P.spkiOfDer td.2)
    let b ← pkBytesOfSpkiT L rsa alg td.2 spki
    PublicKey.fromBytesT L rsa alg b

/-- Parse the signature, then verify. -/
def verifyResT (alg : Alg) (S : Scheme) (pk : S.PK) (data sig : Bytes) : Res SigErrT Unit :=
  match S.sigOf sig with
  | none => .err ⟨.parseSignature, L.signature alg sig⟩
  | some s => if S.verify pk data s then .ok () else .err ⟨.invalidSignature, L.wrong alg (S.enc pk) data sig⟩

/-- `VerifyingKey::verify for PublicKey`, asymmetric.rs 358-402. -/
def PublicKey.verifyT : PublicKey P → Bytes → Bytes → Res SigErrT Unit
  | .ecdsaP256Sha256 pk, d, s => if s.length ≠ 64 then .panic else verifyResT L .ecdsaP256Sha256 P.p256 pk d s
  | .ecdsaP384Sha384 pk, d, s => if s.length ≠ 96 then .panic else verifyResT L .ecdsaP384Sha384 P.p384 pk d s
  | .ed25519 pk, d, s => verifyResT L .ed25519 P.ed25519 pk d s
  | .rsaV15Sha256 pk, d, s => verifyResT L .rsaV15Sha256 P.rsa15 pk d s
  | .rsaPssSha512 pk, d, s => verifyResT L .rsaPssSha512 P.rsaPss pk d s

end
end Verif
