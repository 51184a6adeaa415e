import Verif.Model.ModArith
import Verif.Model.Der
/-!
RSASSA-PKCS1-v1_5 with SHA-256 and RSASSA-PSS with SHA-512 and a salt of 64 bytes, as provided by the crate rsa to
asymmetric.rs 84-98, 199-210, 277-291, 387-400 and 414-425. The crate's source is not in the repository; this follows RFC
8017. Points on which the source would be needed are fields of `Lib`; every theorem holds for all choices.
-/
namespace Verif.Rsa
open ModArith Sha2 Der

structure Pub where
  n : Nat
  e : Nat
  deriving DecidableEq

structure Priv where
  n : Nat
  e : Nat
  d : Nat
  p : Nat
  q : Nat
  deriving DecidableEq

/-- What may differ between versions of the library. -/
structure Lib where
  der : Der.Lib
  /-- limits on modulus and public exponent -/
  okPub : Pub → Bool
  /-- further limits on private keys -/
  okPriv : Priv → Bool
  /-- the private operation, with the randomness used for blinding -/
  raw : Bytes → Priv → Nat → Nat
  /-- signature lengths accepted, given the length of the modulus -/
  sigLen : Nat → Nat → Bool
  sigLen_self : ∀ k, sigLen k k = true
  /-- PSS: when the encoded message is one byte shorter than the modulus, the byte before it must be zero -/
  topByte : Bool

/-- Length of the modulus in bytes. -/
def size (n : Nat) : Nat := Nat.log2 n / 8 + 1

/-- The private key fits its public key: RFC 8017 section 3.2 for two primes, except that they are not tested for being
prime. -/
def Priv.Ok (L : Lib) (k : Priv) : Prop :=
  L.okPub ⟨k.n, k.e⟩ = true ∧ L.okPriv k = true ∧ k.p * k.q = k.n ∧ 1 < k.p ∧ 1 < k.q ∧
    k.d * k.e % (k.p - 1) = 1 ∧ k.d * k.e % (k.q - 1) = 1

instance (L : Lib) (k : Priv) : Decidable (k.Ok L) := by unfold Priv.Ok; infer_instance

/-- `RsaPublicKey::from_pkcs1_der`: RFC 8017 section A.1.1. -/
def pubOfDer (L : Der.Lib) (b : Bytes) : Option Pub := do
  let c ← readAll L 0x30 b
  let (n, r) ← readUint L c
  let (e, r) ← readUint L r
  if r = [] then some ⟨n, e⟩ else none

/-- `RsaPrivateKey::from_pkcs1_der`: RFC 8017 section A.1.2, version 0. The last three numbers are read and not used. -/
def privOfDer (L : Der.Lib) (b : Bytes) : Option Priv := do
  let c ← readAll L 0x30 b
  let (v, r) ← readUint L c
  let (n, r) ← readUint L r
  let (e, r) ← readUint L r
  let (d, r) ← readUint L r
  let (p, r) ← readUint L r
  let (q, r) ← readUint L r
  let (_, r) ← readUint L r
  let (_, r) ← readUint L r
  let (_, r) ← readUint L r
  if v = 0 ∧ r = [] then some ⟨n, e, d, p, q⟩ else none

/-- DER of a public key, `to_pkcs1_der` at asymmetric.rs 414-425. The crate fails only when a length does not fit its length type, which
no key within its size limits reaches; so the text `rsa-der-serialization-failed` used by the code in that case is left out. -/
def pubDer (k : Pub) : Bytes := tlv 0x30 (tlv 2 (uintBytes k.n) ++ tlv 2 (uintBytes k.e))

/-- The private operation on an encoded message and the test that the public operation undoes it; failing it is an error
that the caller turns into a panic. -/
def privOp (L : Lib) (rnd : Bytes) (k : Priv) (em : Nat) : Option Bytes :=
  let s := L.raw rnd k em % k.n
  if powMod k.n s k.e = em then some (beBytes (size k.n) s) else none

/-- The public operation on a signature. -/
def pubOp (L : Lib) (k : Pub) (sig : Bytes) : Option Nat :=
  if L.sigLen (size k.n) sig.length ∧ beNat sig < k.n then some (powMod k.n (beNat sig) k.e) else none

/-! ### PKCS #1 v1.5 -/

/-- DER of `DigestInfo` for SHA-256 up to the digest. -/
def prefix256 : Bytes :=
  [0x30, 0x31, 0x30, 0x0d, 0x06, 0x09, 0x60, 0x86, 0x48, 0x01, 0x65, 0x03, 0x04, 0x02, 0x01, 0x05, 0x00, 0x04, 0x20]

/-- EMSA-PKCS1-v1_5, RFC 8017 section 9.2. -/
def em15 (k : Nat) (m : Bytes) : Option Bytes :=
  if k < 62 then none
  else some ([0, 1] ++ List.replicate (k - 54) 0xff ++ [0] ++ prefix256 ++ sha256 m)

def sign15 (L : Lib) (rnd : Bytes) (k : Priv) (m : Bytes) : Option Bytes := do
  let em ← em15 (size k.n) m
  privOp L rnd k (beNat em)

def verify15 (L : Lib) (k : Pub) (m sig : Bytes) : Bool :=
  match pubOp L k sig, em15 (size k.n) m with
  | some v, some em => beBytes (size k.n) v == em
  | _, _ => false

/-! ### PSS -/

/-- MGF1 with SHA-512, RFC 8017 section B.2.1. -/
def mgf1 (seed : Bytes) (len : Nat) : Bytes :=
  ((List.range ((len + 63) / 64)).flatMap fun i => sha512 (seed ++ beBytes 4 i)).take len

def xorBytes (a b : Bytes) : Bytes := List.zipWith (· ^^^ ·) a b

/-- Clear the first `z` bits. -/
def clearTop (z : Nat) : Bytes → Bytes
  | [] => []
  | b :: t => UInt8.ofNat (b.toNat % 2 ^ (8 - z)) :: t

/-- Length of an encoded message of `bits` bits. -/
def emLen (bits : Nat) : Nat := (bits + 7) / 8

/-- EMSA-PSS-ENCODE, RFC 8017 section 9.1.1. -/
def pssEncode (bits : Nat) (m salt : Bytes) : Option Bytes :=
  if emLen bits < 64 + salt.length + 2 then none
  else
    let h := sha512 (List.replicate 8 0 ++ sha512 m ++ salt)
    let db := List.replicate (emLen bits - salt.length - 66) 0 ++ [1] ++ salt
    some (clearTop (8 * emLen bits - bits) (xorBytes db (mgf1 h (emLen bits - 65))) ++ h ++ [0xbc])

/-- EMSA-PSS-VERIFY, RFC 8017 section 9.1.2, for a salt of 64 bytes. -/
def pssVerify (bits : Nat) (m em : Bytes) : Bool :=
  let n := emLen bits
  let z := 8 * n - bits
  if n < 130 ∨ em.drop (n - 1) ≠ [0xbc] then false
  else
    let masked := em.take (n - 65)
    let h := (em.drop (n - 65)).take 64
    if clearTop z masked ≠ masked then false
    else
      let db := clearTop z (xorBytes masked (mgf1 h (n - 65)))
      if db.take (n - 130) ≠ List.replicate (n - 130) 0 ∨ (db.drop (n - 130)).take 1 ≠ [1] then false
      else h == sha512 (List.replicate 8 0 ++ sha512 m ++ db.drop (n - 129))

/-- The salt: 64 bytes of the randomness of the call. -/
def saltOf (rnd : Bytes) : Bytes := (rnd ++ List.replicate 64 0).take 64

def signPss (L : Lib) (rnd : Bytes) (k : Priv) (m : Bytes) : Option Bytes := do
  let em ← pssEncode (Nat.log2 k.n) m (saltOf rnd)
  privOp L rnd k (beNat em)

def verifyPss (L : Lib) (k : Pub) (m sig : Bytes) : Bool :=
  match pubOp L k sig with
  | some v =>
    (!L.topByte || decide (v < 256 ^ emLen (Nat.log2 k.n))) &&
      pssVerify (Nat.log2 k.n) m (beBytes (emLen (Nat.log2 k.n)) v)
  | none => false

/-! ### Schemes -/

/-- A scheme from its signing and verification functions. -/
def scheme (L : Lib) (sign : Bytes → Priv → Bytes → Option Bytes) (verify : Pub → Bytes → Bytes → Bool) : Scheme where
  SK := { k : Priv // k.Ok L }
  PK := { k : Pub // L.okPub k = true }
  Sig := Bytes
  skOf b := (privOfDer L.der b).bind fun k => if h : k.Ok L then some ⟨k, h⟩ else none
  pkOf b := (pubOfDer L.der b).bind fun k => if h : L.okPub k = true then some ⟨k, h⟩ else none
  pub k := ⟨⟨k.1.n, k.1.e⟩, k.2.1⟩
  sign rnd k m := sign rnd k.1 m
  sigOf := some
  verify k m s := verify k.1 m s
  enc k := pubDer k.1

/-- rsa-v1_5-sha256. -/
def rsa15 (L : Lib) : Scheme := scheme L (sign15 L) (verify15 L)

/-- rsa-pss-sha512. -/
def rsaPss (L : Lib) : Scheme := scheme L (signPss L) (verifyPss L)

/-! ### One choice of the parameters -/

/-- Private operation without the Chinese remainder theorem. -/
def rawPow (k : Priv) (c : Nat) : Nat := powMod k.n c k.d

/-- Private operation with the Chinese remainder theorem, RFC 8017 section 5.1.2. -/
def rawCrt (k : Priv) (c : Nat) : Nat :=
  let a := powMod k.p c (k.d % (k.p - 1))
  let b := powMod k.q c (k.d % (k.q - 1))
  b + k.q * (sub k.p a (b % k.p) * inv k.p k.q % k.p)

/-- The limits of the crate as far as they are documented. -/
def lib : Lib :=
  ⟨Der.lib, fun k => Nat.log2 k.n < 4096 ∧ k.n % 2 = 1 ∧ 2 ≤ k.e ∧ k.e < 2 ^ 33, fun _ => true, fun _ k c => rawCrt k c,
    fun k l => l == k, fun k => by simp, true⟩

end Verif.Rsa
