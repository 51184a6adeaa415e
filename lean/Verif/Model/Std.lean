import Verif.Model.Ecdsa
import Verif.Model.Ed
import Verif.Model.Rsa
/-! The primitives of asymmetric.rs with the concrete algorithms put in. -/
namespace Verif
open Sha2

/-- What is left open about the libraries. -/
structure Libs where
  /-- the ECDSA nonce from the randomness of the call, the key and the digest -/
  nonce256 : Bytes → Nat → Bytes → Option Nat
  nonce384 : Bytes → Nat → Bytes → Option Nat
  nonce256_range : ∀ r d h k, nonce256 r d h = some k → 0 < k ∧ k < Ec.p256.n
  nonce384_range : ∀ r d h k, nonce384 r d h = some k → 0 < k ∧ k < Ec.p384.n
  ed : Ed.Variant
  rsa : Rsa.Lib

/-- The primitives: p256, p384, ed25519_compact, rsa, pkcs8, spki, sec1 and pem-rfc7468. -/
def Libs.prims (L : Libs) : Prims where
  p256 := Ec.ecdsaWith Ec.p256 sha256 L.nonce256
  p384 := Ec.ecdsaWith Ec.p384 sha384 L.nonce384
  ed25519 := Ed.ed25519 L.ed
  rsa15 := Rsa.rsa15 L.rsa
  rsaPss := Rsa.rsaPss L.rsa
  pkiOfDer := Der.pkiOfDer L.rsa.der
  spkiOfDer := Der.spkiOfDer L.rsa.der
  sec1 := Der.sec1 L.rsa.der
  pem := Der.pem L.rsa.der

end Verif
