import Verif.Model.Std
import Verif.Proofs.Ecdsa
/-!
The libraries with the nonces of RFC 6979. `sign_digest` of the crate ecdsa (asymmetric.rs 177-193) takes the nonce from RFC 6979 with
the hash of the curve and no additional data; the other theorems leave the nonce open.
-/
namespace Verif
open Sha2

/-- ECDSA nonces as the crate ecdsa documents them, asymmetric.rs 183 and 191. -/
def Libs.rfc6979 (L : Libs) : Libs where
  nonce256 _ d h := Ec.p256.nonce hmac d h
  nonce384 _ d h := Ec.p384.nonce (hmacOf sha384 128) d h
  nonce256_range _ _ _ _ h := Ec.nonceLoop_range h
  nonce384_range _ _ _ _ h := Ec.nonceLoop_range h
  ed := L.ed
  rsa := L.rsa

end Verif
