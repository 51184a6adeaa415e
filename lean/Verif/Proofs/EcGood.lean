import Verif.Proofs.Ecdsa
import Verif.Proofs.Primes
import Verif.Proofs.EcFast
/-! The constants of P-256 and P-384 are those of curves with a base point of prime order. -/
namespace Verif.Ec

set_option maxRecDepth 100000 in
theorem p256_order : p256.smul p256.n p256.g = .inf := by
  rw [smul_fast Primes.prime_p256 (by decide +kernel)]; decide +kernel

set_option maxRecDepth 100000 in
theorem p384_order : p384.smul p384.n p384.g = .inf := by
  rw [smul_fast Primes.prime_p384 (by decide +kernel)]; decide +kernel

theorem p256_good : p256.Good where
  prime := Primes.prime_p256
  big := by decide +kernel
  disc := by decide +kernel
  mod4 := by decide +kernel
  nprime := Primes.prime_n256
  nbig := by decide +kernel
  base := by decide +kernel
  order := p256_order
  plen := by decide +kernel
  nlen := by decide +kernel

theorem p384_good : p384.Good where
  prime := Primes.prime_p384
  big := by decide +kernel
  disc := by decide +kernel
  mod4 := by decide +kernel
  nprime := Primes.prime_n384
  nbig := by decide +kernel
  base := by decide +kernel
  order := p384_order
  plen := by decide +kernel
  nlen := by decide +kernel

end Verif.Ec
