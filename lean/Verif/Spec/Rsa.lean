import Verif.Spec.Sha
import Verif.Spec.Asn1
/-!
RSASSA-PKCS1-v1_5 and RSASSA-PSS after RFC 8017, with the hash functions, mask generation and salt length of rsa-v1_5-sha256 and
rsa-pss-sha512 (RFC 9421 sections 3.3.1 and 3.3.2). Relations between bytes; numbers are those of the bytes.
-/
namespace Verif.Spec.Rsa
open Verif.Spec.Sha Verif.Spec.Asn1

/-- The modulus is `k` bytes long. -/
def Octets (n k : Nat) : Prop := 0 < k ∧ 256 ^ (k - 1) ≤ n ∧ n < 256 ^ k

/-- The modulus is `b + 1` bits long: `b` is `modBits - 1`, the `emBits` of RFC 8017 section 8.1. -/
def EmBits (n b : Nat) : Prop := 2 ^ b ≤ n ∧ n < 2 ^ (b + 1)

/-! ### RSASSA-PKCS1-v1_5 -/

/-- id-sha256, RFC 8017 appendix B.1. -/
def idSha256 : List Nat := [2, 16, 840, 1, 101, 3, 4, 2, 1]

/-- The contents of an OBJECT IDENTIFIER with every number in the fewest bytes. -/
def ShortOid (ns : List Nat) (c : Bytes) : Prop := Oid ns c ∧ ∀ c', Oid ns c' → c.length ≤ c'.length

/-- DigestInfo with the digest `h`, RFC 8017 section 9.2 step 2 and appendix A.2.4: the parameters are NULL. -/
def DigestInfo (h t : Bytes) : Prop :=
  ∃ o a y z, ShortOid idSha256 o ∧ AlgorithmIdentifier o (some (5, [])) a ∧ Elem 0x30 a y ∧ Elem 4 h z ∧ Elem 0x30 (y ++ z) t

/-- EMSA-PKCS1-v1_5, section 9.2: the message `m` encoded in `k` bytes. -/
def Pkcs1 (V : Variant 32) (k : Nat) (m em : Bytes) : Prop :=
  ∃ h t ps, Digest V m h ∧ DigestInfo h t ∧ 8 ≤ ps.length ∧ (∀ x ∈ ps, x = 0xff) ∧
    em = 0 :: 1 :: ps ++ 0 :: t ∧ em.length = k

/-- Section 8.2.2: the signature, raised to the public exponent, is the encoded message. `len` says which lengths may be given for a
modulus of `k` bytes; in the RFC `k` only. -/
def Verifies15 (V : Variant 32) (len : Nat → Nat → Bool) (n e : Nat) (m sig : Bytes) : Prop :=
  ∃ k em, Octets n k ∧ len k sig.length = true ∧ beVal sig < n ∧ Pkcs1 V k m em ∧ beVal sig ^ e % n = beVal em

/-! ### RSASSA-PSS -/

/-- MGF1, appendix B.2.1: as many digests as are needed, of the seed followed by the number of the digest in four bytes. -/
def Mgf1 (V : Variant 64) (seed mask : Bytes) : Prop :=
  ∃ (ts : List Bytes) (rest : Bytes), ts.flatten = mask ++ rest ∧ rest.length < 64 ∧
    ∀ i t, ts[i]? = some t → ∃ c, c.length = 4 ∧ beVal c = i ∧ Digest V (seed ++ c) t

/-- EMSA-PSS-ENCODE, section 9.1.1, with `bits` for `emBits`: `em` is as long as `bits` bits need, the masked data block has
zeros where it has more bits than these. -/
def Pss (V : Variant 64) (bits : Nat) (m salt em : Bytes) : Prop :=
  ∃ hm h mask masked z, bits ≤ 8 * em.length ∧ 8 * em.length < bits + 8 ∧
    Digest V m hm ∧ Digest V (List.replicate 8 0 ++ hm ++ salt) h ∧
    Mgf1 V h mask ∧ mask.length = z + 1 + salt.length ∧ masked.length = z + 1 + salt.length ∧
    beVal masked = (beVal (List.replicate z 0 ++ [1] ++ salt) ^^^ beVal mask) % 2 ^ (8 * masked.length - (8 * em.length - bits)) ∧
    em = masked ++ h ++ [0xbc]

/-- Section 8.1.2 with a salt of 64 bytes: the signature, raised to the public exponent, is an encoding of the message. With `top` false,
what precedes the encoded message in the number is not looked at; this makes a difference only if `bits` is a multiple of 8. -/
def VerifiesPss (V : Variant 64) (len : Nat → Nat → Bool) (top : Bool) (n e : Nat) (m sig : Bytes) : Prop :=
  ∃ k bits em salt, Octets n k ∧ EmBits n bits ∧ len k sig.length = true ∧ beVal sig < n ∧ salt.length = 64 ∧
    Pss V bits m salt em ∧ (if top then beVal sig ^ e % n else beVal sig ^ e % n % 256 ^ em.length) = beVal em

/-! ### Keys -/

/-- What is asked of the numbers of a private key: section 3.2, but for the primes being primes. -/
def Fits (n e d p q : Nat) : Prop := p * q = n ∧ 1 < p ∧ 1 < q ∧ d * e % (p - 1) = 1 ∧ d * e % (q - 1) = 1

end Verif.Spec.Rsa
