import Verif.Spec.Ecdsa
import Verif.Spec.Sha
/-!
The nonce of ECDSA by RFC 6979 section 3.2, for a hash as long as the group order, and HMAC (RFC 2104) with SHA-384. Written from
the standards, as relations; the text of RFC 6979 is not installed here.
-/
namespace Verif.Spec.Rfc6979
open Sha Ecdsa

/-- HMAC with SHA-384, whose blocks have 128 bytes. -/
def Hmac384 (V : Variant 64) (k text tag : Bytes) : Prop :=
  ∃ kb inner, (kb.length = 128 ∧ ∃ z, (k.length ≤ 128 ∧ kb = k ++ List.replicate z 0) ∨
      (128 < k.length ∧ ∃ h, Digest384 V k h ∧ kb = h ++ List.replicate z 0)) ∧
    Digest384 V (kb.map (· ^^^ 0x36) ++ text) inner ∧ Digest384 V (kb.map (· ^^^ 0x5c) ++ inner) tag

/-- Step h, from `K` and `V` on: `k` is taken after `i` candidates out of range. `M` is HMAC. -/
inductive Candidate (M : Bytes → Bytes → Bytes → Prop) (n : Nat) : Bytes → Bytes → Nat → Nat → Prop
  | take {K V T : Bytes} : M K V T → 0 < beVal T → beVal T < n → Candidate M n K V 0 (beVal T)
  | next {K V T K' V' : Bytes} {i k : Nat} : M K V T → (beVal T = 0 ∨ n ≤ beVal T) → M K (T ++ [0]) K' → M K' T V' →
      Candidate M n K' V' i k → Candidate M n K V (i + 1) k

/-- The nonce `k` for the private key `d` and the digest `h1`, steps b to h, after `i` candidates out of range. -/
def Nonce (D : Domain) (M : Bytes → Bytes → Bytes → Prop) (d : Nat) (h1 : Bytes) (i k : Nat) : Prop :=
  ∃ x z K₁ V₁ K₂ V₂, Octets D.len d x ∧ Octets D.len (beVal h1 % D.n) z ∧
    M (List.replicate D.len 0) (List.replicate D.len 1 ++ [0] ++ x ++ z) K₁ ∧ M K₁ (List.replicate D.len 1) V₁ ∧
    M K₁ (V₁ ++ [1] ++ x ++ z) K₂ ∧ M K₂ V₁ V₂ ∧ Candidate M D.n K₂ V₂ i k

end Verif.Spec.Rfc6979
