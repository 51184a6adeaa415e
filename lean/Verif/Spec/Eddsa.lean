import Verif.Basic
import Verif.Spec.Sha
import Mathlib.Data.ZMod.Basic
import Mathlib.Algebra.Field.ZMod
/-!
Ed25519 as in RFC 8032 section 5.1, with points as pairs of field elements and the addition formulas of section 5.1.4.
-/
namespace Verif.Spec.Eddsa
open Verif.Spec.Sha

/-- The order of the field. -/
def q25519 : Nat := 2 ^ 255 - 19

/-- The order of the base point. -/
def L : Nat := 2 ^ 252 + 27742317777372353535851937790883648493

/-- Value of bytes, least significant byte first. -/
def leVal : Bytes → Nat
  | [] => 0
  | b :: t => b.toNat + 256 * leVal t

section
variable (q : Nat) [Fact q.Prime]

/-- Coordinates. -/
abbrev Pair := ZMod q × ZMod q

def d : ZMod q := -121665 / 121666

variable {q}

/-- On the curve. -/
def On (P : Pair q) : Prop := -P.1 ^ 2 + P.2 ^ 2 = 1 + d q * P.1 ^ 2 * P.2 ^ 2

def sum (P Q : Pair q) : Pair q :=
  ((P.1 * Q.2 + Q.1 * P.2) / (1 + d q * P.1 * Q.1 * P.2 * Q.2), (P.2 * Q.2 + P.1 * Q.1) / (1 - d q * P.1 * Q.1 * P.2 * Q.2))

def zero : Pair q := (0, 1)

/-- Repeated addition. -/
def mul : Nat → Pair q → Pair q
  | 0, _ => zero
  | k + 1, P => sum (mul k P) P

/-- The base point: ordinate 4/5, abscissa even. -/
def IsBase (B : Pair q) : Prop := On B ∧ B.2 = 4 / 5 ∧ B.1.val % 2 = 0

/-- `b` encodes `P`, section 5.1.2: 255 bits of the ordinate, then the parity of the abscissa. A decoder that is not strict also takes an
ordinate that is not reduced (`strictY`), or the sign bit with abscissa zero (`strictX`). -/
def Encodes (strictY strictX : Bool) (b : Bytes) (P : Pair q) : Prop :=
  On P ∧ b.length = 32 ∧ ∃ y s, y < 2 ^ 255 ∧ s < 2 ∧ leVal b = y + 2 ^ 255 * s ∧ (y : ZMod q) = P.2 ∧
    (strictY = true → y < q) ∧ (P.1.val % 2 = s ∨ (P.1 = 0 ∧ strictX = false))

/-- Verification, section 5.1.7, in the forms in use: with strict decoding or not, with public keys of small order refused or not, with both
sides multiplied by 8 or not. In the last case the first half of the signature has to be the encoding of a point. -/
def Accepts (strictY strictX refuseSmall times8 : Bool) (V : Variant 64) (pk m sig : Bytes) : Prop :=
  ∃ (r s h : Bytes) (A B R : Pair q), sig = r ++ s ∧ r.length = 32 ∧ s.length = 32 ∧ leVal s < L ∧
    IsBase B ∧ Encodes strictY strictX pk A ∧ (refuseSmall = true → mul 8 A ≠ zero) ∧ Digest V (r ++ pk ++ m) h ∧
    if times8 then
      Encodes strictY strictX r R ∧ mul 8 (mul (leVal s) B) = sum (mul 8 R) (mul 8 (mul (leVal h % L) A))
    else Encodes true true r R ∧ mul (leVal s) B = sum R (mul (leVal h % L) A)

/-- The secret scalar, section 5.1.5: of the first 32 bytes of the hash of the seed the lowest three bits and the highest are cleared and
the second highest is set. -/
def Scalar (h : Bytes) (a : Nat) : Prop :=
  a < 2 ^ 255 ∧ ∀ i, i < 255 → a.testBit i = if i < 3 then false else if i = 254 then true else (leVal (h.take 32)).testBit i

/-- Signing, section 5.1.6, with the nonce `r`. -/
def Signs (V : Variant 64) (a r : Nat) (pk m sig : Bytes) : Prop :=
  ∃ (x s h : Bytes) (B : Pair q), sig = x ++ s ∧ s.length = 32 ∧ IsBase B ∧ Encodes true true x (mul r B) ∧ Digest V (x ++ pk ++ m) h ∧
    leVal s < L ∧ leVal s = (r + leVal h * a) % L

end

end Verif.Spec.Eddsa
