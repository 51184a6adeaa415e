import Verif.Basic
import Verif.Spec.Sha
import Mathlib.AlgebraicGeometry.EllipticCurve.Affine.Point
import Mathlib.Data.ZMod.Basic
import Mathlib.FieldTheory.Finite.Basic
/-!
ECDSA as in FIPS 186-4 section 6 and SEC 1 version 2, over Mathlib's group of points of an elliptic curve.
-/
namespace Verif.Spec.Ecdsa
open Verif.Spec.Sha

/-- Domain parameters: the field, the curve `y² = x³ + a x + b`, the base point and its order, and the length in bytes of a
field element and of a scalar. -/
structure Domain where
  (p a b gx gy n len : Nat)
  deriving DecidableEq

/-- FIPS 186-4 section D.1.2.3. -/
def P256 : Domain where
  p := 2 ^ 256 - 2 ^ 224 + 2 ^ 192 + 2 ^ 96 - 1
  a := 2 ^ 256 - 2 ^ 224 + 2 ^ 192 + 2 ^ 96 - 4 -- `-3`
  b := 41058363725152142129326129780047268409114441015993725554835256314039467401291
  gx := 48439561293906451759052585252797914202762949526041747995844080717082404635286
  gy := 36134250956749795798585127919587881956611106672985015071877198253568414405109
  n := 115792089210356248762697446949407573529996955224135760342422259061068512044369
  len := 32

/-- FIPS 186-4 section D.1.2.4. -/
def P384 : Domain where
  p := 2 ^ 384 - 2 ^ 128 - 2 ^ 96 + 2 ^ 32 - 1
  a := 2 ^ 384 - 2 ^ 128 - 2 ^ 96 + 2 ^ 32 - 4 -- `-3`
  b := 27580193559959705877849011840389048093056905856361568521428707301988689241309860865136260764883745107765439761230575
  gx := 26247035095799689268623156744566981891852923491109213387815615900925518854738050089022388053975719786650872476732087
  gy := 8325710961489029985546751289520108179287853048861315594709205902480503199884419224438643760392947333078086511627871
  n := 39402006196394479212279040100143613805079739270465446667946905279627659399113263569398956308152294913554433653942643
  len := 48

variable (D : Domain)

/-- The curve. -/
abbrev Domain.curve : WeierstrassCurve.Affine (ZMod D.p) := { a₁ := 0, a₂ := 0, a₃ := 0, a₄ := D.a, a₆ := D.b }

/-- The base point. -/
def Domain.IsBase (G : D.curve.Point) : Prop := ∃ h, G = .some (D.gx : ZMod D.p) (D.gy : ZMod D.p) h

/-- `(r, s)` is a signature for the digest `z` and the public key `Q`, FIPS 186-4 section 6.4. -/
def Domain.Valid [Fact D.p.Prime] (Q : D.curve.Point) (z r s : Nat) : Prop :=
  (0 < r ∧ r < D.n) ∧ (0 < s ∧ s < D.n) ∧
  ∃ (G : D.curve.Point) (w : Nat) (x y : ZMod D.p) (h : D.curve.Nonsingular x y), D.IsBase G ∧ w * s % D.n = 1 ∧
    (z * w) • G + (r * w) • Q = .some x y h ∧ x.val % D.n = r

/-- How `(r, s)` is made with the private key `d` and the nonce `k`, FIPS 186-4 section 6.3. -/
def Domain.Signs [Fact D.p.Prime] (d k z r s : Nat) : Prop :=
  (0 < k ∧ k < D.n) ∧ 0 < r ∧ 0 < s ∧ s < D.n ∧
  ∃ (G : D.curve.Point) (x y : ZMod D.p) (h : D.curve.Nonsingular x y), D.IsBase G ∧
    k • G = .some x y h ∧ x.val % D.n = r ∧ k * s % D.n = (z + r * d) % D.n

/-- A number as bytes of fixed length, big-endian. -/
def Octets (len n : Nat) (b : Bytes) : Prop := b.length = len ∧ beVal b = n

/-- A signature as bytes: both numbers at the length of the domain (RFC 9421 section 3.3.4). -/
def Domain.SigBytes (r s : Nat) (b : Bytes) : Prop := ∃ x y, b = x ++ y ∧ Octets D.len r x ∧ Octets D.len s y

/-- A compressed point, SEC 1 section 2.3.3: the parity of the ordinate, the abscissa. -/
def Domain.Compressed (Q : D.curve.Point) (b : Bytes) : Prop :=
  ∃ x y h X, Q = .some x y h ∧ b = (if y.val % 2 = 0 then 2 else 3) :: X ∧ Octets D.len x.val X

/-- An uncompressed point. -/
def Domain.Uncompressed (Q : D.curve.Point) (b : Bytes) : Prop :=
  ∃ x y h X Y, Q = .some x y h ∧ b = 4 :: X ++ Y ∧ Octets D.len x.val X ∧ Octets D.len y.val Y

/-- The compact form of the crate sec1 (draft-jivsov-ecc-compact): the smaller of the two ordinates is meant. -/
def Domain.Compact (Q : D.curve.Point) (b : Bytes) : Prop :=
  ∃ x y h X, Q = .some x y h ∧ b = 5 :: X ∧ Octets D.len x.val X ∧ y.val ≤ (-y).val

/-- The forms of a public key that are read. -/
def Domain.Sec1 (Q : D.curve.Point) (b : Bytes) : Prop := D.Compressed Q b ∨ D.Uncompressed Q b ∨ D.Compact Q b

end Verif.Spec.Ecdsa
