import Verif.Basic
import Verif.Model.ModArith
import Verif.Model.Sha2
/-!
The curves P-256 and P-384 (FIPS 186-4 D.1.2, SEC 2) and their point arithmetic, as provided by the crates p256 and p384
to httpsig/src/crypto/asymmetric.rs 6-12. The crates' sources are not in the repository; this follows SEC 1 sections 2.2,
2.3.3 and 2.3.4. The crates use complete projective formulas in constant time; the affine chord and tangent rules here
compute the same points.
-/
namespace Verif.Ec
open ModArith Sha2

/-- Short Weierstrass curve `y² = x³ + a x + b` over the field of `p` elements, base point, its order `n`, and the byte
length of a field element (and of a scalar). -/
structure Curve where
  (p a b gx gy n len : Nat)

def p256 : Curve where
  p := 0xffffffff00000001000000000000000000000000ffffffffffffffffffffffff
  a := 0xffffffff00000001000000000000000000000000fffffffffffffffffffffffc
  b := 0x5ac635d8aa3a93e7b3ebbd55769886bc651d06b0cc53b0f63bce3c3e27d2604b
  gx := 0x6b17d1f2e12c4247f8bce6e563a440f277037d812deb33a0f4a13945d898c296
  gy := 0x4fe342e2fe1a7f9b8ee7eb4a7c0f9e162bce33576b315ececbb6406837bf51f5
  n := 0xffffffff00000000ffffffffffffffffbce6faada7179e84f3b9cac2fc632551
  len := 32

def p384 : Curve where
  p := 0xfffffffffffffffffffffffffffffffffffffffffffffffffffffffffffffffeffffffff0000000000000000ffffffff
  a := 0xfffffffffffffffffffffffffffffffffffffffffffffffffffffffffffffffeffffffff0000000000000000fffffffc
  b := 0xb3312fa7e23ee7e4988e056be3f82d19181d9c6efe8141120314088f5013875ac656398d8a2ed19d2a85c8edd3ec2aef
  gx := 0xaa87ca22be8b05378eb1c71ef320ad746e1d3b628ba79b9859f741e082542a385502f25dbf55296c3a545e3872760ab7
  gy := 0x3617de4a96262c6f5d9e98bf9292dc29f8f41dbd289a147ce9da3113b5f0b8c00a60b1ce1d7e819d7a431d7c90ea0e5f
  n := 0xffffffffffffffffffffffffffffffffffffffffffffffffc7634d81f4372ddf581a0db248b0a77aecec196accc52973
  len := 48

/-- Point at infinity, or affine coordinates. -/
inductive Pt where
  | inf
  | aff (x y : Nat)
  deriving DecidableEq, Repr

/-- The right-hand side of the curve equation. -/
def Curve.rhs (C : Curve) (x : Nat) : Nat := (x * x * x + C.a * x + C.b) % C.p

/-- Reduced coordinates that satisfy the curve equation. -/
def Curve.on (C : Curve) (x y : Nat) : Bool := x < C.p && y < C.p && y * y % C.p == C.rhs x

def Curve.g (C : Curve) : Pt := .aff C.gx C.gy

/-- Third point of the line of slope `l` through `(x, y)` and a point with abscissa `u`, reflected. -/
def Curve.third (C : Curve) (l x y u : Nat) : Pt :=
  let w := sub C.p (sub C.p (l * l % C.p) x) u
  .aff w (sub C.p (l * sub C.p x w % C.p) y)

/-- Point addition, SEC 1 section 2.2.1. -/
def Curve.add (C : Curve) : Pt → Pt → Pt
  | .inf, q => q
  | .aff x y, .inf => .aff x y
  | .aff x y, .aff u v =>
    if x = u then
      if (y + v) % C.p = 0 then .inf
      else C.third ((3 * x * x + C.a) * inv C.p (2 * y) % C.p) x y u
    else C.third (sub C.p v y * inv C.p (sub C.p u x) % C.p) x y u

/-- Double and add, least significant bit first; the first argument bounds the number of bits. -/
def Curve.smulAux (C : Curve) : Nat → Nat → Pt → Pt → Pt
  | 0, _, _, acc => acc
  | f + 1, k, q, acc =>
    if k = 0 then acc
    else C.smulAux f (k / 2) (C.add q q) (if k % 2 = 1 then C.add acc q else acc)

/-- `k` times a point. -/
def Curve.smul (C : Curve) (k : Nat) (q : Pt) : Pt := C.smulAux (Nat.log2 k + 1) k q .inf

/-- Square root modulo `p ≡ 3 (mod 4)`, `none` for a non-square. -/
def Curve.sqrt (C : Curve) (w : Nat) : Option Nat :=
  let r := powMod C.p w ((C.p + 1) / 4)
  if r * r % C.p = w then some r else none

/-- Point compression, SEC 1 section 2.3.3: `to_encoded_point(true)`, asymmetric.rs 412-413. -/
def Curve.compress (C : Curve) : Pt → Bytes
  | .inf => [0]
  | .aff x y => (if y % 2 = 1 then 3 else 2) :: beBytes C.len x

/-- Decompression from an abscissa and the parity of the ordinate. -/
def Curve.decompress (C : Curve) (odd : Nat) (x : Nat) : Option Pt :=
  if C.p ≤ x then none
  else match C.sqrt (C.rhs x) with
    | none => none
    | some r => some (.aff x (if r % 2 = odd then r else (C.p - r) % C.p))

/-- `PublicKey::from_sec1_bytes` of the crate elliptic-curve, used at asymmetric.rs 264 and 269. Tags: 2 and 3 compressed,
4 uncompressed, 5 compact (an extension of the crate sec1: the smaller of the two ordinates). The point at infinity
(tag 0) is no public key. -/
def Curve.ofSec1 (C : Curve) : Bytes → Option Pt
  | [] => none
  | t :: b =>
    if t = 2 ∧ b.length = C.len then C.decompress 0 (beNat b)
    else if t = 3 ∧ b.length = C.len then C.decompress 1 (beNat b)
    else if t = 4 ∧ b.length = 2 * C.len then
      let x := beNat (b.take C.len)
      let y := beNat (b.drop C.len)
      if C.on x y then some (.aff x y) else none
    else if t = 5 ∧ b.length = C.len then
      match C.decompress 0 (beNat b) with
      | some (.aff x y) => some (.aff x (min y ((C.p - y) % C.p)))
      | _ => none
    else none

end Verif.Ec
