import Verif.Model.Ec
import Verif.Model.Sha384
import Verif.Model.Crypto
/-!
ECDSA over P-256 with SHA-256 and over P-384 with SHA-384, as provided by the crate ecdsa to asymmetric.rs 177-193 and
360-379. Follows SEC 1 sections 4.1.3 and 4.1.4, and RFC 6979 for the nonce. Neither curve asks for a small `s`, so
signatures are neither normalized when made nor rejected when `s` is large.
-/
namespace Verif.Ec
open ModArith Sha2

/-- The part of signing after the nonce `k` is chosen; `z` is the digest as a number. `none` when `r` or `s` is zero. -/
def Curve.signWith (C : Curve) (k z d : Nat) : Option (Nat × Nat) :=
  match C.smul k C.g with
  | .inf => none
  | .aff x _ =>
    let r := x % C.n
    let s := inv C.n k * (z + r * d) % C.n
    if r = 0 ∨ s = 0 then none else some (r, s)

/-- Verification of `(r, s)` for the digest `z` with the public point `q`. -/
def Curve.verifyPt (C : Curve) (q : Pt) (z : Nat) (rs : Nat × Nat) : Bool :=
  let w := inv C.n rs.2
  match C.add (C.smul (z * w % C.n) C.g) (C.smul (rs.1 * w % C.n) q) with
  | .inf => false
  | .aff x _ => x % C.n == rs.1

/-- Candidates of RFC 6979 section 3.2 step h: the first in `[1, n)`. The digest is as long as a scalar for both curves, so
a candidate is one HMAC value. The first argument bounds the number of candidates; the crate has no bound. -/
def nonceLoop (mac : Bytes → Bytes → Bytes) (n : Nat) : Nat → Bytes → Bytes → Option Nat
  | 0, _, _ => none
  | f + 1, k, v =>
    let v := mac k v
    let c := beNat v
    if 0 < c ∧ c < n then some c
    else
      let k' := mac k (v ++ [0])
      nonceLoop mac n f k' (mac k' v)

/-- The nonce of RFC 6979 section 3.2 for key `d` and digest `h` (no additional data). -/
def Curve.nonce (C : Curve) (mac : Bytes → Bytes → Bytes) (d : Nat) (h : Bytes) : Option Nat :=
  let x := beBytes C.len d ++ beBytes C.len (beNat h % C.n)
  let v := List.replicate C.len 1
  let k := mac (List.replicate C.len 0) (v ++ [0] ++ x)
  let v := mac k v
  let k := mac k (v ++ [1] ++ x)
  let v := mac k v
  nonceLoop mac C.n 1000 k v

/-- A scalar that may be a private key. -/
abbrev Curve.Scalar (C : Curve) := { d : Nat // 0 < d ∧ d < C.n }

/-- `SecretKey::from_bytes` of the crate elliptic-curve: big-endian, in `[1, n)`. -/
def Curve.skOf (C : Curve) (b : Bytes) : Option C.Scalar :=
  if h : b.length = C.len ∧ 0 < beNat b ∧ beNat b < C.n then some ⟨beNat b, h.2⟩ else none

/-- `Signature::from_bytes` of the crate ecdsa: two scalars in `[1, n)`. -/
def Curve.sigOf (C : Curve) (b : Bytes) : Option (Nat × Nat) :=
  let r := beNat (b.take C.len)
  let s := beNat (b.drop C.len)
  if b.length = 2 * C.len ∧ 0 < r ∧ r < C.n ∧ 0 < s ∧ s < C.n then some (r, s) else none

/-- ECDSA with a hash and a nonce for each random input, key and digest. -/
def ecdsaWith (C : Curve) (hash : Bytes → Bytes) (nonce : Bytes → Nat → Bytes → Option Nat) : Scheme where
  SK := C.Scalar
  PK := Pt
  Sig := Nat × Nat
  skOf := C.skOf
  pkOf := C.ofSec1
  pub d := C.smul d.1 C.g
  sign rnd d m :=
    match nonce rnd d.1 (hash m) with
    | none => none
    | some k => (C.signWith k (beNat (hash m)) d.1).map fun rs => beBytes C.len rs.1 ++ beBytes C.len rs.2
  sigOf := C.sigOf
  verify q m rs := C.verifyPt q (beNat (hash m)) rs
  enc := C.compress

end Verif.Ec
