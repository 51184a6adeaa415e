import Verif.Model.ModArith
import Verif.Model.Crypto
/-!
Ed25519 as provided by the crate ed25519_compact to asymmetric.rs 77-83, 194-198, 272-276 and 380-386. The crate's source is
not in the repository; this follows RFC 8032 section 5.1. Where implementations of that section differ and the source would
be needed to tell, the choice is a field of `Variant`; every theorem holds for all choices.
-/
namespace Verif.Ed
open ModArith Sha2

/-- Field order. -/
def p : Nat := 2 ^ 255 - 19
/-- Curve constant `-121665/121666`. -/
def d : Nat := 37095705934669439343138083508754565189542113879843219016388785533085940283555
/-- Order of the base point. -/
def l : Nat := 2 ^ 252 + 27742317777372353535851937790883648493
/-- A square root of -1. -/
def im : Nat := 19681161376707505956807079304988542015446066515923890162744021073123829784752

/-- Affine coordinates of a point. -/
structure Pt where
  x : Nat
  y : Nat
  deriving DecidableEq, Repr

/-- The base point. -/
def base : Pt :=
  ⟨15112221349535400772501151409588531511454012693041857206046113283949847762202,
   46316835694926478169428394003475163141307993866256225615783033603165251855960⟩

/-- Sum, RFC 8032 section 5.1.4 (there in extended coordinates). -/
def add (P Q : Pt) : Pt :=
  let m := d * (P.x * Q.x % p) * (P.y * Q.y % p) % p
  ⟨(P.x * Q.y + Q.x * P.y) * inv p (1 + m) % p, (P.y * Q.y + P.x * Q.x) * inv p (sub p 1 m) % p⟩

def neg (P : Pt) : Pt := ⟨(p - P.x) % p, P.y⟩

/-- Double and add; the first argument bounds the number of bits. -/
def smulAux : Nat → Nat → Pt → Pt → Pt
  | 0, _, _, acc => acc
  | f + 1, k, q, acc =>
    if k = 0 then acc else smulAux f (k / 2) (add q q) (if k % 2 = 1 then add acc q else acc)

/-- `k` times a point. -/
def smul (k : Nat) (q : Pt) : Pt := smulAux (Nat.log2 k + 1) k q ⟨0, 1⟩

/-- Little-endian number of a byte list. -/
def leNat : Bytes → Nat
  | [] => 0
  | b :: t => b.toNat + 256 * leNat t

/-- Little-endian bytes. -/
def leBytes : Nat → Nat → Bytes
  | 0, _ => []
  | n + 1, x => UInt8.ofNat (x % 256) :: leBytes n (x / 256)

/-- Encoding of a point, section 5.1.2: the second coordinate with the parity of the first in the top bit. -/
def encode (P : Pt) : Bytes := leBytes 32 (P.y + P.x % 2 * 2 ^ 255)

/-- Square root modulo `p ≡ 5 (mod 8)`. -/
def sqrt (w : Nat) : Option Nat :=
  let c := powMod p w ((p + 3) / 8)
  if c * c % p = w then some c
  else if c * c % p = (p - w) % p then some (c * im % p)
  else none

/-- What may differ between implementations. -/
structure Variant where
  /-- reject encodings with a second coordinate of `p` or more -/
  canonicalY : Bool
  /-- reject encodings of a negative zero -/
  canonicalX : Bool
  /-- reject public keys of small order -/
  rejectWeak : Bool
  /-- compare points times 8 instead of encodings -/
  cofactored : Bool
  /-- the nonce from the noise of the call, the hash of the seed and the message (asymmetric.rs 196 passes noise) -/
  nonce : Bytes → Bytes → Bytes → Nat

/-- The nonce of RFC 8032 section 5.1.6, without noise, and strict checks. -/
def rfc8032 : Variant := ⟨true, true, true, false, fun _ h m => leNat (sha512 (h.drop 32 ++ m)) % l⟩

/-- Decoding of a point, section 5.1.3. -/
def decode (V : Variant) (b : Bytes) : Option Pt :=
  if b.length ≠ 32 then none
  else
    let n := leNat b
    let y := n % 2 ^ 255
    let s := n / 2 ^ 255
    if V.canonicalY ∧ p ≤ y then none
    else
      let y := y % p
      match sqrt (sub p (y * y % p) 1 * inv p (d * (y * y % p) + 1) % p) with
      | none => none
      | some x =>
        if V.canonicalX ∧ x = 0 ∧ s = 1 then none
        else some ⟨if x % 2 = s then x else (p - x) % p, y⟩

/-- The secret scalar from the hash of the seed: section 5.1.5 step 2, bits cleared and set. -/
def clamp (h : Bytes) : Nat :=
  let n := leNat (h.take 32)
  n % 2 ^ 254 / 8 * 8 + 2 ^ 254

/-- The public key of a seed. -/
def pub (seed : Bytes) : Bytes := encode (smul (clamp (sha512 seed)) base)

/-- Signing, section 5.1.6. -/
def sign (V : Variant) (rnd seed m : Bytes) : Bytes :=
  let h := sha512 seed
  let a := clamp h
  let r := V.nonce rnd h m
  let R := encode (smul r base)
  let k := leNat (sha512 (R ++ pub seed ++ m)) % l
  R ++ leBytes 32 ((r + k * a) % l)

/-- Verification, section 5.1.7. -/
def verify (V : Variant) (pk m sig : Bytes) : Bool :=
  let r := sig.take 32
  let s := leNat (sig.drop 32)
  if l ≤ s then false
  else match decode V pk with
    | none => false
    | some A =>
      if V.rejectWeak ∧ smul 8 A = ⟨0, 1⟩ then false
      else
        let k := leNat (sha512 (r ++ pk ++ m)) % l
        let Q := add (smul s base) (neg (smul k A))
        if V.cofactored then
          match decode V r with
          | none => false
          | some R => smul 8 (add R (neg Q)) == ⟨0, 1⟩
        else encode Q == r

/-- The scheme. A seed of 32 zero bytes makes `KeyPair::from_seed` (asymmetric.rs 81) panic. -/
def ed25519 (V : Variant) : Scheme where
  SK := { seed : Bytes // seed.length = 32 ∧ seed ≠ List.replicate 32 0 }
  PK := { b : Bytes // b.length = 32 }
  Sig := { b : Bytes // b.length = 64 }
  skOf b := if h : b.length = 32 ∧ b ≠ List.replicate 32 0 then some ⟨b, h⟩ else none
  pkOf b := if h : b.length = 32 then some ⟨b, h⟩ else none
  pub k := ⟨pub k.1, by
    have : ∀ n x, (leBytes n x).length = n := by
      intro n; induction n with
      | zero => intro x; rfl
      | succ n ih => intro x; simp [leBytes, ih]
    exact this _ _⟩
  sign rnd k m := some (sign V rnd k.1 m)
  sigOf b := if h : b.length = 64 then some ⟨b, h⟩ else none
  verify pk m s := verify V pk.1 m s.1
  enc pk := pk.1

end Verif.Ed
