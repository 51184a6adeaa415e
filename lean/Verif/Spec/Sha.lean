import Verif.Basic
/-!
SHA-256, SHA-384 and SHA-512 after FIPS 180-4, written with functions of the round number and bit vectors. Constants are described by the
roots of primes, not copied.
-/
namespace Verif.Spec.Sha

/-- The first 80 primes are those below 410. -/
def primes : List Nat := (List.range 410).filter (fun n => decide (2 ≤ n ∧ ∀ d, d < n → 2 ≤ d → n % d ≠ 0))

/-- `x` is the first `w` bits of the fractional part of the square root of `p` (FIPS 180-4, 5.3.3 and 5.3.5). -/
def SqrtBits (w p : Nat) (x : BitVec w) : Prop :=
  ∃ i, (i * 2 ^ w + x.toNat) ^ 2 ≤ p * 2 ^ (2 * w) ∧ p * 2 ^ (2 * w) < (i * 2 ^ w + x.toNat + 1) ^ 2

/-- The same for the cube root (4.2.2 and 4.2.3). -/
def CbrtBits (w p : Nat) (x : BitVec w) : Prop :=
  ∃ i, (i * 2 ^ w + x.toNat) ^ 3 ≤ p * 2 ^ (3 * w) ∧ p * 2 ^ (3 * w) < (i * 2 ^ w + x.toNat + 1) ^ 3

/-- What differs between the two functions: rotations and shifts of 4.1.2 and 4.1.3, the number of rounds. -/
structure Variant (w : Nat) where
  rounds : Nat
  bigSigma0 : Nat × Nat × Nat
  bigSigma1 : Nat × Nat × Nat
  smallSigma0 : Nat × Nat × Nat
  smallSigma1 : Nat × Nat × Nat
  K : Nat → BitVec w
  H0 : Fin 8 → BitVec w

section
variable {w : Nat} (V : Variant w)

/-- Three rotations to the right. -/
def big (r : Nat × Nat × Nat) (x : BitVec w) : BitVec w := x.rotateRight r.1 ^^^ x.rotateRight r.2.1 ^^^ x.rotateRight r.2.2

/-- Two rotations and a shift. -/
def small (r : Nat × Nat × Nat) (x : BitVec w) : BitVec w := x.rotateRight r.1 ^^^ x.rotateRight r.2.1 ^^^ (x >>> r.2.2)

/-- Bitwise choice: bit `i` comes from `y` or from `z`. -/
def ch (x y z : BitVec w) : BitVec w := (x &&& y) ||| (~~~ x &&& z)

/-- Bitwise majority. -/
def maj (x y z : BitVec w) : BitVec w := (x &&& y) ||| (x &&& z) ||| (y &&& z)

/-- The message schedule, 6.2.2 step 1. -/
def W (M : Nat → BitVec w) (t : Nat) : BitVec w :=
  if t < 16 then M t
  else small V.smallSigma1 (W M (t - 2)) + W M (t - 7) + small V.smallSigma0 (W M (t - 15)) + W M (t - 16)

/-- The working variables `a … h` as numbers 0 to 7 after `t` rounds, steps 2 and 3. -/
def vars (H : Fin 8 → BitVec w) (M : Nat → BitVec w) : Nat → Fin 8 → BitVec w
  | 0 => H
  | t + 1 =>
    let v := vars H M t
    let T1 := v 7 + big V.bigSigma1 (v 4) + ch (v 4) (v 5) (v 6) + V.K t + W V M t
    let T2 := big V.bigSigma0 (v 0) + maj (v 0) (v 1) (v 2)
    fun i => if i = 0 then T1 + T2 else if i = 4 then v 3 + T1 else v (i - 1)

/-- One block, step 4. -/
def step (H : Fin 8 → BitVec w) (M : Nat → BitVec w) : Fin 8 → BitVec w := fun i => vars V H M V.rounds i + H i

/-- Big-endian value of bytes. -/
def beVal : Bytes → Nat
  | [] => 0
  | b :: t => b.toNat * 256 ^ t.length + beVal t

/-- Word `t` of a block. -/
def word (w : Nat) (block : Bytes) (t : Nat) : BitVec w := BitVec.ofNat w (beVal ((block.drop (t * (w / 8))).take (w / 8)))

/-- Padding, 5.1: a one bit, the fewest zero bits and the bit length in two words fill up blocks of sixteen words. -/
def Padded (w : Nat) (m p : Bytes) : Prop :=
  ∃ z len, p = m ++ [0x80] ++ List.replicate z 0 ++ len ∧ len.length = w / 4 ∧ beVal len = 8 * m.length ∧
    p.length % (2 * w) = 0 ∧ z < 2 * w

/-- Hash values over the blocks of padded text. -/
def blocks (p : Bytes) (n : Nat) : Fin 8 → BitVec w :=
  match n with
  | 0 => V.H0
  | n + 1 => step V (blocks p n) (word w ((p.drop (n * (2 * w))).take (2 * w)))

/-- The digest of `m` is `d`: `d` has the eight words of the last hash value. -/
def Digest (m d : Bytes) : Prop :=
  ∃ p, Padded w m p ∧ d.length = w ∧ ∀ i : Fin 8, word w d i = blocks V p (p.length / (2 * w)) i

end

/-- The constants of a variant come from the primes; the initial values from eight primes in a row. -/
def Constants {w : Nat} (first : Nat) (V : Variant w) : Prop :=
  (∀ t, (h : t < V.rounds) → ∃ p, primes[t]? = some p ∧ CbrtBits w p (V.K t)) ∧
  ∀ i : Fin 8, ∃ p, primes[first + i.val]? = some p ∧ SqrtBits w p (V.H0 i)

/-- SHA-256 (4.1.2). -/
def IsSha256 (V : Variant 32) : Prop :=
  V.rounds = 64 ∧ V.bigSigma0 = (2, 13, 22) ∧ V.bigSigma1 = (6, 11, 25) ∧ V.smallSigma0 = (7, 18, 3) ∧ V.smallSigma1 = (17, 19, 10) ∧
  Constants 0 V

/-- SHA-512 (4.1.3). -/
def IsSha512 (V : Variant 64) : Prop :=
  V.rounds = 80 ∧ V.bigSigma0 = (28, 34, 39) ∧ V.bigSigma1 = (14, 18, 41) ∧ V.smallSigma0 = (1, 8, 7) ∧ V.smallSigma1 = (19, 61, 6) ∧
  Constants 0 V

/-- SHA-384 differs from SHA-512 in the initial values (5.3.4: the ninth to the sixteenth prime) … -/
def IsSha384 (V : Variant 64) : Prop :=
  V.rounds = 80 ∧ V.bigSigma0 = (28, 34, 39) ∧ V.bigSigma1 = (14, 18, 41) ∧ V.smallSigma0 = (1, 8, 7) ∧ V.smallSigma1 = (19, 61, 6) ∧
  Constants 8 V

/-- … and in the length of the digest (6.5). -/
def Digest384 (V : Variant 64) (m d : Bytes) : Prop := d.length = 48 ∧ ∃ e, Digest V m (d ++ e)

/-! ### HMAC (RFC 2104) with SHA-256 -/

/-- `kb` is `k` filled up with zero bytes to 64. -/
def Filled (k kb : Bytes) : Prop := kb.length = 64 ∧ ∃ z, kb = k ++ List.replicate z 0

/-- The key block: a key longer than a block is hashed first. -/
def KeyBlock (V : Variant 32) (k kb : Bytes) : Prop :=
  (k.length ≤ 64 ∧ Filled k kb) ∨ (64 < k.length ∧ ∃ h, Digest V k h ∧ Filled h kb)

/-- The tag is `H(K ⊕ opad, H(K ⊕ ipad, text))`. -/
def Hmac (V : Variant 32) (k text tag : Bytes) : Prop :=
  ∃ kb inner, KeyBlock V k kb ∧ Digest V (kb.map (· ^^^ 0x36) ++ text) inner ∧ Digest V (kb.map (· ^^^ 0x5c) ++ inner) tag

end Verif.Spec.Sha
