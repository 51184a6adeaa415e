/-!
Modular arithmetic on natural numbers, used by the models of the curve and RSA crates (Ec.lean, Ed.lean, Rsa.lean).
The crates p256, p384, ed25519_compact and rsa compute with fixed-width limbs in Montgomery or redundant form; here a field
element is the number itself. That is a simplification: it fixes the values computed, not the way they are computed.
-/
namespace Verif.ModArith

/-- Square and multiply, least significant bit first; the first argument bounds the number of bits. -/
def powAux (m : Nat) : Nat → Nat → Nat → Nat → Nat
  | 0, _, _, acc => acc
  | f + 1, a, e, acc =>
    bif Nat.beq e 0 then acc
    else powAux m f (a * a % m) (e / 2) (bif Nat.beq (e % 2) 1 then acc * a % m else acc)

/-- `a ^ e mod m`. -/
def powMod (m a e : Nat) : Nat := powAux m (Nat.log2 e + 1) (a % m) e (1 % m)

/-- Inverse modulo a prime, by Fermat: `a ^ (p - 2)`. It is 0 for 0. -/
def inv (p a : Nat) : Nat := powMod p a (p - 2)

/-- Difference modulo `p` of two reduced numbers. -/
def sub (p a b : Nat) : Nat := (a + (p - b)) % p

end Verif.ModArith
