import Verif.Proofs.EcGroup
/-! A quicker way to evaluate multiples of a point: inverses by the Euclidean algorithm, checked by a multiplication. -/
namespace Verif.Ec
open ModArith

/-- Extended Euclid: `r0 ≡ s0 a` and `r1 ≡ s1 a` modulo `p`. The result is checked by its user. -/
def euclid (p : Nat) : Nat → Nat → Nat → Nat → Nat → Nat
  | 0, _, _, _, s1 => s1
  | f + 1, r0, r1, s0, s1 =>
    bif Nat.ble r1 1 then s1 else euclid p f r1 (r0 % r1) s1 ((s0 + (p - r0 / r1 * s1 % p)) % p)

/-- An inverse: the result of Euclid if a multiplication confirms it, else the power. -/
def inv' (p a : Nat) : Nat :=
  let c := euclid p 1000 p (a % p) 0 1
  bif Nat.beq (a * c % p) 1 && Nat.blt c p then c else inv p a

theorem inv'_eq {p : Nat} (hp : p.Prime) (h2 : 2 < p) : inv' p = inv p := by
  funext a
  unfold inv'
  simp only [Bool.cond_eq_ite, Bool.and_eq_true, Nat.beq_eq, Nat.blt_eq]
  split
  · rename_i h
    generalize euclid p 1000 p (a % p) 0 1 = c at h
    have : Fact p.Prime := ⟨hp⟩
    have h1 : (a : ZMod p) * c = 1 := by
      rw [← Nat.cast_mul, ← ZMod.natCast_mod, h.1, Nat.cast_one]
    refine cast_inj' h.2 (by rw [inv, powMod_eq]; exact Nat.mod_lt _ hp.pos) ?_
    rw [cast_inv' hp h2, eq_inv_of_mul_eq_one_right h1]
  · rfl

/-- `Curve.add` with the inverse as a parameter. -/
def addI (iv : Nat → Nat) (C : Curve) : Pt → Pt → Pt
  | .inf, q => q
  | .aff x y, .inf => .aff x y
  | .aff x y, .aff u v =>
    bif Nat.beq x u then
      bif Nat.beq ((y + v) % C.p) 0 then .inf
      else C.third ((3 * x * x + C.a) * iv (2 * y) % C.p) x y u
    else C.third (sub C.p v y * iv (sub C.p u x) % C.p) x y u

/-- `Curve.smulAux` with the inverse as a parameter. -/
def smulI (iv : Nat → Nat) (C : Curve) : Nat → Nat → Pt → Pt → Pt
  | 0, _, _, acc => acc
  | f + 1, k, q, acc =>
    bif Nat.beq k 0 then acc
    else smulI iv C f (k / 2) (addI iv C q q) (bif Nat.beq (k % 2) 1 then addI iv C acc q else acc)

theorem addI_eq (C : Curve) (P Q : Pt) : addI (inv C.p) C P Q = C.add P Q := by
  cases P <;> cases Q <;> simp only [addI, Curve.add, Bool.cond_eq_ite, Nat.beq_eq]

theorem smulI_eq (C : Curve) : ∀ (f k : Nat) (P A : Pt), smulI (inv C.p) C f k P A = C.smulAux f k P A
  | 0, _, _, _ => rfl
  | f + 1, k, P, A => by
    rw [smulI, Curve.smulAux]
    simp only [Bool.cond_eq_ite, Nat.beq_eq, addI_eq, smulI_eq C f]

theorem smul_fast {C : Curve} (hp : C.p.Prime) (h2 : 2 < C.p) (k : Nat) (P : Pt) :
    C.smul k P = smulI (inv' C.p) C (Nat.log2 k + 1) k P .inf := by
  rw [inv'_eq hp h2, smulI_eq, Curve.smul]

end Verif.Ec
