import Verif.Model.Ed
import Verif.Proofs.Edwards
import Verif.Proofs.EcFast
import Verif.Proofs.Primes
/-! The arithmetic of Model/Ed.lean computes in the group of Proofs/Edwards.lean; decoding inverts encoding; signatures verify. -/
namespace Verif.Ed
open ModArith Ec Edwards

theorem p_prime : p.Prime := by
  have : p = 57896044618658097711785492504343953926634992332820282019728792003956564819949 := by decide +kernel
  rw [this]; exact Primes.prime_p25519

theorem l_prime : l.Prime := by
  have : l = 7237005577332262213973186563042994240857116359379907606001950938285454250989 := by decide +kernel
  rw [this]; exact Primes.prime_l25519

instance : Fact p.Prime := ⟨p_prime⟩

theorem p_big : 8 < p := by decide +kernel
theorem p_mod8 : p % 8 = 5 := by decide +kernel
theorem p_lt : p < 2 ^ 255 := by decide +kernel

theorem im_sq : ((im : Nat) : ZMod p) ^ 2 = -1 := by
  have h : (im * im + 1) % p = 0 := by decide +kernel
  have := (ZMod.natCast_eq_zero_iff _ _).2 (Nat.dvd_of_mod_eq_zero h)
  push_cast at this
  linear_combination this

theorem two_ne : (2 : ZMod p) ≠ 0 := by
  have : ((2 : Nat) : ZMod p) ≠ 0 := by
    rw [Ne, ZMod.natCast_eq_zero_iff]
    intro h; have := Nat.le_of_dvd (by omega) h; have := p_big; omega
  exact_mod_cast this

set_option maxRecDepth 20000 in
/-- Euler's criterion: `d` is not a square. -/
theorem d_nonsquare (t : ZMod p) : t ^ 2 ≠ (d : ZMod p) := by
  intro h
  have h1 : powMod p d ((p - 1) / 2) = p - 1 := by decide +kernel
  have h2 : (d : ZMod p) ^ ((p - 1) / 2) = -1 := by
    rw [← powMod_cast, h1, Nat.cast_sub p_prime.one_le, ZMod.natCast_self]; simp
  have he : 2 * ((p - 1) / 2) = p - 1 := by have := p_mod8; omega
  rw [← h, ← pow_mul, he] at h2
  by_cases ht : t = 0
  · rw [ht, zero_pow (by have := p_big; omega)] at h2
    exact one_ne_zero (α := ZMod p) (by linear_combination h2)
  · rw [ZMod.pow_card_sub_one_eq_one ht] at h2
    exact two_ne (by linear_combination h2)

instance : Complete ((d : Nat) : ZMod p) := ⟨d_nonsquare, ⟨_, im_sq⟩, two_ne⟩

/-- The group. -/
abbrev G := Point ((d : Nat) : ZMod p)

/-- A computed point stands for a point of the group. -/
def Rep (P : Pt) (Q : G) : Prop := P.x < p ∧ P.y < p ∧ Q.x = (P.x : ZMod p) ∧ Q.y = (P.y : ZMod p)

theorem rep_inj {P P' : Pt} {Q : G} (h : Rep P Q) (h' : Rep P' Q) : P = P' := by
  obtain ⟨a1, a2, a3, a4⟩ := h
  obtain ⟨b1, b2, b3, b4⟩ := h'
  cases P; cases P'
  simp only [Pt.mk.injEq]
  exact ⟨cast_inj' a1 b1 (a3.symm.trans b3), cast_inj' a2 b2 (a4.symm.trans b4)⟩

theorem rep_zero : Rep ⟨0, 1⟩ 0 := by
  refine ⟨by have := p_big; simp only; omega, by have := p_big; simp only; omega, ?_, ?_⟩
  · rw [Point.zero_x]; simp
  · rw [Point.zero_y]; simp

theorem rep_eq_zero {P : Pt} {Q : G} (h : Rep P Q) : P = ⟨0, 1⟩ ↔ Q = 0 := by
  constructor
  · rintro rfl
    ext
    · rw [h.2.2.1, Point.zero_x]; simp
    · rw [h.2.2.2, Point.zero_y]; simp
  · rintro rfl
    exact rep_inj h rep_zero

theorem add_rep {P P' : Pt} {Q Q' : G} (h : Rep P Q) (h' : Rep P' Q') : Rep (add P P') (Q + Q') := by
  have hp := p_prime.pos
  have hb := p_big
  refine ⟨Nat.mod_lt _ hp, Nat.mod_lt _ hp, ?_, ?_⟩
  · rw [Point.add_x, add, addX, h.2.2.1, h.2.2.2, h'.2.2.1, h'.2.2.2]
    simp only
    rw [ZMod.natCast_mod, Nat.cast_mul, cast_inv' p_prime (by omega), div_eq_mul_inv]
    push_cast
    simp only [ZMod.natCast_mod]
    push_cast
    congr 2
    simp only [ZMod.natCast_mod]
    push_cast
    ring
  · rw [Point.add_y, add, addY, h.2.2.1, h.2.2.2, h'.2.2.1, h'.2.2.2]
    simp only
    rw [ZMod.natCast_mod, Nat.cast_mul, cast_inv' p_prime (by omega), cast_sub' (Nat.mod_lt _ hp).le, div_eq_mul_inv]
    push_cast
    simp only [ZMod.natCast_mod]
    push_cast
    congr 2
    simp only [ZMod.natCast_mod]
    push_cast
    ring

theorem neg_rep {P : Pt} {Q : G} (h : Rep P Q) : Rep (neg P) (-Q) := by
  refine ⟨Nat.mod_lt _ p_prime.pos, h.2.1, ?_, ?_⟩
  · rw [Point.neg_x, h.2.2.1, neg]
    simp only
    rw [ZMod.natCast_mod, Nat.cast_sub h.1.le, ZMod.natCast_self, zero_sub]
  · rw [Point.neg_y, h.2.2.2, neg]

theorem smulAux_rep : ∀ (f k : Nat) {P A : Pt} {Q B : G}, k < 2 ^ f → Rep P Q → Rep A B → Rep (smulAux f k P A) (B + k • Q)
  | 0, k, P, A, Q, B, hk, hP, hA => by
    have : k = 0 := by simpa using hk
    subst this; simpa [smulAux] using hA
  | f + 1, k, P, A, Q, B, hk, hP, hA => by
    rw [smulAux]
    split
    · rename_i h0; subst h0; simpa using hA
    · have h2 : k / 2 < 2 ^ f := by rw [pow_succ] at hk; omega
      split
      · rename_i h1
        have := smulAux_rep f (k / 2) h2 (add_rep hP hP) (add_rep hA hP)
        have e : B + Q + (k / 2) • (Q + Q) = B + k • Q := by
          rw [← two_nsmul, ← mul_nsmul', add_assoc]
          congr 1
          nth_rw 1 [← one_nsmul Q]
          rw [← add_nsmul]; congr 1; omega
        rwa [e] at this
      · rename_i h1
        have := smulAux_rep f (k / 2) h2 (add_rep hP hP) hA
        have e : B + (k / 2) • (Q + Q) = B + k • Q := by
          rw [← two_nsmul, ← mul_nsmul']
          congr 2; omega
        rwa [e] at this

theorem smul_rep (k : Nat) {P : Pt} {Q : G} (hP : Rep P Q) : Rep (smul k P) (k • Q) := by
  have := smulAux_rep _ k Nat.lt_log2_self hP rep_zero
  rwa [zero_add] at this

/-! ### The base point -/

theorem base_on : On ((d : Nat) : ZMod p) (base.x : ZMod p) (base.y : ZMod p) := by
  have h : (base.x * base.x + 1 + d * (base.x * base.x) * (base.y * base.y)) % p = base.y * base.y % p := by decide +kernel
  rw [← ZMod.natCast_eq_natCast_iff'] at h
  push_cast at h
  unfold On
  linear_combination -h

/-- The base point of the group. -/
def B : G := ⟨base.x, base.y, base_on⟩

theorem base_rep : Rep base B := ⟨by decide +kernel, by decide +kernel, rfl, rfl⟩

/-- `add` with the inverse as a parameter. -/
def addI (iv : Nat → Nat) (P Q : Pt) : Pt :=
  let m := d * (P.x * Q.x % p) * (P.y * Q.y % p) % p
  ⟨(P.x * Q.y + Q.x * P.y) * iv (1 + m) % p, (P.y * Q.y + P.x * Q.x) * iv (sub p 1 m) % p⟩

/-- `smulAux` with the inverse as a parameter. -/
def smulI (iv : Nat → Nat) : Nat → Nat → Pt → Pt → Pt
  | 0, _, _, acc => acc
  | f + 1, k, q, acc =>
    bif Nat.beq k 0 then acc else smulI iv f (k / 2) (addI iv q q) (bif Nat.beq (k % 2) 1 then addI iv acc q else acc)

theorem smulI_eq : ∀ (f k : Nat) (P A : Pt), smulI (inv p) f k P A = smulAux f k P A
  | 0, _, _, _ => rfl
  | f + 1, k, P, A => by
    rw [smulI, smulAux]
    simp only [Bool.cond_eq_ite, Nat.beq_eq, smulI_eq f]
    rfl

set_option maxRecDepth 100000 in
theorem base_order : smul l base = ⟨0, 1⟩ := by
  rw [smul, ← smulI_eq, ← inv'_eq p_prime (by decide +kernel)]
  decide +kernel

theorem B_order : l • B = 0 := (rep_eq_zero (smul_rep l base_rep)).1 base_order

theorem B_ne : B ≠ 0 := fun h => by
  have := (rep_eq_zero base_rep).2 h
  exact absurd this (by decide +kernel)

theorem smul_congr {a b : Nat} (h : a % l = b % l) : a • B = b • B := by
  have key : ∀ a : Nat, a • B = (a % l) • B := fun a => by
    conv_lhs => rw [← Nat.div_add_mod a l, add_nsmul, mul_nsmul, B_order, nsmul_zero, zero_add]
  rw [key a, key b, h]

theorem smul_eq_zero {a : Nat} : a • B = 0 ↔ l ∣ a := by
  have : Fact l.Prime := ⟨l_prime⟩
  rw [← addOrderOf_eq_prime B_order B_ne, addOrderOf_dvd_iff_nsmul_eq_zero]

end Verif.Ed
