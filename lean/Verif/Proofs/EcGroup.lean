import Verif.Model.Ec
import Verif.Proofs.ModArith
import Mathlib.AlgebraicGeometry.EllipticCurve.Affine.Point
import Mathlib.Tactic.LinearCombination
/-! The point arithmetic of Model/Ec.lean computes in Mathlib's group of points of the Weierstrass curve. -/
namespace Verif.Ec
open ModArith WeierstrassCurve

theorem cast_sub' {p a b : Nat} (h : b ≤ p) : ((sub p a b : Nat) : ZMod p) = (a : ZMod p) - b := by
  rw [sub, ZMod.natCast_mod, Nat.cast_add, Nat.cast_sub h, ZMod.natCast_self]; ring

theorem sub_lt' {p : Nat} (a b : Nat) (h : 0 < p) : sub p a b < p := Nat.mod_lt _ h

theorem cast_inv' {p : Nat} (hp : p.Prime) (h2 : 2 < p) (a : Nat) : ((inv p a : Nat) : ZMod p) = (a : ZMod p)⁻¹ := by
  have : Fact p.Prime := ⟨hp⟩
  rw [inv, powMod_cast]
  by_cases h0 : (a : ZMod p) = 0
  · rw [h0, zero_pow (by omega), inv_zero]
  · apply eq_inv_of_mul_eq_one_left
    rw [← pow_succ, show p - 2 + 1 = p - 1 by omega, ZMod.pow_card_sub_one_eq_one h0]

theorem cast_inj' {p x y : Nat} (hx : x < p) (hy : y < p) (h : (x : ZMod p) = y) : x = y := by
  rw [ZMod.natCast_eq_natCast_iff', Nat.mod_eq_of_lt hx, Nat.mod_eq_of_lt hy] at h; exact h

variable (C : Curve)

/-- The curve over the field of `p` elements. -/
abbrev Curve.W : WeierstrassCurve.Affine (ZMod C.p) := ⟨0, 0, 0, C.a, C.b⟩

/-- What is needed of the constants for the arithmetic to be that of an elliptic curve. -/
structure Curve.Ok : Prop where
  prime : C.p.Prime
  big : 3 < C.p
  disc : (4 * C.a ^ 3 + 27 * C.b ^ 2) % C.p ≠ 0

variable {C}

theorem Curve.Ok.fact (h : C.Ok) : Fact C.p.Prime := ⟨h.prime⟩

variable [hF : Fact C.p.Prime]

theorem W_disc (h : C.Ok) : C.W.Δ ≠ 0 := by
  have : C.W.Δ = -16 * ((4 * C.a ^ 3 + 27 * C.b ^ 2 : ℕ) : ZMod C.p) := by
    simp only [Curve.W, WeierstrassCurve.Δ, WeierstrassCurve.b₂, WeierstrassCurve.b₄, WeierstrassCurve.b₆,
      WeierstrassCurve.b₈]
    push_cast; ring
  rw [this]
  refine mul_ne_zero ?_ ?_
  · rw [neg_ne_zero]
    have : ((2 : ℕ) : ZMod C.p) ≠ 0 := by
      rw [Ne, ZMod.natCast_eq_zero_iff]
      intro hd; have := Nat.le_of_dvd (by omega) hd; have := h.big; omega
    have h16 : (16 : ZMod C.p) = ((2 : ℕ) : ZMod C.p) ^ 4 := by push_cast; norm_num
    rw [h16]; exact pow_ne_zero _ this
  · rw [Ne, ZMod.natCast_eq_zero_iff]
    intro hd; exact h.disc (Nat.mod_eq_zero_of_dvd hd)

theorem W_nonsingular (h : C.Ok) {x y : ZMod C.p} (he : C.W.Equation x y) : C.W.Nonsingular x y :=
  (WeierstrassCurve.Affine.equation_iff_nonsingular_of_Δ_ne_zero (W_disc h)).1 he

theorem W_equation {x y : ZMod C.p} : C.W.Equation x y ↔ y ^ 2 = x ^ 3 + C.a * x + C.b := by
  rw [WeierstrassCurve.Affine.equation_iff]
  simp only
  constructor <;> intro h <;> linear_combination h

/-- A computed point stands for a point of the curve. -/
def Rep : Pt → C.W.Point → Prop
  | .inf, Q => Q = 0
  | .aff x y, Q => x < C.p ∧ y < C.p ∧ ∃ h, Q = .some (x : ZMod C.p) (y : ZMod C.p) h

theorem on_iff {x y : Nat} : C.on x y = true ↔ x < C.p ∧ y < C.p ∧ C.W.Equation (x : ZMod C.p) (y : ZMod C.p) := by
  simp only [Curve.on, Bool.and_eq_true, decide_eq_true_eq, beq_iff_eq, Curve.rhs, W_equation, and_assoc]
  refine and_congr_right fun _ => and_congr_right fun _ => ?_
  rw [← ZMod.natCast_eq_natCast_iff']
  push_cast
  constructor <;> intro h <;> linear_combination h

theorem rep_on (h : C.Ok) {x y : Nat} (ho : C.on x y = true) : ∃ Q : C.W.Point, Rep (.aff x y) Q := by
  obtain ⟨h1, h2, h3⟩ := on_iff.1 ho
  exact ⟨.some _ _ (W_nonsingular h h3), h1, h2, _, rfl⟩

theorem on_of_rep {x y : Nat} {Q : C.W.Point} (h : Rep (.aff x y) Q) : C.on x y = true := by
  obtain ⟨h1, h2, h3, _⟩ := h
  exact on_iff.2 ⟨h1, h2, h3.1⟩

theorem rep_inj {P P' : Pt} {Q : C.W.Point} (h : Rep P Q) (h' : Rep P' Q) : P = P' := by
  cases P <;> cases P' <;> simp only [Rep] at h h'
  · rfl
  · obtain ⟨_, _, _, h3⟩ := h'; rw [h3] at h; exact absurd h (WeierstrassCurve.Affine.Point.some_ne_zero _)
  · obtain ⟨_, _, _, h3⟩ := h; rw [h3] at h'; exact absurd h' (WeierstrassCurve.Affine.Point.some_ne_zero _)
  · obtain ⟨a1, a2, _, a3⟩ := h
    obtain ⟨b1, b2, _, b3⟩ := h'
    rw [a3] at b3
    injection b3 with e1 e2
    rw [cast_inj' a1 b1 e1, cast_inj' a2 b2 e2]

theorem third_rep {x y u v l : Nat} {h1 : C.W.Nonsingular (x : ZMod C.p) (y : ZMod C.p)}
    {h2 : C.W.Nonsingular (u : ZMod C.p) (v : ZMod C.p)}
    (hx : x < C.p) (hy : y < C.p) (hu : u < C.p)
    (hne : ¬((x : ZMod C.p) = u ∧ (y : ZMod C.p) = C.W.negY u v))
    (hl : (l : ZMod C.p) = C.W.slope x u y v) :
    Rep (C.third l x y u) (Affine.Point.some _ _ h1 + Affine.Point.some _ _ h2) := by
  have hp : 0 < C.p := by omega
  rw [WeierstrassCurve.Affine.Point.add_some hne, Curve.third]
  have e1 : ((sub C.p (sub C.p (l * l % C.p) x) u : Nat) : ZMod C.p) =
      C.W.addX x u (C.W.slope x u y v) := by
    rw [cast_sub' hu.le, cast_sub' hx.le, ZMod.natCast_mod, Nat.cast_mul, hl]
    simp only [WeierstrassCurve.Affine.addX, Curve.W]; ring
  refine ⟨sub_lt' _ _ hp, sub_lt' _ _ hp, ?_⟩
  have e2 : ((sub C.p (l * sub C.p x (sub C.p (sub C.p (l * l % C.p) x) u) % C.p) y : Nat) : ZMod C.p) =
      C.W.addY x u y (C.W.slope x u y v) := by
    rw [cast_sub' hy.le, ZMod.natCast_mod, Nat.cast_mul, cast_sub' (sub_lt' _ _ hp).le, e1, hl]
    simp only [WeierstrassCurve.Affine.addY, WeierstrassCurve.Affine.negAddY, WeierstrassCurve.Affine.negY]
    simp only [Curve.W]; ring
  rw [e1, e2]
  exact ⟨_, rfl⟩

theorem add_rep (h : C.Ok) {P P' : Pt} {Q Q' : C.W.Point} (hP : Rep P Q) (hP' : Rep P' Q') :
    Rep (C.add P P') (Q + Q') := by
  have hbig := h.big
  cases P with
  | inf => simp only [Rep] at hP; subst hP; rw [zero_add, Curve.add]; exact hP'
  | aff x y =>
  cases P' with
  | inf => simp only [Rep] at hP'; subst hP'; rw [add_zero, Curve.add]; exact hP
  | aff u v =>
  obtain ⟨hx, hy, h1, rfl⟩ := hP
  obtain ⟨hu, hv, h2, rfl⟩ := hP'
  rw [Curve.add]
  split
  · rename_i hxu; subst hxu
    split
    · rename_i h0
      simp only [Rep]
      refine WeierstrassCurve.Affine.Point.add_of_Y_eq rfl ?_
      have : ((y + v : Nat) : ZMod C.p) = 0 := (ZMod.natCast_eq_zero_iff _ _).2 (Nat.dvd_of_mod_eq_zero h0)
      push_cast at this
      simp only [WeierstrassCurve.Affine.negY]
      linear_combination this
    · rename_i h0
      have hne : (y : ZMod C.p) ≠ C.W.negY x v := by
        intro he
        apply h0
        apply Nat.mod_eq_zero_of_dvd
        rw [← ZMod.natCast_eq_zero_iff]
        simp only [WeierstrassCurve.Affine.negY] at he
        push_cast; linear_combination he
      refine third_rep (v := v) hx hy hx (fun hc => hne hc.2) ?_
      rw [WeierstrassCurve.Affine.slope_of_Y_ne rfl hne, ZMod.natCast_mod, Nat.cast_mul,
        cast_inv' h.prime (by omega)]
      simp only [WeierstrassCurve.Affine.negY]
      rw [div_eq_mul_inv]
      push_cast
      congr 1
      · ring
      · congr 1; ring
  · rename_i hxu
    have hne : (x : ZMod C.p) ≠ u := fun he => hxu (cast_inj' hx hu he)
    refine third_rep hx hy hu (fun hc => hne hc.1) ?_
    rw [WeierstrassCurve.Affine.slope_of_X_ne hne, ZMod.natCast_mod, Nat.cast_mul, cast_inv' h.prime (by omega),
      cast_sub' hy.le, cast_sub' hx.le, ← div_eq_mul_inv]
    rw [← neg_sub (y : ZMod C.p), ← neg_sub (x : ZMod C.p), neg_div_neg_eq]

theorem smulAux_rep (h : C.Ok) : ∀ (f k : Nat) {P A : Pt} {Q B : C.W.Point}, k < 2 ^ f → Rep P Q → Rep A B →
    Rep (C.smulAux f k P A) (B + k • Q)
  | 0, k, P, A, Q, B, hk, hP, hA => by
    have : k = 0 := by simpa using hk
    subst this; simpa [Curve.smulAux] using hA
  | f + 1, k, P, A, Q, B, hk, hP, hA => by
    rw [Curve.smulAux]
    split
    · rename_i h0; subst h0; simpa using hA
    · have h2 : k / 2 < 2 ^ f := by rw [pow_succ] at hk; omega
      split
      · rename_i h1
        have := smulAux_rep h f (k / 2) h2 (add_rep h hP hP) (add_rep h hA hP)
        have e : B + Q + (k / 2) • (Q + Q) = B + k • Q := by
          rw [← two_nsmul, ← mul_nsmul', add_assoc]
          congr 1
          nth_rw 1 [← one_nsmul Q]
          rw [← add_nsmul]; congr 1; omega
        rwa [e] at this
      · rename_i h1
        have := smulAux_rep h f (k / 2) h2 (add_rep h hP hP) hA
        have e : B + (k / 2) • (Q + Q) = B + k • Q := by
          rw [← two_nsmul, ← mul_nsmul']
          congr 2; omega
        rwa [e] at this

theorem smul_rep (h : C.Ok) (k : Nat) {P : Pt} {Q : C.W.Point} (hP : Rep P Q) : Rep (C.smul k P) (k • Q) := by
  have := smulAux_rep h _ k (A := .inf) (B := 0) Nat.lt_log2_self hP rfl
  rwa [zero_add] at this

end Verif.Ec
