import Mathlib.Algebra.Field.Basic
import Mathlib.Tactic.FieldSimp
import Mathlib.Tactic.LinearCombination
import Mathlib.Tactic.Ring
/-!
The group of a twisted Edwards curve `-x² + y² = 1 + d x² y²` over a field in which `-1` is a square and `d` is not:
the addition law is complete, and the points form a commutative group.
-/
namespace Verif.Edwards

variable {F : Type} [Field F]

/-- The curve equation. -/
def On (d x y : F) : Prop := y ^ 2 - x ^ 2 - 1 - d * x ^ 2 * y ^ 2 = 0

/-- What makes the addition law complete. -/
class Complete (d : F) : Prop where
  nonsquare : ∀ t, t ^ 2 ≠ d
  root : ∃ i : F, i ^ 2 = -1
  two : (2 : F) ≠ 0

/-- No denominator vanishes. -/
theorem denom_ne {d : F} [hc : Complete d] {x1 y1 x2 y2 : F} (h1 : On d x1 y1) (h2 : On d x2 y2) {e : F} (he : e ^ 2 = 1) :
    d * (x1 * x2 * y1 * y2) ≠ e := by
  intro h
  obtain ⟨i, hi⟩ := hc.root
  unfold On at h1 h2
  have he0 : e ≠ 0 := by rintro rfl; simp at he
  have hx1 : x1 ≠ 0 := by rintro rfl; apply he0; rw [← h]; ring
  have hy1 : y1 ≠ 0 := by rintro rfl; apply he0; rw [← h]; ring
  have hx2 : x2 ≠ 0 := by rintro rfl; apply he0; rw [← h]; ring
  have k1 : (i * x1 + e * y1) ^ 2 = d * (x1 * y1) ^ 2 * (i * x2 + y2) ^ 2 := by
    linear_combination (x1 ^ 2 - d * x1 ^ 2 * y1 ^ 2 * x2 ^ 2) * hi + (y1 ^ 2 - 1) * he + h1 - d * x1 ^ 2 * y1 ^ 2 * h2 -
      (2 * i * x1 * y1 + d * x1 * x2 * y1 * y2 + e) * h
  have k2 : (i * x1 - e * y1) ^ 2 = d * (x1 * y1) ^ 2 * (i * x2 - y2) ^ 2 := by
    linear_combination (x1 ^ 2 - d * x1 ^ 2 * y1 ^ 2 * x2 ^ 2) * hi + (y1 ^ 2 - 1) * he + h1 - d * x1 ^ 2 * y1 ^ 2 * h2 +
      (2 * i * x1 * y1 - d * x1 * x2 * y1 * y2 - e) * h
  have key : ∀ a b : F, a ^ 2 = d * (x1 * y1) ^ 2 * b ^ 2 → b = 0 := by
    intro a b hab
    by_contra hb
    apply hc.nonsquare (a / (x1 * y1 * b))
    field_simp
    linear_combination hab
  have z1 := key _ _ k1
  have z2 := key _ _ k2
  have : 2 * i * x2 = 0 := by linear_combination z1 + z2
  rcases mul_eq_zero.1 this with h | h
  · rcases mul_eq_zero.1 h with h | h
    · exact hc.two h
    · rw [h] at hi
      have : (1 : F) = 0 := by linear_combination hi
      exact one_ne_zero this
  · exact hx2 h

theorem dplus {d : F} [Complete d] {x1 y1 x2 y2 : F} (h1 : On d x1 y1) (h2 : On d x2 y2) :
    1 + d * (x1 * x2 * y1 * y2) ≠ 0 := fun h =>
  denom_ne h1 h2 (e := -1) (by ring) (by linear_combination h)

theorem dminus {d : F} [Complete d] {x1 y1 x2 y2 : F} (h1 : On d x1 y1) (h2 : On d x2 y2) :
    1 - d * (x1 * x2 * y1 * y2) ≠ 0 := fun h =>
  denom_ne h1 h2 (e := 1) (by ring) (by linear_combination -h)

/-- First coordinate of a sum. -/
def addX (d x1 y1 x2 y2 : F) : F := (x1 * y2 + x2 * y1) / (1 + d * (x1 * x2 * y1 * y2))

/-- Second coordinate of a sum. -/
def addY (d x1 y1 x2 y2 : F) : F := (y1 * y2 + x1 * x2) / (1 - d * (x1 * x2 * y1 * y2))

theorem closure_poly {d x1 y1 x2 y2 : F} (h1 : On d x1 y1) (h2 : On d x2 y2) :
    (y1 * y2 + x1 * x2) ^ 2 * (1 + d * (x1 * x2 * y1 * y2)) ^ 2 - (x1 * y2 + x2 * y1) ^ 2 * (1 - d * (x1 * x2 * y1 * y2)) ^ 2 -
      (1 + d * (x1 * x2 * y1 * y2)) ^ 2 * (1 - d * (x1 * x2 * y1 * y2)) ^ 2 -
      d * (x1 * y2 + x2 * y1) ^ 2 * (y1 * y2 + x1 * x2) ^ 2 = 0 := by
  unfold On at h1 h2
  linear_combination
    (y2^4 - 4 * x2^2 * y2^2 + 2 * x2^2 * y2^4 + x2^4 - 2 * x2^4 * y2^2 - 2 * d * x2^2 * y2^2 - 2 * d * x2^4 * y2^4 -
    d * y1^2 * x2^2 * y2^4 + d * y1^2 * x2^4 * y2^2 + d * x1^2 * x2^2 * y2^4 - d * x1^2 * x2^4 * y2^2 - d^2 * x2^4 *
    y2^4 + d^2 * y1^2 * x2^4 * y2^4 - d^2 * x1^2 * x2^4 * y2^4 + d^3 * x1^2 * y1^2 * x2^4 * y2^4) * h1 + (1 + y2^2 -
    x2^2 + 2 * x2^2 * y2^2 - y1^2 * y2^2 + y1^2 * x2^2 - 2 * y1^2 * x2^2 * y2^2 + x1^2 * y2^2 - x1^2 * x2^2 + 2 *
    x1^2 * x2^2 * y2^2 + d * x2^2 * y2^2 - 2 * d * y1^2 * x2^2 * y2^2 + d * y1^4 * x2^2 * y2^2 + 2 * d * x1^2 * x2^2
    * y2^2 + d * x1^4 * x2^2 * y2^2) * h2

theorem on_add {d : F} [Complete d] {x1 y1 x2 y2 : F} (h1 : On d x1 y1) (h2 : On d x2 y2) :
    On d (addX d x1 y1 x2 y2) (addY d x1 y1 x2 y2) := by
  have hp := dplus h1 h2
  have hm := dminus h1 h2
  have hc := closure_poly h1 h2
  unfold On addX addY
  generalize 1 + d * (x1 * x2 * y1 * y2) = P at *
  generalize 1 - d * (x1 * x2 * y1 * y2) = M at *
  field_simp
  linear_combination hc

theorem assocX_poly {d x1 y1 x2 y2 x3 y3 : F} (h1 : On d x1 y1) (h2 : On d x2 y2) (h3 : On d x3 y3) :
    ((x1 * y2 + x2 * y1) * y3 * (1 - d * (x1 * x2 * y1 * y2)) + x3 * (y1 * y2 + x1 * x2) * (1 + d * (x1 * x2 * y1 * y2))) *
      ((1 + d * (x2 * x3 * y2 * y3)) * (1 - d * (x2 * x3 * y2 * y3)) + d * x1 * y1 * (x2 * y3 + x3 * y2) * (y2 * y3 + x2 * x3)) =
    (x1 * (y2 * y3 + x2 * x3) * (1 + d * (x2 * x3 * y2 * y3)) + y1 * (x2 * y3 + x3 * y2) * (1 - d * (x2 * x3 * y2 * y3))) *
      ((1 + d * (x1 * x2 * y1 * y2)) * (1 - d * (x1 * x2 * y1 * y2)) + d * (x1 * y2 + x2 * y1) * (y1 * y2 + x1 * x2) * x3 * y3) := by
  unfold On at h1 h2 h3
  linear_combination
    (-d * y1 * x2 * y2^4 * x3^2 * y3 - d * y1 * x2^2 * y2^3 * x3 - d * y1 * x2^2 * y2^3 * x3^3 - d * y1 * x2^3 * y2^2
    * y3 + d * y1 * x2^3 * y2^2 * y3^3 + d * y1 * x2^4 * y2 * x3 * y3^2 + d * x1 * x2 * y2^4 * x3 * y3^2 - d * x1 *
    x2^2 * y2^3 * y3 + d * x1 * x2^2 * y2^3 * y3^3 - d * x1 * x2^3 * y2^2 * x3 - d * x1 * x2^3 * y2^2 * x3^3 - d * x1
    * x2^4 * y2 * x3^2 * y3 + d^2 * y1 * x2^3 * y2^4 * x3^2 * y3 + d^2 * y1 * x2^4 * y2^3 * x3 * y3^2 - d^2 * x1 *
    x2^3 * y2^4 * x3 * y3^2 - d^2 * x1 * x2^4 * y2^3 * x3^2 * y3) * h1 + (y1 * y2 * x3 - y1 * y2 * x3 * y3^2 + y1 *
    y2 * x3^3 + y1 * x2 * y3 - y1 * x2 * y3^3 + y1 * x2 * x3^2 * y3 - y1^3 * y2 * x3 + y1^3 * y2 * x3 * y3^2 - y1^3 *
    y2 * x3^3 - y1^3 * x2 * y3 + y1^3 * x2 * y3^3 - y1^3 * x2 * x3^2 * y3 + x1 * y2 * y3 - x1 * y2 * y3^3 + x1 * y2 *
    x3^2 * y3 + x1 * x2 * x3 - x1 * x2 * x3 * y3^2 + x1 * x2 * x3^3 - x1 * y1^2 * y2 * y3 + x1 * y1^2 * y2 * y3^3 -
    x1 * y1^2 * y2 * x3^2 * y3 - x1 * y1^2 * x2 * x3 + x1 * y1^2 * x2 * x3 * y3^2 - x1 * y1^2 * x2 * x3^3 + x1^2 * y1
    * y2 * x3 - x1^2 * y1 * y2 * x3 * y3^2 + x1^2 * y1 * y2 * x3^3 + x1^2 * y1 * x2 * y3 - x1^2 * y1 * x2 * y3^3 +
    x1^2 * y1 * x2 * x3^2 * y3 + x1^3 * y2 * y3 - x1^3 * y2 * y3^3 + x1^3 * y2 * x3^2 * y3 + x1^3 * x2 * x3 - x1^3 *
    x2 * x3 * y3^2 + x1^3 * x2 * x3^3 + d * y1 * y2 * x3^3 * y3^2 + d * y1 * x2 * x3^2 * y3^3 - d * y1 * x2 * y2^2 *
    x3^2 * y3 - d * y1 * x2^2 * y2 * x3 * y3^2 - d * y1^3 * y2 * x3^3 * y3^2 - d * y1^3 * x2 * x3^2 * y3^3 + d * y1^3
    * x2 * y2^2 * x3^2 * y3 + d * y1^3 * x2^2 * y2 * x3 * y3^2 + d * x1 * y2 * x3^2 * y3^3 + d * x1 * x2 * x3^3 *
    y3^2 + d * x1 * x2 * y2^2 * x3 * y3^2 + d * x1 * x2^2 * y2 * x3^2 * y3 - d * x1 * y1^2 * y2 * x3^2 * y3^3 - d *
    x1 * y1^2 * x2 * x3^3 * y3^2 - d * x1 * y1^2 * x2 * y2^2 * x3 * y3^2 - d * x1 * y1^2 * x2^2 * y2 * x3^2 * y3 + d
    * x1^2 * y1 * y2 * x3^3 * y3^2 + d * x1^2 * y1 * x2 * x3^2 * y3^3 - d * x1^2 * y1 * x2 * y2^2 * x3^2 * y3 - d *
    x1^2 * y1 * x2^2 * y2 * x3 * y3^2 + d * x1^3 * y2 * x3^2 * y3^3 + d * x1^3 * x2 * x3^3 * y3^2 + d * x1^3 * x2 *
    y2^2 * x3 * y3^2 + d * x1^3 * x2^2 * y2 * x3^2 * y3 + d^2 * x1 * y1^2 * x2 * y2^2 * x3^3 * y3^2 - d^2 * x1 * y1^2
    * x2^2 * y2 * x3^2 * y3^3 - d^2 * x1^2 * y1 * x2 * y2^2 * x3^2 * y3^3 + d^2 * x1^2 * y1 * x2^2 * y2 * x3^3 *
    y3^2) * h2 + (-y1 * y2 * x3 + y1 * y2^3 * x3 - y1 * x2 * y3 + y1 * x2 * y2^2 * y3 - y1 * x2^2 * y2 * x3 - y1 *
    x2^3 * y3 + y1^3 * y2 * x3 - y1^3 * y2^3 * x3 + y1^3 * x2 * y3 - y1^3 * x2 * y2^2 * y3 + y1^3 * x2^2 * y2 * x3 +
    y1^3 * x2^3 * y3 - x1 * y2 * y3 + x1 * y2^3 * y3 - x1 * x2 * x3 + x1 * x2 * y2^2 * x3 - x1 * x2^2 * y2 * y3 - x1
    * x2^3 * x3 + x1 * y1^2 * y2 * y3 - x1 * y1^2 * y2^3 * y3 + x1 * y1^2 * x2 * x3 - x1 * y1^2 * x2 * y2^2 * x3 + x1
    * y1^2 * x2^2 * y2 * y3 + x1 * y1^2 * x2^3 * x3 - x1^2 * y1 * y2 * x3 + x1^2 * y1 * y2^3 * x3 - x1^2 * y1 * x2 *
    y3 + x1^2 * y1 * x2 * y2^2 * y3 - x1^2 * y1 * x2^2 * y2 * x3 - x1^2 * y1 * x2^3 * y3 - x1^3 * y2 * y3 + x1^3 *
    y2^3 * y3 - x1^3 * x2 * x3 + x1^3 * x2 * y2^2 * x3 - x1^3 * x2^2 * y2 * y3 - x1^3 * x2^3 * x3 - d * x1 * y1^2 *
    x2 * y2^2 * x3 + d * x1 * y1^2 * x2^2 * y2 * y3 + d * x1^2 * y1 * x2 * y2^2 * y3 - d * x1^2 * y1 * x2^2 * y2 *
    x3) * h3

theorem assocY_poly {d x1 y1 x2 y2 x3 y3 : F} (h1 : On d x1 y1) (h2 : On d x2 y2) (h3 : On d x3 y3) :
    ((y1 * y2 + x1 * x2) * y3 * (1 + d * (x1 * x2 * y1 * y2)) + (x1 * y2 + x2 * y1) * x3 * (1 - d * (x1 * x2 * y1 * y2))) *
      ((1 + d * (x2 * x3 * y2 * y3)) * (1 - d * (x2 * x3 * y2 * y3)) - d * x1 * y1 * (x2 * y3 + x3 * y2) * (y2 * y3 + x2 * x3)) =
    (y1 * (y2 * y3 + x2 * x3) * (1 + d * (x2 * x3 * y2 * y3)) + x1 * (x2 * y3 + x3 * y2) * (1 - d * (x2 * x3 * y2 * y3))) *
      ((1 + d * (x1 * x2 * y1 * y2)) * (1 - d * (x1 * x2 * y1 * y2)) - d * (x1 * y2 + x2 * y1) * (y1 * y2 + x1 * x2) * x3 * y3) := by
  unfold On at h1 h2 h3
  linear_combination
    (d * y1 * x2 * y2^4 * x3 * y3^2 - d * y1 * x2^2 * y2^3 * y3 + d * y1 * x2^2 * y2^3 * y3^3 - d * y1 * x2^3 * y2^2
    * x3 - d * y1 * x2^3 * y2^2 * x3^3 - d * y1 * x2^4 * y2 * x3^2 * y3 - d * x1 * x2 * y2^4 * x3^2 * y3 - d * x1 *
    x2^2 * y2^3 * x3 - d * x1 * x2^2 * y2^3 * x3^3 - d * x1 * x2^3 * y2^2 * y3 + d * x1 * x2^3 * y2^2 * y3^3 + d * x1
    * x2^4 * y2 * x3 * y3^2 - d^2 * y1 * x2^3 * y2^4 * x3 * y3^2 - d^2 * y1 * x2^4 * y2^3 * x3^2 * y3 + d^2 * x1 *
    x2^3 * y2^4 * x3^2 * y3 + d^2 * x1 * x2^4 * y2^3 * x3 * y3^2) * h1 + (y1 * y2 * y3 - y1 * y2 * y3^3 + y1 * y2 *
    x3^2 * y3 + y1 * x2 * x3 - y1 * x2 * x3 * y3^2 + y1 * x2 * x3^3 - y1^3 * y2 * y3 + y1^3 * y2 * y3^3 - y1^3 * y2 *
    x3^2 * y3 - y1^3 * x2 * x3 + y1^3 * x2 * x3 * y3^2 - y1^3 * x2 * x3^3 + x1 * y2 * x3 - x1 * y2 * x3 * y3^2 + x1 *
    y2 * x3^3 + x1 * x2 * y3 - x1 * x2 * y3^3 + x1 * x2 * x3^2 * y3 - x1 * y1^2 * y2 * x3 + x1 * y1^2 * y2 * x3 *
    y3^2 - x1 * y1^2 * y2 * x3^3 - x1 * y1^2 * x2 * y3 + x1 * y1^2 * x2 * y3^3 - x1 * y1^2 * x2 * x3^2 * y3 + x1^2 *
    y1 * y2 * y3 - x1^2 * y1 * y2 * y3^3 + x1^2 * y1 * y2 * x3^2 * y3 + x1^2 * y1 * x2 * x3 - x1^2 * y1 * x2 * x3 *
    y3^2 + x1^2 * y1 * x2 * x3^3 + x1^3 * y2 * x3 - x1^3 * y2 * x3 * y3^2 + x1^3 * y2 * x3^3 + x1^3 * x2 * y3 - x1^3
    * x2 * y3^3 + x1^3 * x2 * x3^2 * y3 + d * y1 * y2 * x3^2 * y3^3 + d * y1 * x2 * x3^3 * y3^2 + d * y1 * x2 * y2^2
    * x3 * y3^2 + d * y1 * x2^2 * y2 * x3^2 * y3 - d * y1^3 * y2 * x3^2 * y3^3 - d * y1^3 * x2 * x3^3 * y3^2 - d *
    y1^3 * x2 * y2^2 * x3 * y3^2 - d * y1^3 * x2^2 * y2 * x3^2 * y3 + d * x1 * y2 * x3^3 * y3^2 + d * x1 * x2 * x3^2
    * y3^3 - d * x1 * x2 * y2^2 * x3^2 * y3 - d * x1 * x2^2 * y2 * x3 * y3^2 - d * x1 * y1^2 * y2 * x3^3 * y3^2 - d *
    x1 * y1^2 * x2 * x3^2 * y3^3 + d * x1 * y1^2 * x2 * y2^2 * x3^2 * y3 + d * x1 * y1^2 * x2^2 * y2 * x3 * y3^2 + d
    * x1^2 * y1 * y2 * x3^2 * y3^3 + d * x1^2 * y1 * x2 * x3^3 * y3^2 + d * x1^2 * y1 * x2 * y2^2 * x3 * y3^2 + d *
    x1^2 * y1 * x2^2 * y2 * x3^2 * y3 + d * x1^3 * y2 * x3^3 * y3^2 + d * x1^3 * x2 * x3^2 * y3^3 - d * x1^3 * x2 *
    y2^2 * x3^2 * y3 - d * x1^3 * x2^2 * y2 * x3 * y3^2 + d^2 * x1 * y1^2 * x2 * y2^2 * x3^2 * y3^3 - d^2 * x1 * y1^2
    * x2^2 * y2 * x3^3 * y3^2 - d^2 * x1^2 * y1 * x2 * y2^2 * x3^3 * y3^2 + d^2 * x1^2 * y1 * x2^2 * y2 * x3^2 *
    y3^3) * h2 + (-y1 * y2 * y3 + y1 * y2^3 * y3 - y1 * x2 * x3 + y1 * x2 * y2^2 * x3 - y1 * x2^2 * y2 * y3 - y1 *
    x2^3 * x3 + y1^3 * y2 * y3 - y1^3 * y2^3 * y3 + y1^3 * x2 * x3 - y1^3 * x2 * y2^2 * x3 + y1^3 * x2^2 * y2 * y3 +
    y1^3 * x2^3 * x3 - x1 * y2 * x3 + x1 * y2^3 * x3 - x1 * x2 * y3 + x1 * x2 * y2^2 * y3 - x1 * x2^2 * y2 * x3 - x1
    * x2^3 * y3 + x1 * y1^2 * y2 * x3 - x1 * y1^2 * y2^3 * x3 + x1 * y1^2 * x2 * y3 - x1 * y1^2 * x2 * y2^2 * y3 + x1
    * y1^2 * x2^2 * y2 * x3 + x1 * y1^2 * x2^3 * y3 - x1^2 * y1 * y2 * y3 + x1^2 * y1 * y2^3 * y3 - x1^2 * y1 * x2 *
    x3 + x1^2 * y1 * x2 * y2^2 * x3 - x1^2 * y1 * x2^2 * y2 * y3 - x1^2 * y1 * x2^3 * x3 - x1^3 * y2 * x3 + x1^3 *
    y2^3 * x3 - x1^3 * x2 * y3 + x1^3 * x2 * y2^2 * y3 - x1^3 * x2^2 * y2 * x3 - x1^3 * x2^3 * y3 - d * x1 * y1^2 *
    x2 * y2^2 * y3 + d * x1 * y1^2 * x2^2 * y2 * x3 + d * x1^2 * y1 * x2 * y2^2 * x3 - d * x1^2 * y1 * x2^2 * y2 *
    y3) * h3

theorem addX_assoc {d : F} [Complete d] {x1 y1 x2 y2 x3 y3 : F} (h1 : On d x1 y1) (h2 : On d x2 y2) (h3 : On d x3 y3) :
    addX d (addX d x1 y1 x2 y2) (addY d x1 y1 x2 y2) x3 y3 = addX d x1 y1 (addX d x2 y2 x3 y3) (addY d x2 y2 x3 y3) := by
  have p12 := dplus h1 h2
  have m12 := dminus h1 h2
  have p23 := dplus h2 h3
  have m23 := dminus h2 h3
  have q1 := dplus (on_add h1 h2) h3
  have q2 := dplus h1 (on_add h2 h3)
  have key := assocX_poly h1 h2 h3
  unfold addX addY at *
  generalize 1 + d * (x1 * x2 * y1 * y2) = P at *
  generalize 1 - d * (x1 * x2 * y1 * y2) = M at *
  generalize 1 + d * (x2 * x3 * y2 * y3) = P' at *
  generalize 1 - d * (x2 * x3 * y2 * y3) = M' at *
  generalize x1 * y2 + x2 * y1 = A at *
  generalize y1 * y2 + x1 * x2 = B at *
  generalize x2 * y3 + x3 * y2 = A' at *
  generalize y2 * y3 + x2 * x3 = B' at *
  have e1 : 1 + d * (A / P * x3 * (B / M) * y3) = (P * M + d * A * B * x3 * y3) / (P * M) := by field_simp
  have e2 : 1 + d * (x1 * (A' / P') * y1 * (B' / M')) = (P' * M' + d * x1 * y1 * A' * B') / (P' * M') := by field_simp
  rw [e1] at q1 ⊢
  rw [e2] at q2 ⊢
  have r1 : P * M + d * A * B * x3 * y3 ≠ 0 := fun h => q1 (by rw [h, zero_div])
  have r2 : P' * M' + d * x1 * y1 * A' * B' ≠ 0 := fun h => q2 (by rw [h, zero_div])
  rw [div_eq_div_iff q1 q2]
  field_simp
  linear_combination key

theorem addY_assoc {d : F} [Complete d] {x1 y1 x2 y2 x3 y3 : F} (h1 : On d x1 y1) (h2 : On d x2 y2) (h3 : On d x3 y3) :
    addY d (addX d x1 y1 x2 y2) (addY d x1 y1 x2 y2) x3 y3 = addY d x1 y1 (addX d x2 y2 x3 y3) (addY d x2 y2 x3 y3) := by
  have p12 := dplus h1 h2
  have m12 := dminus h1 h2
  have p23 := dplus h2 h3
  have m23 := dminus h2 h3
  have q1 := dminus (on_add h1 h2) h3
  have q2 := dminus h1 (on_add h2 h3)
  have key := assocY_poly h1 h2 h3
  unfold addX addY at *
  generalize 1 + d * (x1 * x2 * y1 * y2) = P at *
  generalize 1 - d * (x1 * x2 * y1 * y2) = M at *
  generalize 1 + d * (x2 * x3 * y2 * y3) = P' at *
  generalize 1 - d * (x2 * x3 * y2 * y3) = M' at *
  generalize x1 * y2 + x2 * y1 = A at *
  generalize y1 * y2 + x1 * x2 = B at *
  generalize x2 * y3 + x3 * y2 = A' at *
  generalize y2 * y3 + x2 * x3 = B' at *
  have e1 : 1 - d * (A / P * x3 * (B / M) * y3) = (P * M - d * A * B * x3 * y3) / (P * M) := by field_simp
  have e2 : 1 - d * (x1 * (A' / P') * y1 * (B' / M')) = (P' * M' - d * x1 * y1 * A' * B') / (P' * M') := by field_simp
  rw [e1] at q1 ⊢
  rw [e2] at q2 ⊢
  have r1 : P * M - d * A * B * x3 * y3 ≠ 0 := fun h => q1 (by rw [h, zero_div])
  have r2 : P' * M' - d * x1 * y1 * A' * B' ≠ 0 := fun h => q2 (by rw [h, zero_div])
  rw [div_eq_div_iff q1 q2]
  field_simp
  linear_combination key

/-- A point of the curve. -/
@[ext] structure Point (d : F) where
  x : F
  y : F
  on : On d x y

namespace Point
variable {d : F}

instance : Zero (Point d) := ⟨⟨0, 1, by unfold On; ring⟩⟩
instance : Neg (Point d) := ⟨fun P => ⟨-P.x, P.y, by have := P.on; unfold On at *; linear_combination this⟩⟩
instance [Complete d] : Add (Point d) := ⟨fun P Q => ⟨_, _, on_add P.on Q.on⟩⟩

theorem zero_x : (0 : Point d).x = 0 := rfl
theorem zero_y : (0 : Point d).y = 1 := rfl
theorem neg_x (P : Point d) : (-P).x = -P.x := rfl
theorem neg_y (P : Point d) : (-P).y = P.y := rfl
theorem add_x [Complete d] (P Q : Point d) : (P + Q).x = addX d P.x P.y Q.x Q.y := rfl
theorem add_y [Complete d] (P Q : Point d) : (P + Q).y = addY d P.x P.y Q.x Q.y := rfl

theorem add_comm' [Complete d] (P Q : Point d) : P + Q = Q + P := by
  ext
  · rw [add_x, add_x]; unfold addX; congr 1 <;> ring
  · rw [add_y, add_y]; unfold addY; congr 1 <;> ring

theorem zero_add' [Complete d] (P : Point d) : 0 + P = P := by
  ext
  · rw [add_x, zero_x, zero_y]; unfold addX; simp
  · rw [add_y, zero_x, zero_y]; unfold addY; simp

theorem neg_add' [Complete d] (P : Point d) : -P + P = 0 := by
  have hp := P.on
  have hm := dminus (-P).on hp
  rw [neg_x, neg_y] at hm
  ext
  · rw [add_x, neg_x, neg_y, zero_x]; unfold addX
    rw [show -P.x * P.y + P.x * P.y = 0 by ring, zero_div]
  · rw [add_y, neg_x, neg_y, zero_y]; unfold addY
    rw [div_eq_one_iff_eq hm]
    unfold On at hp
    linear_combination hp

instance [Complete d] : AddCommGroup (Point d) where
  add_assoc P Q R := by
    ext
    · exact addX_assoc P.on Q.on R.on
    · exact addY_assoc P.on Q.on R.on
  zero_add := zero_add'
  add_zero P := by rw [add_comm', zero_add']
  neg_add_cancel := neg_add'
  add_comm := add_comm'
  nsmul := nsmulRec
  zsmul := zsmulRec

end Point
end Verif.Edwards
