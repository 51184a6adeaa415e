import Verif.Proofs.EcGood
import Mathlib.GroupTheory.Perm.Cycle.Type
/-!
The group of points of P-256 and of P-384 has the order of the base point: every point is a multiple of it.

There are at most `2 p + 1 < 3 n` points, so the index of the subgroup of the base point is 1 or 2. It is not 2, as a point of
order 2 would be a root of `x³ + a x + b`, and that polynomial has none: a root would satisfy `x ^ p = x`, and `x ^ p - x`
is coprime to the polynomial.
-/
namespace Verif.Ec
open ModArith

/-! ### No root -/

/-- A polynomial of degree at most 2. -/
structure Quad where
  (c0 c1 c2 : Nat)
  deriving DecidableEq

/-- Product modulo `x³ + a x + b`. -/
def Curve.qmul (C : Curve) (f g : Quad) : Quad :=
  let d4 := f.c2 * g.c2 % C.p
  let d3 := (f.c1 * g.c2 + f.c2 * g.c1) % C.p
  -- `x³ = -a x - b`, `x⁴ = -a x² - b x`
  ⟨(f.c0 * g.c0 + (C.p - C.b) * d3) % C.p,
   (f.c0 * g.c1 + f.c1 * g.c0 + (C.p - C.a) * d3 + (C.p - C.b) * d4) % C.p,
   (f.c0 * g.c2 + f.c1 * g.c1 + f.c2 * g.c0 + (C.p - C.a) * d4) % C.p⟩

def Curve.qpow (C : Curve) : Nat → Nat → Quad → Quad → Quad
  | 0, _, _, acc => acc
  | f + 1, k, q, acc => C.qpow f (k / 2) (C.qmul q q) (bif Nat.beq (k % 2) 1 then C.qmul acc q else acc)

variable {C : Curve}

/-- Value at a point. -/
def Quad.at {p : Nat} (f : Quad) (x : ZMod p) : ZMod p := f.c0 + f.c1 * x + f.c2 * x ^ 2

theorem qmul_at (ha : C.a ≤ C.p) (hb : C.b ≤ C.p) {x : ZMod C.p} (hx : x ^ 3 + C.a * x + C.b = 0) (f g : Quad) :
    (C.qmul f g).at x = f.at x * g.at x := by
  simp only [Curve.qmul, Quad.at]
  simp only [ZMod.natCast_mod, Nat.cast_add, Nat.cast_mul]
  rw [Nat.cast_sub ha, Nat.cast_sub hb, ZMod.natCast_self]
  linear_combination (-((f.c1 * g.c2 + f.c2 * g.c1 : ZMod C.p) + f.c2 * g.c2 * x)) * hx

theorem qpow_at (ha : C.a ≤ C.p) (hb : C.b ≤ C.p) {x : ZMod C.p} (hx : x ^ 3 + C.a * x + C.b = 0) :
    ∀ (f k : Nat) (q acc : Quad), k < 2 ^ f → (C.qpow f k q acc).at x = acc.at x * q.at x ^ k
  | 0, k, q, acc, h => by
    have : k = 0 := by simpa using h
    subst this; simp [Curve.qpow]
  | f + 1, k, q, acc, h => by
    rw [Curve.qpow, qpow_at ha hb hx f _ _ _ (by rw [pow_succ] at h; omega), qmul_at ha hb hx]
    simp only [Bool.cond_eq_ite, Nat.beq_eq]
    have hk := Nat.div_add_mod k 2
    split
    · next h1 =>
      rw [qmul_at ha hb hx]
      conv_rhs => rw [← hk, h1, pow_succ, pow_mul]
      ring
    · next h1 =>
      have h1 : k % 2 = 0 := by omega
      conv_rhs => rw [← hk, h1, add_zero, pow_mul]
      rw [pow_two]

/-- Certificate that the cubic has no root: with `f = x ^ p - x` reduced, `u * f + v * (x³ + a x + b) = 1`, which shows in
the product of `u` and `f` modulo the cubic being 1. -/
theorem no_root (hp : C.p.Prime) (ha : C.a ≤ C.p) (hb : C.b ≤ C.p) (u : Quad) {e0 e1 e2 : Nat}
    (hpow : C.qpow 400 C.p ⟨0, 1, 0⟩ ⟨1, 0, 0⟩ = ⟨e0, e1, e2⟩) (hlt : C.p < 2 ^ 400)
    (hcert : C.qmul u ⟨e0, e1 + (C.p - 1), e2⟩ = ⟨1, 0, 0⟩) (x : ZMod C.p) : x ^ 3 + C.a * x + C.b ≠ 0 := by
  intro hx
  have : Fact C.p.Prime := ⟨hp⟩
  have h1 := qpow_at ha hb hx 400 C.p ⟨0, 1, 0⟩ ⟨1, 0, 0⟩ hlt
  rw [hpow] at h1
  have h2 := qmul_at ha hb hx u ⟨e0, e1 + (C.p - 1), e2⟩
  rw [hcert] at h2
  simp only [Quad.at] at h1 h2
  push_cast at h1 h2
  rw [Nat.cast_sub hp.one_le, ZMod.natCast_self] at h2
  have h3 : (0 + 1 * x + 0 * x ^ 2) ^ C.p = x := by rw [show (0 + 1 * x + 0 * x ^ 2) = x by ring]; exact ZMod.pow_card x
  rw [h3] at h1
  have : (1 : ZMod C.p) = 0 := by
    have : (e0 : ZMod C.p) + (e1 + (0 - 1)) * x + e2 * x ^ 2 = 0 := by linear_combination h1
    push_cast at h2
    rw [this] at h2
    linear_combination h2
  exact one_ne_zero this

theorem p256_qpow : p256.qpow 400 p256.p ⟨0, 1, 0⟩ ⟨1, 0, 0⟩ =
    ⟨66434390973925144466073271287821796038003695194169110494110089305650096453661, 12402202686218762177567235911775779164004716598278868847786114277539554646092, 24678849118215552148312087830792888746041224110560601850711771001608500700145⟩ := by
  decide +kernel

theorem p256_cert : p256.qmul ⟨76626890310466861426869089647039036757962535851890885406097439786770458211455, 74462945259064871768191128030512052509059297803194871526163573358218695456204, 34768139465301476436978405170953382516735956999154666452188405812258086013549⟩
    ⟨66434390973925144466073271287821796038003695194169110494110089305650096453661, 12402202686218762177567235911775779164004716598278868847786114277539554646092 + (p256.p - 1), 24678849118215552148312087830792888746041224110560601850711771001608500700145⟩ = ⟨1, 0, 0⟩ := by
  decide +kernel

theorem p256_lt : p256.a ≤ p256.p ∧ p256.b ≤ p256.p ∧ p256.p < 2 ^ 400 := by decide +kernel

theorem p256_no_root (x : ZMod p256.p) : x ^ 3 + p256.a * x + p256.b ≠ 0 :=
  no_root p256_good.prime p256_lt.1 p256_lt.2.1 _ p256_qpow p256_lt.2.2 p256_cert x

theorem p384_qpow : p384.qpow 400 p384.p ⟨0, 1, 0⟩ ⟨1, 0, 0⟩ =
    ⟨8300902441410358810024883245706595788071887638472987429650051756787010122663664392654234716054658334410824607717835, 36451842499335230207230939190122359435795929611070366073564430331459357452117665764765104949638877581977396150453386, 15550551877492060201127078427218509008503925815996229619149120823729355824416602968196515686102139833725391182697242⟩ := by
  decide +kernel

theorem p384_cert : p384.qmul ⟨23037766613497683937702734290281044719364893268180251583910224888989381657771069200037813904257325918671976092329602, 8235438212423615602427778915669574859600037698862346933589434399495169446996583974901273360826717582835190849638831, 12157362177932134139146813183752135342286725243554133716818896354380897714709611791313184492360272402950851405460538⟩
    ⟨8300902441410358810024883245706595788071887638472987429650051756787010122663664392654234716054658334410824607717835, 36451842499335230207230939190122359435795929611070366073564430331459357452117665764765104949638877581977396150453386 + (p384.p - 1), 15550551877492060201127078427218509008503925815996229619149120823729355824416602968196515686102139833725391182697242⟩ = ⟨1, 0, 0⟩ := by
  decide +kernel

theorem p384_lt : p384.a ≤ p384.p ∧ p384.b ≤ p384.p ∧ p384.p < 2 ^ 400 := by decide +kernel

theorem p384_no_root (x : ZMod p384.p) : x ^ 3 + p384.a * x + p384.b ≠ 0 :=
  no_root p384_good.prime p384_lt.1 p384_lt.2.1 _ p384_qpow p384_lt.2.2 p384_cert x

/-! ### Counting -/

variable [hF : Fact C.p.Prime]

open WeierstrassCurve.Affine in
/-- A point is determined by its abscissa and the parity of its ordinate. -/
def code : C.W.Point → Option (ZMod C.p × Fin 2)
  | .zero => none
  | .some x y _ => some (x, ⟨y.val % 2, Nat.mod_lt _ (by omega)⟩)

theorem code_inj (h : C.Good) : Function.Injective (code (C := C)) := by
  intro P Q he
  have hp3 := h.big
  match P, Q, he with
  | .zero, .zero, _ => rfl
  | .some x y hx, .some x' y' hx', he =>
    simp only [code, Option.some.injEq, Prod.mk.injEq, Fin.mk.injEq] at he
    obtain ⟨rfl, he⟩ := he
    have e1 := W_equation.1 hx.1
    have e2 := W_equation.1 hx'.1
    have hyy : y = y' ∨ y = -y' := by
      rw [← sq_eq_sq_iff_eq_or_eq_neg, e1, e2]
    have : y = y' := by
      rcases hyy with hy | hy
      · exact hy
      · by_cases h0 : y' = 0
        · rw [hy, h0, neg_zero]
        · exfalso
          have hodd : C.p % 2 = 1 := by have := h.mod4; omega
          have hv : y.val = C.p - y'.val := by rw [hy, ZMod.neg_val, if_neg h0]
          have h1 := ZMod.val_lt y'
          rw [hv] at he
          omega
    subst this
    rfl

theorem finite_points (h : C.Good) : Finite C.W.Point := Finite.of_injective _ (code_inj h)

theorem card_le (h : C.Good) : Nat.card C.W.Point ≤ 2 * C.p + 1 := by
  have := Nat.card_le_card_of_injective _ (code_inj h)
  rw [Finite.card_option, Nat.card_prod, Nat.card_zmod, show Nat.card (Fin 2) = 2 by simp] at this
  omega

theorem two_torsion (h : C.Good) (hr : ∀ x : ZMod C.p, x ^ 3 + C.a * x + C.b ≠ 0) (P : C.W.Point) (h2 : P + P = 0) : P = 0 := by
  have hp3 := h.big
  match P with
  | .zero => rfl
  | .some x y hx =>
    exfalso
    have hn : WeierstrassCurve.Affine.Point.some x y hx = -.some x y hx := eq_neg_of_add_eq_zero_left h2
    rw [WeierstrassCurve.Affine.Point.neg_some] at hn
    injection hn with _ hn
    simp only [WeierstrassCurve.Affine.negY] at hn
    have h2' : (2 : ZMod C.p) ≠ 0 := by
      have := (ZMod.natCast_eq_zero_iff 2 C.p).not.2 (by intro hd; have := Nat.le_of_dvd (by omega) hd; omega)
      simpa using this
    have hy : y = 0 := by
      have : 2 * y = 0 := by linear_combination hn
      exact (mul_eq_zero.1 this).resolve_left h2'
    have e := W_equation.1 hx.1
    rw [hy] at e
    exact hr x (by linear_combination -e)

/-- Every point is a multiple of the base point. -/
theorem exists_log (h : C.Good) (hr : ∀ x : ZMod C.p, x ^ 3 + C.a * x + C.b ≠ 0) (hc : 2 * C.p + 1 < 3 * C.n)
    {G : C.W.Point} (hn : C.n • G = 0) (h0 : G ≠ 0) (Q : C.W.Point) : ∃ d, d < C.n ∧ Q = d • G := by
  have hFn : Fact C.n.Prime := ⟨h.nprime⟩
  have hfin := finite_points h
  have hord := addOrderOf_eq_prime hn h0
  have hcard := card_le h
  have hidx := AddSubgroup.card_mul_index (AddSubgroup.zmultiples G)
  rw [Nat.card_zmultiples, hord] at hidx
  have hpos : 0 < Nat.card C.W.Point := Nat.card_pos
  have hi3 : (AddSubgroup.zmultiples G).index < 3 := by
    by_contra hge
    have := Nat.mul_le_mul_left C.n (not_lt.1 hge)
    omega
  have hi : (AddSubgroup.zmultiples G).index = 1 := by
    have hne0 : (AddSubgroup.zmultiples G).index ≠ 0 := by intro hz; rw [hz] at hidx; omega
    by_contra hne
    have h2 : (AddSubgroup.zmultiples G).index = 2 := by omega
    rw [h2] at hidx
    have : Fact (Nat.Prime 2) := ⟨Nat.prime_two⟩
    obtain ⟨P, hP⟩ := exists_prime_addOrderOf_dvd_card' (G := C.W.Point) 2 ⟨C.n, by rw [← hidx]; ring⟩
    have h2P : P + P = 0 := by
      have := addOrderOf_nsmul_eq_zero P
      rwa [hP, two_nsmul] at this
    have := two_torsion h hr P h2P
    rw [this, addOrderOf_zero] at hP
    omega
  have htop := AddSubgroup.index_eq_one.1 hi
  have hQ : Q ∈ AddSubgroup.zmultiples G := by rw [htop]; trivial
  rw [← mem_multiples_iff_mem_zmultiples] at hQ
  obtain ⟨d, rfl⟩ := hQ
  exact ⟨d % C.n, Nat.mod_lt _ h.nprime.pos, smul_congr hn (Nat.mod_mod _ _).symm⟩

end Verif.Ec
