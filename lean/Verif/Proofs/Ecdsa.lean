import Verif.Proofs.EcGroup
import Verif.Proofs.Sha
import Verif.Model.Ecdsa
/-! Lemmas about ECDSA and point encoding over a curve whose constants are as they should be. -/
namespace Verif.Ec
open ModArith Sha2 WeierstrassCurve

/-- What is needed of a curve's constants for signatures and encodings. -/
structure Curve.Good (C : Curve) : Prop extends C.Ok where
  mod4 : C.p % 4 = 3
  nprime : C.n.Prime
  nbig : 2 < C.n
  base : C.on C.gx C.gy = true
  order : C.smul C.n C.g = .inf
  plen : C.p ≤ 256 ^ C.len
  nlen : C.n ≤ 256 ^ C.len

variable {C : Curve}

/-! ### Numbers as bytes -/

theorem beNat_beBytes {n x : Nat} (h : x < 256 ^ n) : beNat (beBytes n x) = x := by
  rw [beNat_eq, beBytes_val, Nat.mod_eq_of_lt h]

theorem beNat_lt (b : Bytes) : beNat b < 256 ^ b.length := by rw [beNat_eq]; exact beVal_lt b

theorem beBytes_beNat (b : Bytes) : beBytes b.length (beNat b) = b := by
  apply beVal_inj (Verif.beBytes_length _ _)
  rw [beBytes_val, beNat_eq, Nat.mod_eq_of_lt (beVal_lt b)]

/-! ### The cyclic group of the base point -/

theorem exists_base (h : C.Good) : ∃ (_ : Fact C.p.Prime) (G : C.W.Point), Rep C.g G ∧ C.n • G = 0 ∧ G ≠ 0 := by
  have hF := h.fact
  obtain ⟨G, hG⟩ := rep_on h.toOk h.base
  refine ⟨hF, G, hG, ?_, ?_⟩
  · have := smul_rep h.toOk C.n hG
    rw [show (Pt.aff C.gx C.gy) = C.g from rfl, h.order] at this
    exact this
  · obtain ⟨_, _, _, rfl⟩ := hG
    exact Affine.Point.some_ne_zero _

/-- Multiples of the base point depend on the factor modulo `n` only. -/
theorem smul_congr [Fact C.p.Prime] {G : C.W.Point} (hn : C.n • G = 0) {a b : Nat} (h : a % C.n = b % C.n) : a • G = b • G := by
  have key : ∀ a : Nat, a • G = (a % C.n) • G := fun a => by
    conv_lhs => rw [← Nat.div_add_mod a C.n, add_nsmul, mul_nsmul, hn, nsmul_zero, zero_add]
  rw [key a, key b, h]

theorem smul_eq_zero [Fact C.p.Prime] (h : C.Good) {G : C.W.Point} (hn : C.n • G = 0) (h0 : G ≠ 0) {a : Nat} :
    a • G = 0 ↔ C.n ∣ a := by
  have : Fact C.n.Prime := ⟨h.nprime⟩
  rw [← addOrderOf_eq_prime hn h0, addOrderOf_dvd_iff_nsmul_eq_zero]

/-! ### Signing, then verifying -/

theorem verify_signWith (h : C.Good) {k z d r s : Nat} (hk : 0 < k ∧ k < C.n) (hs : C.signWith k z d = some (r, s)) :
    C.verifyPt (C.smul d C.g) z (r, s) = true := by
  obtain ⟨hF, G, hG, hn, h0⟩ := exists_base h
  have hFn : Fact C.n.Prime := ⟨h.nprime⟩
  have hkn : (k : ZMod C.n) ≠ 0 := by
    rw [Ne, ZMod.natCast_eq_zero_iff]
    intro hd; have := Nat.le_of_dvd hk.1 hd; omega
  have hR := smul_rep h.toOk k hG
  rw [Curve.signWith] at hs
  split at hs
  · cases hs
  rename_i x y hx
  rw [hx] at hR
  simp only at hs
  split at hs
  · cases hs
  rename_i hrs
  injection hs with hs
  injection hs with hr hs'
  rw [hr] at hs' hrs
  rw [hs'] at hrs
  have hse : (s : ZMod C.n) = (k : ZMod C.n)⁻¹ * (z + r * d) := by
    rw [← hs', ZMod.natCast_mod, Nat.cast_mul, cast_inv' h.nprime h.nbig]; push_cast; ring
  have hs0 : (s : ZMod C.n) ≠ 0 := by
    rw [Ne, ZMod.natCast_eq_zero_iff]
    intro hd
    have : s < C.n := by rw [← hs']; exact Nat.mod_lt _ h.nprime.pos
    have := Nat.le_of_dvd (by omega) hd; omega
  have hzd : ((z : ZMod C.n) + r * d) = k * s := by rw [hse, mul_inv_cancel_left₀ hkn]
  unfold Curve.verifyPt
  simp only
  have hw := cast_inv' h.nprime h.nbig s
  generalize inv C.n s = w at hw
  have hsum := add_rep h.toOk (smul_rep h.toOk (z * w % C.n) hG)
    (smul_rep h.toOk (r * w % C.n) (smul_rep h.toOk d hG))
  rw [← mul_nsmul', ← add_nsmul] at hsum
  have hmod : (z * w % C.n + r * w % C.n * d) % C.n = k % C.n := by
    rw [← ZMod.natCast_eq_natCast_iff']
    push_cast
    rw [ZMod.natCast_mod, ZMod.natCast_mod]
    push_cast
    rw [hw]
    have : (z : ZMod C.n) * (s : ZMod C.n)⁻¹ + r * (s : ZMod C.n)⁻¹ * d = (z + r * d) * (s : ZMod C.n)⁻¹ := by ring
    rw [this, hzd, mul_assoc, mul_inv_cancel₀ hs0, mul_one]
  rw [smul_congr hn hmod] at hsum
  rw [rep_inj hsum hR]
  simp [hr]

theorem signWith_range (h : C.Good) {k z d r s : Nat} (hs : C.signWith k z d = some (r, s)) :
    0 < r ∧ r < C.n ∧ 0 < s ∧ s < C.n := by
  rw [Curve.signWith] at hs
  split at hs
  · cases hs
  simp only at hs
  split at hs
  · cases hs
  rename_i hrs
  injection hs with hs
  injection hs with hr hs'
  have hn := h.nprime.pos
  rw [not_or] at hrs
  rw [hs', hr] at hrs
  refine ⟨by omega, ?_, by omega, ?_⟩
  · rw [← hr]; exact Nat.mod_lt _ hn
  · rw [← hs']; exact Nat.mod_lt _ hn

theorem sigOf_bytes (h : C.Good) {r s : Nat} (hr : 0 < r ∧ r < C.n) (hs : 0 < s ∧ s < C.n) :
    C.sigOf (beBytes C.len r ++ beBytes C.len s) = some (r, s) := by
  have hl := h.nlen
  have e1 : (beBytes C.len r ++ beBytes C.len s).take C.len = beBytes C.len r :=
    List.take_left' (Verif.beBytes_length _ _)
  have e2 : (beBytes C.len r ++ beBytes C.len s).drop C.len = beBytes C.len s :=
    List.drop_left' (Verif.beBytes_length _ _)
  unfold Curve.sigOf
  simp only [e1, e2]
  rw [beNat_beBytes (by omega), beNat_beBytes (by omega), if_pos]
  refine ⟨?_, hr.1, hr.2, hs.1, hs.2⟩
  rw [List.length_append, Verif.beBytes_length, Verif.beBytes_length]; omega

theorem nonceLoop_range {mac : Bytes → Bytes → Bytes} {n : Nat} : ∀ {f : Nat} {k v : Bytes} {c : Nat},
    nonceLoop mac n f k v = some c → 0 < c ∧ c < n
  | 0, _, _, _, h => by cases h
  | f + 1, k, v, c, h => by
    rw [nonceLoop] at h
    simp only at h
    split at h
    · rename_i hc; injection h with h; rw [← h]; exact hc
    · exact nonceLoop_range h

/-! ### Points as bytes -/

theorem pub_rep (h : C.Good) (d : C.Scalar) : ∃ x y, C.smul d.1 C.g = .aff x y ∧ C.on x y = true := by
  obtain ⟨hF, G, hG, hn, h0⟩ := exists_base h
  have := smul_rep h.toOk d.1 hG
  cases he : C.smul d.1 C.g with
  | inf =>
    rw [he] at this
    have := (smul_eq_zero h hn h0).1 this
    have := Nat.le_of_dvd d.2.1 this
    have := d.2.2
    omega
  | aff x y =>
    rw [he] at this
    exact ⟨x, y, rfl, on_of_rep this⟩

theorem sq_eq {p x y : Nat} (hp : p.Prime) (hx : x < p) (hy : y < p) (h : x * x % p = y * y % p) :
    x = y ∨ x = (p - y) % p := by
  have : Fact p.Prime := ⟨hp⟩
  rw [← ZMod.natCast_eq_natCast_iff', Nat.cast_mul, Nat.cast_mul, mul_self_eq_mul_self_iff] at h
  rcases h with h | h
  · exact Or.inl (cast_inj' hx hy h)
  · right
    refine cast_inj' hx (Nat.mod_lt _ hp.pos) ?_
    rw [h, ZMod.natCast_mod, Nat.cast_sub hy.le, ZMod.natCast_self, zero_sub]

theorem sqrt_sq (h : C.Good) {y : Nat} (hy : y < C.p) :
    ∃ r, C.sqrt (y * y % C.p) = some r ∧ r < C.p ∧ (y = r ∨ y = (C.p - r) % C.p) := by
  have hF := h.fact
  have hm := h.mod4
  have hr : powMod C.p (y * y % C.p) ((C.p + 1) / 4) < C.p := by rw [powMod_eq]; exact Nat.mod_lt _ h.prime.pos
  have hsq : powMod C.p (y * y % C.p) ((C.p + 1) / 4) * powMod C.p (y * y % C.p) ((C.p + 1) / 4) % C.p = y * y % C.p := by
    rw [← ZMod.natCast_eq_natCast_iff', Nat.cast_mul, powMod_cast, ZMod.natCast_mod, ← pow_add, Nat.cast_mul, ← pow_two,
      ← pow_mul]
    by_cases h0 : (y : ZMod C.p) = 0
    · rw [h0, zero_pow (by omega), zero_pow (by omega)]
    · rw [show 2 * ((C.p + 1) / 4 + (C.p + 1) / 4) = 2 + (C.p - 1) by omega, pow_add, ZMod.pow_card_sub_one_eq_one h0, mul_one]
  refine ⟨_, ?_, hr, sq_eq h.prime hy hr hsq.symm⟩
  unfold Curve.sqrt
  simp only
  rw [if_pos hsq]

theorem decompress_on (h : C.Good) {x y : Nat} (ho : C.on x y = true) : C.decompress (y % 2) x = some (.aff x y) := by
  simp only [Curve.on, Bool.and_eq_true, decide_eq_true_eq, beq_iff_eq] at ho
  obtain ⟨⟨hx, hy⟩, he⟩ := ho
  obtain ⟨r, hr, hrp, hyr⟩ := sqrt_sq h hy
  have hm := h.mod4
  unfold Curve.decompress
  rw [if_neg (by omega), ← he, hr]
  simp only
  congr 2
  by_cases h0 : r = 0
  · subst h0
    have : y = 0 := by
      rcases hyr with h | h
      · exact h
      · rw [h, Nat.sub_zero, Nat.mod_self]
    subst this; simp
  · rw [Nat.mod_eq_of_lt (show C.p - r < C.p by omega)] at hyr ⊢
    split <;> omega

theorem decompress_some (h : C.Good) {odd x : Nat} (ho : odd < 2) {q : Pt} (hq : C.decompress odd x = some q) :
    ∃ y, q = .aff x y ∧ C.on x y = true ∧ (y = 0 ∨ y % 2 = odd) := by
  unfold Curve.decompress at hq
  split at hq
  · cases hq
  rename_i hx
  split at hq
  · cases hq
  rename_i r hr
  injection hq with hq
  have hm := h.mod4
  have hp := h.prime.pos
  unfold Curve.sqrt at hr
  simp only at hr
  split at hr
  rotate_left
  · cases hr
  rename_i hsq
  injection hr with hr
  rw [hr] at hsq
  have hrp : r < C.p := by rw [← hr, powMod_eq]; exact Nat.mod_lt _ hp
  refine ⟨_, hq.symm, ?_, ?_⟩
  · simp only [Curve.on, Bool.and_eq_true, decide_eq_true_eq, beq_iff_eq]
    refine ⟨⟨by omega, ?_⟩, ?_⟩
    · split
      · exact hrp
      · exact Nat.mod_lt _ hp
    · split
      · exact hsq
      · rw [← hsq, ← ZMod.natCast_eq_natCast_iff']
        push_cast
        rw [ZMod.natCast_mod, Nat.cast_sub hrp.le, ZMod.natCast_self]
        ring
  · split
    · right; assumption
    · by_cases h0 : r = 0
      · left; rw [h0, Nat.sub_zero, Nat.mod_self]
      · right; rw [Nat.mod_eq_of_lt (show C.p - r < C.p by omega)]; omega

theorem ofSec1_compress (h : C.Good) {x y : Nat} (ho : C.on x y = true) : C.ofSec1 (C.compress (.aff x y)) = some (.aff x y) := by
  have hd := decompress_on h ho
  have hx : x < 256 ^ C.len := by
    simp only [Curve.on, Bool.and_eq_true, decide_eq_true_eq] at ho
    have := h.plen; omega
  have hl : (beBytes C.len x).length = C.len := Verif.beBytes_length _ _
  by_cases hy : y % 2 = 1
  · rw [Curve.compress, if_pos hy, Curve.ofSec1]
    simp only [hl, beNat_beBytes hx]
    rw [hy] at hd
    simpa using hd
  · have hy : y % 2 = 0 := by omega
    rw [Curve.compress, if_neg (by omega), Curve.ofSec1]
    simp only [hl, beNat_beBytes hx]
    rw [hy] at hd
    simpa using hd

theorem ofSec1_on (h : C.Good) {b : Bytes} {q : Pt} (hq : C.ofSec1 b = some q) : ∃ x y, q = .aff x y ∧ C.on x y = true := by
  unfold Curve.ofSec1 at hq
  split at hq
  · cases hq
  split at hq
  · obtain ⟨y, h1, h2, _⟩ := decompress_some h (by omega) hq; exact ⟨_, y, h1, h2⟩
  split at hq
  · obtain ⟨y, h1, h2, _⟩ := decompress_some h (by omega) hq; exact ⟨_, y, h1, h2⟩
  split at hq
  · simp only at hq
    split at hq
    · injection hq with hq; exact ⟨_, _, hq.symm, by assumption⟩
    · cases hq
  split at hq
  · split at hq
    · rename_i x y hd
      obtain ⟨y', h1, h2, _⟩ := decompress_some h (by omega) hd
      injection h1 with h1 h1'
      injection hq with hq
      refine ⟨_, _, hq.symm, ?_⟩
      rw [← h1, ← h1'] at h2
      rcases Nat.le_total y ((C.p - y) % C.p) with hm | hm
      · rw [Nat.min_eq_left hm]; exact h2
      · rw [Nat.min_eq_right hm]
        simp only [Curve.on, Bool.and_eq_true, decide_eq_true_eq, beq_iff_eq] at h2 ⊢
        obtain ⟨⟨hx, hy⟩, he⟩ := h2
        refine ⟨⟨hx, Nat.mod_lt _ h.prime.pos⟩, ?_⟩
        rw [← he, ← ZMod.natCast_eq_natCast_iff']
        push_cast
        rw [ZMod.natCast_mod, Nat.cast_sub hy.le, ZMod.natCast_self]
        ring
    · cases hq
  · cases hq

end Verif.Ec
