import Verif.Proofs.EdSig
import Verif.Spec.Eddsa
import Verif.Proofs.Sha512
/-! The arithmetic of Model/Ed.lean against Spec/Eddsa.lean. -/
namespace Verif.Ed
open ModArith Ec Edwards Sha2
open Spec (Eddsa.Pair)
open Spec.Eddsa (leVal)

theorem leVal_eq : ∀ b : Bytes, leVal b = leNat b
  | [] => rfl
  | x :: t => by rw [leVal, leNat, leVal_eq t]

theorem d_eq : ((d : Nat) : ZMod p) = Spec.Eddsa.d p := by
  have h : (d * 121666 + 121665) % p = 0 := by decide +kernel
  have h1 := (ZMod.natCast_eq_zero_iff _ _).2 (Nat.dvd_of_mod_eq_zero h)
  have h2 : ((121666 : Nat) : ZMod p) ≠ 0 := by
    rw [Ne, ZMod.natCast_eq_zero_iff]
    intro h; have := Nat.le_of_dvd (by omega) h
    exact absurd this (by decide +kernel)
  push_cast at h1 h2
  unfold Spec.Eddsa.d
  rw [eq_div_iff h2]
  linear_combination h1

/-- The coordinates of a point of the group. -/
def pr (Q : G) : Eddsa.Pair p := (Q.x, Q.y)

theorem pr_inj {P Q : G} : pr P = pr Q ↔ P = Q := by
  constructor
  · intro h
    ext
    · exact congrArg Prod.fst h
    · exact congrArg Prod.snd h
  · rintro rfl; rfl

theorem on_iff (P : Eddsa.Pair p) : Spec.Eddsa.On P ↔ On ((d : Nat) : ZMod p) P.1 P.2 := by
  unfold Spec.Eddsa.On On
  rw [d_eq]
  constructor
  · intro h; linear_combination h
  · intro h; linear_combination h

theorem on_pr (Q : G) : Spec.Eddsa.On (pr Q) := (on_iff _).2 Q.on

theorem pr_surj {P : Eddsa.Pair p} (h : Spec.Eddsa.On P) : ∃ Q, pr Q = P := ⟨⟨P.1, P.2, (on_iff P).1 h⟩, rfl⟩

theorem pr_zero : pr 0 = Spec.Eddsa.zero := rfl

theorem sum_pr (P Q : G) : Spec.Eddsa.sum (pr P) (pr Q) = pr (P + Q) := by
  unfold Spec.Eddsa.sum
  rw [← d_eq]
  refine Prod.ext ?_ ?_
  · show _ = (P + Q).x
    rw [Point.add_x, addX]
    simp only [pr, mul_assoc]
  · show _ = (P + Q).y
    rw [Point.add_y, addY]
    simp only [pr, mul_assoc]

theorem mul_pr (k : Nat) (P : G) : Spec.Eddsa.mul k (pr P) = pr (k • P) := by
  induction k with
  | zero => rw [zero_nsmul]; rfl
  | succ k ih => rw [Spec.Eddsa.mul, ih, sum_pr, succ_nsmul]

/-! ### Points with the same ordinate -/

theorem den_ne (y : ZMod p) : (d : ZMod p) * y ^ 2 + 1 ≠ 0 := by
  intro h0
  have hy0 : y ≠ 0 := by
    intro hy0; rw [hy0] at h0
    exact one_ne_zero (α := ZMod p) (by linear_combination h0)
  apply d_nonsquare ((im : ZMod p) / y)
  field_simp
  linear_combination im_sq - h0

theorem x_sq {x y : ZMod p} : On ((d : Nat) : ZMod p) x y ↔ x ^ 2 = (y ^ 2 - 1) / ((d : ZMod p) * y ^ 2 + 1) := by
  rw [eq_div_iff (den_ne y)]
  unfold On
  constructor <;> intro h <;> linear_combination -h

theorem val_neg' {x : ZMod p} (h : x ≠ 0) : (-x).val = p - x.val := by
  have : NeZero x := ⟨h⟩
  exact ZMod.val_neg_of_ne_zero x

theorem parity {x x' : ZMod p} (h : x ^ 2 = x' ^ 2) (hp : x.val % 2 = x'.val % 2) : x = x' := by
  rcases sq_eq_sq_iff_eq_or_eq_neg.1 h with h | h
  · exact h
  · by_cases h0 : x' = 0
    · rw [h, h0, neg_zero]
    · exfalso
      rw [h, val_neg' h0] at hp
      have := ZMod.val_lt x'
      have := p_mod8
      omega

/-! ### The base point -/

theorem four_fifths : (5 : ZMod p) * (base.y : ZMod p) = 4 := by
  have h : (5 * base.y) % p = 4 % p := by decide +kernel
  rw [← ZMod.natCast_eq_natCast_iff'] at h
  exact_mod_cast h

theorem five_ne : (5 : ZMod p) ≠ 0 := by
  have : ((5 : Nat) : ZMod p) ≠ 0 := by
    rw [Ne, ZMod.natCast_eq_zero_iff]
    intro h; have := Nat.le_of_dvd (by omega) h; have := p_big; omega
  exact_mod_cast this

theorem isBase_iff (P : Eddsa.Pair p) : Spec.Eddsa.IsBase P ↔ P = pr B := by
  have hy : (base.y : ZMod p) = 4 / 5 := by rw [eq_div_iff five_ne, mul_comm]; exact four_fifths
  have hx : ((base.x : Nat) : ZMod p).val % 2 = 0 := by
    rw [ZMod.val_natCast, Nat.mod_eq_of_lt base_rep.1]; decide +kernel
  constructor
  · rintro ⟨h1, h2, h3⟩
    have h1 := (on_iff P).1 h1
    have hb := base_on
    rw [hy] at hb
    rw [h2] at h1
    have e := (x_sq.1 h1).trans (x_sq.1 hb).symm
    refine Prod.ext (parity e ?_) ?_
    · rw [h3]; exact hx.symm
    · exact h2.trans hy.symm
  · rintro rfl
    exact ⟨on_pr B, hy, hx⟩

/-! ### Decoding -/

theorem sqrt_some {w r : Nat} (hw : w < p) (h : sqrt w = some r) : r < p ∧ (r : ZMod p) ^ 2 = w := by
  have hp := p_prime.pos
  unfold sqrt at h
  simp only at h
  have hc : powMod p w ((p + 3) / 8) < p := by rw [powMod_eq]; exact Nat.mod_lt _ hp
  generalize powMod p w ((p + 3) / 8) = c at h hc
  split at h
  · rename_i h1
    obtain rfl := Option.some.inj h
    refine ⟨hc, ?_⟩
    have := congrArg (Nat.cast (R := ZMod p)) h1
    rw [ZMod.natCast_mod] at this
    push_cast at this
    linear_combination this
  · split at h
    · rename_i h1
      obtain rfl := Option.some.inj h
      refine ⟨Nat.mod_lt _ hp, ?_⟩
      have := congrArg (Nat.cast (R := ZMod p)) h1
      rw [ZMod.natCast_mod, ZMod.natCast_mod, Nat.cast_sub hw.le, ZMod.natCast_self] at this
      push_cast at this
      rw [ZMod.natCast_mod]
      push_cast
      linear_combination (im : ZMod p) ^ 2 * this - (w : ZMod p) * im_sq
    · exact absurd h (by simp)

theorem ratio_cast {y : Nat} : ((sub p (y * y % p) 1 * inv p (d * (y * y % p) + 1) % p : Nat) : ZMod p) =
    ((y : ZMod p) ^ 2 - 1) / ((d : ZMod p) * (y : ZMod p) ^ 2 + 1) := by
  have hb := p_big
  rw [ZMod.natCast_mod, Nat.cast_mul, cast_sub' (by omega), cast_inv' p_prime (by omega), div_eq_mul_inv]
  push_cast
  rw [ZMod.natCast_mod]
  push_cast
  rw [pow_two]

theorem cast_val {x : Nat} (h : x < p) : ((x : Nat) : ZMod p).val = x := by
  rw [ZMod.val_natCast, Nat.mod_eq_of_lt h]

theorem decode_iff (V : Variant) (b : Bytes) (Q : G) :
    (∃ P, Rep P Q ∧ decode V b = some P) ↔ Spec.Eddsa.Encodes V.canonicalY V.canonicalX b (pr Q) := by
  have hp := p_prime.pos
  have hb := p_big
  have hm := p_mod8
  unfold decode Spec.Eddsa.Encodes
  rw [leVal_eq]
  by_cases hl : b.length ≠ 32
  · rw [if_pos hl]
    simp [hl]
  rw [if_neg hl]
  have hl := not_not.1 hl
  have hlt : leNat b < 2 ^ 256 := by
    have := leNat_lt b
    rw [hl] at this
    calc _ < 256 ^ 32 := this
      _ = 2 ^ 256 := by norm_num
  simp only
  generalize leNat b = n at hlt
  constructor
  · rintro ⟨P, hP, h⟩
    refine ⟨on_pr Q, hl, n % 2 ^ 255, n / 2 ^ 255, Nat.mod_lt _ (by norm_num), by omega, by omega, ?_⟩
    split at h
    · exact absurd h (by simp)
    · rename_i hy
      have hyp : n % 2 ^ 255 % p < p := Nat.mod_lt _ hp
      have hyc : ((n % 2 ^ 255 % p : Nat) : ZMod p) = (n % 2 ^ 255 : Nat) := ZMod.natCast_mod _ _
      generalize n % 2 ^ 255 = y0 at h hy hyp hyc
      split at h
      · exact absurd h (by simp)
      · rename_i x hs
        have ⟨hx, hsq⟩ := sqrt_some (Nat.mod_lt _ hp) hs
        split at h
        · exact absurd h (by simp)
        · rename_i hz
          obtain rfl := Option.some.inj h
          refine ⟨?_, fun hv => ?_, ?_⟩
          · exact hyc.symm.trans hP.2.2.2.symm
          · by_contra hc; exact hy ⟨hv, by omega⟩
          · have hQx : (pr Q).1 = ((if x % 2 = n / 2 ^ 255 then x else (p - x) % p : Nat) : ZMod p) := hP.2.2.1
            rw [hQx]
            by_cases he : x % 2 = n / 2 ^ 255
            · left; rw [if_pos he, cast_val hx, he]
            · rw [if_neg he]
              by_cases h0 : x = 0
              · subst h0
                right
                refine ⟨by simp, ?_⟩
                cases hv : V.canonicalX
                · rfl
                · exfalso; exact hz ⟨hv, rfl, by omega⟩
              · left
                rw [Nat.mod_eq_of_lt (show p - x < p by omega), cast_val (show p - x < p by omega)]
                omega
  · rintro ⟨hon, -, y, s, hy, hs, rfl, hyc, hcy, hcx⟩
    have e1 : (y + 2 ^ 255 * s) % 2 ^ 255 = y := by omega
    have e2 : (y + 2 ^ 255 * s) / 2 ^ 255 = s := by omega
    rw [e1, e2, if_neg (by rintro ⟨hv, h⟩; have := hcy hv; omega)]
    have hyp : y % p < p := Nat.mod_lt _ hp
    have hyc' : ((y % p : Nat) : ZMod p) = Q.y := by rw [ZMod.natCast_mod]; exact hyc
    generalize y % p = y' at hyp hyc'
    have hxq : Q.x.val < p := ZMod.val_lt _
    have hxc : ((Q.x.val : Nat) : ZMod p) = Q.x := ZMod.natCast_zmod_val _
    have hw : sub p (y' * y' % p) 1 * inv p (d * (y' * y' % p) + 1) % p = Q.x.val * Q.x.val % p := by
      refine cast_inj' (Nat.mod_lt _ hp) (Nat.mod_lt _ hp) ?_
      rw [ratio_cast, hyc', ← x_sq.1 Q.on, ZMod.natCast_mod, Nat.cast_mul, hxc, pow_two]
    obtain ⟨r, hr, hrp, hxr⟩ := sqrt_sq hxq
    rw [hw, hr]
    simp only
    have hx0 : r = 0 ↔ Q.x.val = 0 := by
      constructor
      · intro h; subst h
        rcases hxr with h | h
        · exact h
        · rw [h, Nat.sub_zero, Nat.mod_self]
      · intro h
        by_contra h0
        rcases hxr with h | h
        · omega
        · rw [Nat.mod_eq_of_lt (by omega)] at h; omega
    have hQ0 : Q.x = 0 ↔ Q.x.val = 0 := by rw [ZMod.val_eq_zero]
    have hcx : Q.x.val % 2 = s ∨ (Q.x = 0 ∧ V.canonicalX = false) := hcx
    rw [if_neg]
    rotate_left
    · rintro ⟨hv, h0, h1⟩
      rcases hcx with h | ⟨_, h⟩
      · rw [hx0] at h0; omega
      · rw [hv] at h; exact absurd h (by simp)
    refine ⟨_, ?_, rfl⟩
    have hval : (if r % 2 = s then r else (p - r) % p) = Q.x.val := by
      by_cases h0 : r = 0
      · subst h0
        rw [Nat.sub_zero, Nat.mod_self]
        split <;> exact (hx0.1 rfl).symm
      · have : Q.x.val % 2 = s := by
          rcases hcx with h | ⟨h, _⟩
          · exact h
          · exact absurd (hx0.2 (hQ0.1 h)) h0
        rw [Nat.mod_eq_of_lt (show p - r < p by omega)] at hxr ⊢
        split <;> omega
    refine ⟨?_, hyp, ?_, hyc'.symm⟩
    · simp only [hval]; exact hxq
    · simp only [hval]; exact hxc.symm

/-- Points decoded stand for points of the group. -/
theorem decode_rep {V : Variant} {b : Bytes} {P : Pt} (h : decode V b = some P) : ∃ Q, Rep P Q := by
  have hp := p_prime.pos
  unfold decode at h
  simp only at h
  split at h
  · exact absurd h (by simp)
  · split at h
    · exact absurd h (by simp)
    · split at h
      · exact absurd h (by simp)
      · rename_i x hs
        have ⟨hx, hsq⟩ := sqrt_some (Nat.mod_lt _ hp) hs
        split at h
        · exact absurd h (by simp)
        · obtain rfl := Option.some.inj h
          rw [ratio_cast] at hsq
          have hon := x_sq.2 hsq
          have hon' : On ((d : Nat) : ZMod p) (-(x : ZMod p)) ((leNat b % 2 ^ 255 % p : Nat) : ZMod p) := by
            rw [x_sq, neg_sq]; exact hsq
          by_cases he : x % 2 = leNat b / 2 ^ 255
          · refine ⟨⟨_, _, hon⟩, ?_⟩
            rw [if_pos he]
            exact ⟨hx, Nat.mod_lt _ hp, rfl, rfl⟩
          · refine ⟨⟨_, _, hon'⟩, ?_⟩
            rw [if_neg he]
            refine ⟨Nat.mod_lt _ hp, Nat.mod_lt _ hp, ?_, rfl⟩
            show -(x : ZMod p) = _
            rw [ZMod.natCast_mod, Nat.cast_sub hx.le, ZMod.natCast_self, zero_sub]

/-- The strict encoding is the one that is computed. -/
theorem encodes_strict {P : Pt} {Q : G} (h : Rep P Q) (b : Bytes) : Spec.Eddsa.Encodes true true b (pr Q) ↔ b = encode P := by
  constructor
  · rintro ⟨-, hl, y, s, hy, hs, hn, hyc, hcy, hcx⟩
    refine leNat_inj (hl.trans (encode_length P).symm) ?_
    rw [← leVal_eq, hn, encode_nat h.2.1]
    have h1 : y = P.y := cast_inj' (hcy rfl) h.2.1 (hyc.trans h.2.2.2)
    have h2 : (pr Q).1.val = P.x := by
      show Q.x.val = _
      rw [h.2.2.1, cast_val h.1]
    rw [h2] at hcx
    rcases hcx with h3 | ⟨_, h3⟩
    · rw [h1, h3, mul_comm]
    · exact absurd h3 (by simp)
  · rintro rfl
    have := (decode_iff rfc8032 (encode P) Q).1 ⟨P, h, decode_encode _ h⟩
    exact this

/-! ### Verification -/

theorem decode_none {V : Variant} {b : Bytes} (h : decode V b = none) (Q : G) : ¬Spec.Eddsa.Encodes V.canonicalY V.canonicalX b (pr Q) := by
  rw [← decode_iff, h]
  rintro ⟨_, _, h⟩
  exact absurd h (by simp)

theorem decode_unique {V : Variant} {b : Bytes} {P : Pt} {Q Q' : G} (h : decode V b = some P) (hP : Rep P Q)
    (hQ : Spec.Eddsa.Encodes V.canonicalY V.canonicalX b (pr Q')) : Q' = Q := by
  obtain ⟨P', hP', h'⟩ := (decode_iff V b Q').2 hQ
  obtain rfl := Option.some.inj (h.symm.trans h')
  ext
  · rw [hP.2.2.1, hP'.2.2.1]
  · rw [hP.2.2.2, hP'.2.2.2]

theorem verify_iff (V : Variant) {W : Spec.Sha.Variant 64} (hW : Spec.Sha.IsSha512 W) {pk m sig : Bytes} (hpk : pk.length = 32)
    (hs : sig.length = 64) (hm : 8 * (64 + m.length) < 2 ^ 128) :
    verify V pk m sig = true ↔
      Spec.Eddsa.Accepts (q := p) V.canonicalY V.canonicalX V.rejectWeak V.cofactored W pk m sig := by
  have hdig : ∀ r h : Bytes, r.length = 32 → (Spec.Sha.Digest W (r ++ pk ++ m) h ↔ h = sha512 (r ++ pk ++ m)) := fun r h hr =>
    S512.digest W hW _ _ (by simp only [List.length_append]; omega)
  -- the relation with all that is determined put in
  have key : Spec.Eddsa.Accepts (q := p) V.canonicalY V.canonicalX V.rejectWeak V.cofactored W pk m sig ↔
      leNat (sig.drop 32) < l ∧ ∃ A R : G, Spec.Eddsa.Encodes V.canonicalY V.canonicalX pk (pr A) ∧ (V.rejectWeak = true → 8 • A ≠ 0) ∧
        if V.cofactored then Spec.Eddsa.Encodes V.canonicalY V.canonicalX (sig.take 32) (pr R) ∧
            8 • (leNat (sig.drop 32) • B) = 8 • R + 8 • ((leNat (sha512 (sig.take 32 ++ pk ++ m)) % l) • A)
          else Spec.Eddsa.Encodes true true (sig.take 32) (pr R) ∧
            leNat (sig.drop 32) • B = R + (leNat (sha512 (sig.take 32 ++ pk ++ m)) % l) • A := by
    constructor
    · rintro ⟨r, s, h, A, B', R, rfl, hr, hsl, hlt, hB, hA, hw, hd, hc⟩
      rw [hdig r h hr] at hd
      subst hd
      rw [isBase_iff] at hB
      subst hB
      rw [List.take_left' hr, List.drop_left' hr]
      simp only [leVal_eq] at hlt hc
      refine ⟨hlt, ?_⟩
      obtain ⟨A, rfl⟩ := pr_surj hA.1
      rw [mul_pr, ← pr_zero, Ne, pr_inj] at hw
      have hR : Spec.Eddsa.On R := by
        split at hc
        · exact hc.1.1
        · exact hc.1.1
      obtain ⟨R, rfl⟩ := pr_surj hR
      simp only [mul_pr, sum_pr, pr_inj] at hc
      exact ⟨A, R, hA, hw, hc⟩
    · rintro ⟨hlt, A, R, hA, hw, hc⟩
      refine ⟨sig.take 32, sig.drop 32, _, pr A, pr B, pr R, (List.take_append_drop _ _).symm, ?_, ?_, ?_, (isBase_iff _).2 rfl, hA, ?_,
        (hdig _ _ ?_).2 rfl, ?_⟩
      · rw [List.length_take]; omega
      · rw [List.length_drop]; omega
      · rw [leVal_eq]; exact hlt
      · rw [mul_pr, ← pr_zero, Ne, pr_inj]; exact hw
      · rw [List.length_take]; omega
      · simp only [mul_pr, sum_pr, pr_inj, leVal_eq]
        exact hc
  rw [key]
  unfold verify
  simp only
  generalize leNat (sig.drop 32) = s
  generalize sig.take 32 = r
  generalize leNat (sha512 (r ++ pk ++ m)) % l = k
  by_cases hlt : l ≤ s
  · rw [if_pos hlt]
    constructor
    · intro h; exact absurd h (by simp)
    · rintro ⟨h, _⟩; omega
  · rw [if_neg hlt]
    have hlt : s < l := by omega
    rcases hA : decode V pk with _ | A
    · simp only
      constructor
      · intro h; exact absurd h (by simp)
      · rintro ⟨_, A, R, h, _⟩; exact absurd h (decode_none hA A)
    · simp only
      obtain ⟨QA, hQA⟩ := decode_rep hA
      have hEA := (decode_iff V pk QA).1 ⟨A, hQA, hA⟩
      have e8 := rep_eq_zero (smul_rep 8 hQA)
      by_cases hw : V.rejectWeak = true ∧ smul 8 A = ⟨0, 1⟩
      · rw [if_pos hw]
        constructor
        · intro h; exact absurd h (by simp)
        · rintro ⟨_, A', R, hA', hw', _⟩
          rw [decode_unique hA hQA hA'] at hw'
          exact absurd (e8.1 hw.2) (hw' hw.1)
      · rw [if_neg hw]
        have hQ := add_rep (smul_rep s base_rep) (neg_rep (smul_rep k hQA))
        have hw' : V.rejectWeak = true → 8 • QA ≠ 0 := fun h0 h1 => hw ⟨h0, e8.2 h1⟩
        cases hc : V.cofactored
        · simp only [Bool.false_eq_true, if_false, beq_iff_eq]
          rw [eq_comm, ← encodes_strict hQ]
          constructor
          · intro h
            exact ⟨hlt, QA, _, hEA, hw', h, by rw [neg_add_cancel_right]⟩
          · rintro ⟨_, A', R, hA', _, hR, he⟩
            rw [decode_unique hA hQA hA'] at he
            rw [he, add_neg_cancel_right]
            exact hR
        · simp only [if_true]
          rcases hR : decode V r with _ | R
          · simp only
            constructor
            · intro h; exact absurd h (by simp)
            · rintro ⟨_, _, R, _, _, h, _⟩; exact absurd h (decode_none hR R)
          · simp only [beq_iff_eq]
            obtain ⟨QR, hQR⟩ := decode_rep hR
            have hER := (decode_iff V r QR).1 ⟨R, hQR, hR⟩
            rw [rep_eq_zero (smul_rep 8 (add_rep hQR (neg_rep hQ)))]
            have he : 8 • (QR + -(s • B + -(k • QA))) = 0 ↔ 8 • (s • B) = 8 • QR + 8 • (k • QA) := by
              rw [← nsmul_add, ← sub_eq_zero (a := 8 • (s • B)), ← neg_eq_zero, ← smul_neg, ← nsmul_sub]
              have : -(QR + -(s • B + -(k • QA))) = s • B - (QR + k • QA) := by abel
              rw [this]
            rw [he]
            constructor
            · intro h; exact ⟨hlt, QA, QR, hEA, hw', hER, h⟩
            · rintro ⟨_, A', R', hA', _, hR', he'⟩
              rw [decode_unique hA hQA hA', decode_unique hR hQR hR'] at he'
              exact he'

/-! ### Secret scalars -/

theorem clamp_scalar (h : Bytes) (a : Nat) : Spec.Eddsa.Scalar h a ↔ a = clamp h := by
  have hc : clamp h < 2 ^ 255 := by
    obtain ⟨m, hm, h1, h2⟩ := clamp_form h; omega
  have hb : ∀ i, i < 255 → (clamp h).testBit i =
      if i < 3 then false else if i = 254 then true else (leVal (h.take 32)).testBit i := by
    intro i hi
    rw [leVal_eq]
    unfold clamp
    simp only
    generalize leNat (h.take 32) = n
    have e : n % 2 ^ 254 / 8 * 8 = (n % 2 ^ 254 / 8) * 2 ^ 3 := by norm_num
    have hlt : n % 2 ^ 254 / 8 * 8 < 2 ^ 254 := by
      have := Nat.mod_lt n (show 0 < 2 ^ 254 by norm_num)
      omega
    rw [Nat.add_comm]
    by_cases h4 : i = 254
    · subst h4
      rw [Nat.testBit_two_pow_add_eq, Nat.testBit_lt_two_pow hlt]
      simp
    · rw [Nat.testBit_two_pow_add_gt (by omega), if_neg h4, e, Nat.testBit_mul_two_pow]
      by_cases h3 : i < 3
      · rw [if_pos h3]; simp; omega
      · rw [if_neg h3, show (8 : Nat) = 2 ^ 3 from rfl, Nat.testBit_div_two_pow, Nat.testBit_mod_two_pow]
        rw [show i - 3 + 3 = i by omega, decide_eq_true (show 3 ≤ i by omega), decide_eq_true (show i < 254 by omega)]
        simp
  constructor
  · rintro ⟨h1, h2⟩
    refine Nat.eq_of_testBit_eq fun i => ?_
    by_cases hi : i < 255
    · rw [h2 i hi, hb i hi]
    · rw [Nat.testBit_lt_two_pow (lt_of_lt_of_le h1 (Nat.pow_le_pow_right (by norm_num) (by omega))),
        Nat.testBit_lt_two_pow (lt_of_lt_of_le hc (Nat.pow_le_pow_right (by norm_num) (by omega)))]
  · rintro rfl
    exact ⟨hc, hb⟩

end Verif.Ed
