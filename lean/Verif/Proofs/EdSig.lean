import Verif.Proofs.Ed
import Verif.Proofs.Sha2
import Verif.Proofs.Ecdsa
/-! Ed25519: encodings and signatures. -/
namespace Verif.Ed
open ModArith Ec Edwards Sha2

/-! ### Little-endian numbers -/

theorem leBytes_length (n x : Nat) : (leBytes n x).length = n := by
  induction n generalizing x with
  | zero => rfl
  | succ n ih => simp [leBytes, ih]

theorem leNat_leBytes : ∀ {n x : Nat}, x < 256 ^ n → leNat (leBytes n x) = x
  | 0, x, h => by have : x = 0 := by simpa using h
                  subst this; rfl
  | n + 1, x, h => by
    have : x / 256 < 256 ^ n := by rw [pow_succ] at h; omega
    rw [leBytes, leNat, leNat_leBytes this]
    have : (UInt8.ofNat (x % 256)).toNat = x % 256 := by simp
    rw [this]; omega

theorem leNat_lt : ∀ b : Bytes, leNat b < 256 ^ b.length
  | [] => by simp [leNat]
  | x :: t => by
    have := leNat_lt t
    have := x.toNat_lt
    rw [leNat, List.length_cons, pow_succ]; omega

theorem leNat_inj : ∀ {a b : Bytes}, a.length = b.length → leNat a = leNat b → a = b
  | [], [], _, _ => rfl
  | x :: s, y :: t, hl, h => by
    have hx := x.toNat_lt
    have hy := y.toNat_lt
    rw [leNat, leNat] at h
    have h1 : x.toNat = y.toNat := by omega
    have h2 : leNat s = leNat t := by omega
    rw [UInt8.toNat_inj.1 h1, leNat_inj (by simpa using hl) h2]

/-! ### Points as bytes -/

theorem encode_length (P : Pt) : (encode P).length = 32 := leBytes_length _ _

theorem encode_nat {P : Pt} (hy : P.y < p) : leNat (encode P) = P.y + P.x % 2 * 2 ^ 255 := by
  have := p_lt
  refine leNat_leBytes ?_
  have : P.x % 2 < 2 := Nat.mod_lt _ (by omega)
  rw [show (256 : Nat) ^ 32 = 2 ^ 255 + 1 * 2 ^ 255 by norm_num]
  have := Nat.mul_le_mul_right (2 ^ 255) (show P.x % 2 ≤ 1 by omega)
  omega

theorem sqrt_sq {x : Nat} (hx : x < p) : ∃ r, sqrt (x * x % p) = some r ∧ r < p ∧ (x = r ∨ x = (p - r) % p) := by
  have hp := p_prime.pos
  have hm := p_mod8
  have hb := p_big
  have hc : powMod p (x * x % p) ((p + 3) / 8) < p := by rw [powMod_eq]; exact Nat.mod_lt _ hp
  have hsq : ((powMod p (x * x % p) ((p + 3) / 8) : Nat) : ZMod p) ^ 2 = x ^ 2 ∨
      ((powMod p (x * x % p) ((p + 3) / 8) : Nat) : ZMod p) ^ 2 = -(x : ZMod p) ^ 2 := by
    rw [powMod_cast, ZMod.natCast_mod, Nat.cast_mul, ← pow_two, ← pow_mul, ← pow_mul,
      show 2 * ((p + 3) / 8 * 2) = 2 + (p - 1) / 2 by omega, pow_add]
    by_cases h0 : (x : ZMod p) = 0
    · left; rw [h0]; ring
    · have : ((x : ZMod p) ^ ((p - 1) / 2) - 1) * ((x : ZMod p) ^ ((p - 1) / 2) + 1) = 0 := by
        have h1 := ZMod.pow_card_sub_one_eq_one h0
        rw [show p - 1 = (p - 1) / 2 + (p - 1) / 2 by omega, pow_add] at h1
        have h2 : ((p - 1) / 2 + (p - 1) / 2) / 2 = (p - 1) / 2 := by omega
        linear_combination h1
      rcases mul_eq_zero.1 this with h | h
      · left; linear_combination (x : ZMod p) ^ 2 * h
      · right; linear_combination (x : ZMod p) ^ 2 * h
  unfold sqrt
  simp only
  generalize powMod p (x * x % p) ((p + 3) / 8) = c at hc hsq
  by_cases hcc : c * c % p = x * x % p
  · rw [if_pos hcc]
    exact ⟨c, rfl, hc, sq_eq p_prime hx hc hcc.symm⟩
  · rw [if_neg hcc]
    have hneg : (c : ZMod p) ^ 2 = -(x : ZMod p) ^ 2 := by
      rcases hsq with h | h
      · exfalso; apply hcc
        rw [← ZMod.natCast_eq_natCast_iff']; push_cast; linear_combination h
      · exact h
    rw [if_pos]
    · have hr : c * im % p < p := Nat.mod_lt _ hp
      refine ⟨_, rfl, hr, sq_eq p_prime hx hr ?_⟩
      rw [← ZMod.natCast_eq_natCast_iff']
      push_cast
      rw [ZMod.natCast_mod]
      push_cast
      linear_combination (-(im : ZMod p) ^ 2) * hneg + (x : ZMod p) ^ 2 * im_sq
    · refine cast_inj' (Nat.mod_lt _ hp) (Nat.mod_lt _ hp) ?_
      rw [ZMod.natCast_mod, ZMod.natCast_mod, Nat.cast_sub (Nat.mod_lt _ hp).le, ZMod.natCast_mod, ZMod.natCast_self]
      push_cast
      linear_combination hneg

/-- Decoding an encoded point gives the point, in every variant. -/
theorem decode_encode (V : Variant) {P : Pt} {Q : G} (h : Rep P Q) : decode V (encode P) = some P := by
  obtain ⟨hx, hy, ex, ey⟩ := h
  have hp := p_prime.pos
  have hb := p_big
  have hlt := p_lt
  have hy1 : (P.y + P.x % 2 * 2 ^ 255) % 2 ^ 255 = P.y := by omega
  have hs1 : (P.y + P.x % 2 * 2 ^ 255) / 2 ^ 255 = P.x % 2 := by omega
  have hw : sub p (P.y * P.y % p) 1 * inv p (d * (P.y * P.y % p) + 1) % p = P.x * P.x % p := by
    rw [← ZMod.natCast_eq_natCast_iff', Nat.cast_mul, cast_sub' (by omega), cast_inv' p_prime (by omega)]
    push_cast
    rw [ZMod.natCast_mod]
    push_cast
    have hon := Q.on
    rw [ex, ey] at hon
    unfold On at hon
    have hv : (d : ZMod p) * ((P.y : ZMod p) * P.y) + 1 ≠ 0 := by
      intro h0
      have hy0 : (P.y : ZMod p) ≠ 0 := by
        intro hy0; rw [hy0] at h0
        exact one_ne_zero (α := ZMod p) (by linear_combination h0)
      apply d_nonsquare ((im : ZMod p) / P.y)
      field_simp
      linear_combination im_sq - h0
    rw [← div_eq_mul_inv, div_eq_iff hv]
    linear_combination hon
  obtain ⟨r, hr, hrp, hxr⟩ := sqrt_sq hx
  unfold decode
  rw [if_neg (by rw [encode_length]; simp)]
  simp only [encode_nat hy, hy1, hs1]
  rw [if_neg (by omega)]
  simp only [Nat.mod_eq_of_lt hy]
  rw [hw, hr]
  simp only
  by_cases h0 : r = 0
  · subst h0
    have hx0 : P.x = 0 := by
      rcases hxr with h | h
      · exact h
      · rw [h, Nat.sub_zero, Nat.mod_self]
    rw [if_neg (by rw [hx0]; omega)]
    rw [hx0]
    cases P; simp_all
  · rw [if_neg (by omega)]
    rw [Nat.mod_eq_of_lt (show p - r < p by omega)] at hxr ⊢
    have hm := p_mod8
    have : (if r % 2 = P.x % 2 then r else p - r) = P.x := by split <;> omega
    rw [this]

theorem encode_inj {P P' : Pt} {Q Q' : G} (h : Rep P Q) (h' : Rep P' Q') (he : encode P = encode P') : P = P' := by
  have h1 := decode_encode rfc8032 h
  rw [he, decode_encode rfc8032 h'] at h1
  exact (Option.some.inj h1).symm

/-! ### Signatures -/

theorem clamp_form (h : Bytes) : ∃ m, clamp h = 8 * m ∧ 2 ^ 251 ≤ m ∧ m < 2 ^ 252 := by
  unfold clamp
  simp only
  generalize leNat (h.take 32) = n
  refine ⟨n % 2 ^ 254 / 8 + 2 ^ 251, by omega, by omega, by omega⟩

theorem pub_rep (seed : Bytes) : Rep (smul (clamp (sha512 seed)) base) (clamp (sha512 seed) • B) := smul_rep _ base_rep

/-- The public key of a seed is not of small order. -/
theorem pub_strong (seed : Bytes) : 8 • (clamp (sha512 seed) • B) ≠ 0 := by
  obtain ⟨m, hm, h1, h2⟩ := clamp_form (sha512 seed)
  rw [hm, ← mul_nsmul', Ne, smul_eq_zero]
  intro hd
  rw [show 8 * (8 * m) = 64 * m by omega] at hd
  rcases (Nat.Prime.dvd_mul l_prime).1 hd with h | h
  · have := Nat.le_of_dvd (by omega) h
    exact absurd this (by decide +kernel)
  · have h3 := Nat.le_of_dvd (by omega) h
    have : 2 ^ 252 < l := by decide +kernel
    omega

theorem sign_length (V : Variant) (rnd seed m : Bytes) : (sign V rnd seed m).length = 64 := by
  unfold sign
  simp only [List.length_append, encode_length, leBytes_length]

/-- A signature verifies under the public key of the seed, in every variant. -/
theorem verify_sign (V : Variant) (rnd seed m : Bytes) : verify V (pub seed) m (sign V rnd seed m) = true := by
  unfold verify sign
  simp only
  have hl := l_prime.pos
  have hl32 : l < 256 ^ 32 := by decide +kernel
  generalize V.nonce rnd (sha512 seed) m = r
  have hR := smul_rep r base_rep
  generalize smul r base = R at hR
  rw [List.take_left' (encode_length _), List.drop_left' (encode_length _)]
  generalize hk : leNat (sha512 (encode R ++ pub seed ++ m)) % l = k
  have hs : (r + k * clamp (sha512 seed)) % l < l := Nat.mod_lt _ hl
  rw [leNat_leBytes (by omega), if_neg (by omega)]
  have hA := pub_rep seed
  rw [pub, decode_encode V hA]
  simp only
  rw [if_neg]
  rotate_left
  · rintro ⟨_, hw⟩
    exact pub_strong seed ((rep_eq_zero (smul_rep 8 hA)).1 hw)
  have hQ := add_rep (smul_rep ((r + k * clamp (sha512 seed)) % l) base_rep) (neg_rep (smul_rep k hA))
  have e : ((r + k * clamp (sha512 seed)) % l) • B + -(k • clamp (sha512 seed) • B) = r • B := by
    rw [smul_congr (Nat.mod_mod _ _), add_nsmul, mul_nsmul', add_neg_cancel_right]
  rw [e] at hQ
  rw [rep_inj hQ hR]
  split
  · rw [decode_encode V hR]
    simp only
    have h8 := smul_rep 8 (add_rep hR (neg_rep hR))
    rw [add_neg_cancel, nsmul_zero] at h8
    rw [(rep_eq_zero h8).2 rfl]
    simp
  · simp

end Verif.Ed
