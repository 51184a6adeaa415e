import Verif.Proofs.EcCount
import Verif.Spec.Ecdsa
/-!
The model's curves and ECDSA against `Spec/Ecdsa.lean`.
-/
namespace Verif.Ec
open ModArith Sha2 Spec.Ecdsa Spec.Sha

/-- The constants as domain parameters. -/
abbrev Curve.dom (C : Curve) : Domain := ⟨C.p, C.a, C.b, C.gx, C.gy, C.n, C.len⟩

theorem P256_eq : P256 = p256.dom := by decide +kernel
theorem P384_eq : P384 = p384.dom := by decide +kernel

/-- What is needed for the whole group to be generated by the base point. -/
structure Curve.Full (C : Curve) : Prop extends C.Good where
  root : ∀ x : ZMod C.p, x ^ 3 + C.a * x + C.b ≠ 0
  count : 2 * C.p + 1 < 3 * C.n

theorem p256_full : p256.Full := { p256_good with root := p256_no_root, count := by decide +kernel }
theorem p384_full : p384.Full := { p384_good with root := p384_no_root, count := by decide +kernel }

variable {C : Curve} [hF : Fact C.p.Prime]

theorem isBase_iff {G : C.dom.curve.Point} (h : C.Full) : C.dom.IsBase G ↔ Rep (C := C) C.g G := by
  have := on_iff.1 h.base
  constructor
  · rintro ⟨h1, rfl⟩; exact ⟨this.1, this.2.1, h1, rfl⟩
  · rintro ⟨_, _, h1, rfl⟩; exact ⟨h1, rfl⟩

theorem base_exists (h : C.Full) : ∃ G : C.dom.curve.Point, C.dom.IsBase G ∧ C.n • G = 0 ∧ G ≠ 0 ∧ Rep (C := C) C.g G := by
  obtain ⟨_, G, hG, hn, h0⟩ := exists_base h.toGood
  exact ⟨G, (isBase_iff h).2 hG, hn, h0, hG⟩

omit hF in
theorem base_unique {G G' : C.dom.curve.Point} (h : C.dom.IsBase G) (h' : C.dom.IsBase G') : G = G' := by
  obtain ⟨_, rfl⟩ := h; obtain ⟨_, rfl⟩ := h'; rfl

theorem order_all (h : C.Full) (Q : C.dom.curve.Point) : C.n • Q = 0 := by
  obtain ⟨G, _, hn, h0, hG⟩ := base_exists h
  obtain ⟨d, _, rfl⟩ := exists_log h.toGood h.root h.count hn h0 Q
  rw [← mul_nsmul, mul_nsmul', hn, nsmul_zero]

theorem rep_some {q : Pt} {x y : ZMod C.p} {hh : C.dom.curve.Nonsingular x y} :
    Rep (C := C) q (.some x y hh) ↔ q = .aff x.val y.val := by
  have key : Rep (C := C) (.aff x.val y.val) (.some x y hh) := by
    refine ⟨ZMod.val_lt x, ZMod.val_lt y, ?_⟩
    rw [ZMod.natCast_zmod_val, ZMod.natCast_zmod_val]; exact ⟨hh, rfl⟩
  constructor
  · intro hq; exact rep_inj hq key
  · rintro rfl; exact key

/-! ### Encodings of points -/

theorem on_val {x y : ZMod C.p} (hh : C.dom.curve.Nonsingular x y) : C.on x.val y.val = true := by
  rw [on_iff, ZMod.natCast_zmod_val, ZMod.natCast_zmod_val]
  exact ⟨ZMod.val_lt x, ZMod.val_lt y, hh.1⟩

theorem no_zero (h : C.Full) {x y : Nat} (ho : C.on x y = true) : y ≠ 0 := by
  rintro rfl
  have := W_equation.1 (on_iff.1 ho).2.2
  exact h.root x (by rw [← this]; simp)

theorem on_neg (h : C.Full) {x y : Nat} (ho : C.on x y = true) : C.on x (C.p - y) = true := by
  have h0 := no_zero h ho
  rw [on_iff, W_equation] at ho ⊢
  refine ⟨ho.1, by omega, ?_⟩
  rw [← ho.2.2, Nat.cast_sub (by omega), ZMod.natCast_self]; ring

omit hF in
theorem ofSec1_cons (t : UInt8) (b : Bytes) : C.ofSec1 (t :: b) =
    if t = 2 ∧ b.length = C.len then C.decompress 0 (beNat b)
    else if t = 3 ∧ b.length = C.len then C.decompress 1 (beNat b)
    else if t = 4 ∧ b.length = 2 * C.len then
      if C.on (beNat (b.take C.len)) (beNat (b.drop C.len)) then some (.aff (beNat (b.take C.len)) (beNat (b.drop C.len))) else none
    else if t = 5 ∧ b.length = C.len then
      match C.decompress 0 (beNat b) with
      | some (.aff x y) => some (.aff x (min y ((C.p - y) % C.p)))
      | _ => none
    else none := rfl

theorem sec1_iff (h : C.Full) (Q : C.dom.curve.Point) (b : Bytes) :
    C.dom.Sec1 Q b ↔ ∃ q, C.ofSec1 b = some q ∧ Rep (C := C) q Q := by
  have hodd : C.p % 2 = 1 := by have := h.mod4; omega
  constructor
  · rintro (⟨x, y, hh, X, rfl, rfl, hl, hv⟩ | ⟨x, y, hh, X, Y, rfl, rfl, ⟨hl, hv⟩, ⟨hl', hv'⟩⟩ | ⟨x, y, hh, X, rfl, rfl, ⟨hl, hv⟩, hy⟩)
    all_goals refine ⟨.aff x.val y.val, ?_, rep_some.2 rfl⟩
    · have hd := decompress_on h.toGood (on_val hh)
      rw [ofSec1_cons]
      simp only [beNat_eq, hv]
      rcases Nat.mod_two_eq_zero_or_one y.val with e | e <;> rw [e] at hd ⊢ <;> simp [hl, hd]
    · have e1 : (X ++ Y).take C.len = X := List.take_left' hl
      have e2 : (X ++ Y).drop C.len = Y := List.drop_left' hl
      have hll : (X ++ Y).length = 2 * C.len := by
        rw [List.length_append, hl, hl']; show C.len + C.len = _; omega
      rw [List.cons_append, ofSec1_cons, if_neg (fun h => absurd h.1 (by decide)), if_neg (fun h => absurd h.1 (by decide)),
        if_pos ⟨rfl, hll⟩]
      simp only [e1, e2, beNat_eq, hv, hv']
      rw [if_pos (on_val hh)]
    · rw [ofSec1_cons, if_neg (fun h => absurd h.1 (by decide)), if_neg (fun h => absurd h.1 (by decide)),
        if_neg (fun h => absurd h.1 (by decide)), if_pos ⟨rfl, hl⟩, beNat_eq, hv]
      have ho := on_val hh
      have hy0 := no_zero h ho
      have hlt := ZMod.val_lt y
      have hn : (-y).val = C.p - y.val := by
        rw [ZMod.neg_val, if_neg (by intro e; rw [e] at hy0; exact hy0 ZMod.val_zero)]
      rw [hn] at hy
      rcases Nat.mod_two_eq_zero_or_one y.val with e | e
      · have hd := decompress_on h.toGood ho
        rw [e] at hd; rw [hd]
        simp only
        rw [Nat.mod_eq_of_lt (by omega), Nat.min_eq_left hy]
      · have hd := decompress_on h.toGood (on_neg h ho)
        rw [show (C.p - y.val) % 2 = 0 by omega] at hd; rw [hd]
        simp only
        rw [show (C.p - (C.p - y.val)) % C.p = y.val by rw [Nat.sub_sub_self (by omega), Nat.mod_eq_of_lt hlt],
          Nat.min_eq_right hy]
  · rintro ⟨q, hq, hr⟩
    have hval : ∀ {n : Nat}, n < C.p → ((n : ZMod C.p)).val = n := fun hn => ZMod.val_natCast_of_lt hn
    cases b with
    | nil => cases hq
    | cons t b =>
      rw [ofSec1_cons] at hq
      split at hq
      · rename_i ht
        obtain ⟨y, rfl, ho, hy⟩ := decompress_some h.toGood (by omega) hq
        obtain ⟨hx, hyp, hh, rfl⟩ := hr
        refine Or.inl ⟨_, _, hh, b, rfl, ?_, ht.2, ?_⟩
        · rw [hval hyp, if_pos (by omega), ht.1]
        · rw [hval hx, beNat_eq]
      split at hq
      · rename_i ht
        obtain ⟨y, rfl, ho, hy⟩ := decompress_some h.toGood (by omega) hq
        have hy0 := no_zero h ho
        obtain ⟨hx, hyp, hh, rfl⟩ := hr
        refine Or.inl ⟨_, _, hh, b, rfl, ?_, ht.2, ?_⟩
        · rw [hval hyp, if_neg (by omega), ht.1]
        · rw [hval hx, beNat_eq]
      split at hq
      · rename_i ht
        split at hq
        · rename_i ho
          injection hq with hq
          subst hq
          obtain ⟨hx, hyp, hh, rfl⟩ := hr
          refine Or.inr (Or.inl ⟨_, _, hh, b.take C.len, b.drop C.len, rfl, ?_, ⟨?_, ?_⟩, ⟨?_, ?_⟩⟩)
          · rw [ht.1, List.cons_append, List.take_append_drop]
          · rw [List.length_take, ht.2]; show min C.len _ = C.len; omega
          · rw [hval hx, beNat_eq]
          · rw [List.length_drop, ht.2]; show _ - C.len = C.len; omega
          · rw [hval hyp, beNat_eq]
        · cases hq
      split at hq
      · rename_i ht
        cases hd : C.decompress 0 (beNat b) with
        | none => rw [hd] at hq; cases hq
        | some q' =>
          obtain ⟨y, rfl, ho, hy⟩ := decompress_some h.toGood (by omega) hd
          have hy0 := no_zero h ho
          have hyl := (on_iff.1 ho).2.1
          rw [hd] at hq
          simp only [Option.some.injEq] at hq
          rw [Nat.mod_eq_of_lt (show C.p - y < C.p by omega)] at hq
          subst hq
          obtain ⟨hx, hyp, hh, rfl⟩ := hr
          refine Or.inr (Or.inr ⟨_, _, hh, b, rfl, by rw [ht.1], ⟨ht.2, by rw [hval hx, beNat_eq]⟩, ?_⟩)
          have hne : ((min y (C.p - y) : Nat) : ZMod C.p) ≠ 0 := by
            intro e
            have := hval hyp
            rw [e, ZMod.val_zero] at this
            omega
          rw [ZMod.neg_val, if_neg hne, hval hyp]
          show min y (C.p - y) ≤ C.p - min y (C.p - y)
          omega
      · cases hq

theorem compress_iff (h : C.Full) {q : Pt} {Q : C.dom.curve.Point} (hq : Rep (C := C) q Q) (hQ : Q ≠ 0) (b : Bytes) :
    C.dom.Compressed Q b ↔ b = C.compress q := by
  match Q, hQ with
  | .some x y hh, _ =>
    rw [rep_some] at hq
    subst hq
    have hx : x.val < 256 ^ C.len := lt_of_lt_of_le (ZMod.val_lt x) h.plen
    have htag : (if y.val % 2 = 1 then (3 : UInt8) else 2) = if y.val % 2 = 0 then 2 else 3 := by
      rcases Nat.mod_two_eq_zero_or_one y.val with e | e <;> simp [e]
    simp only [Curve.compress, htag]
    constructor
    · rintro ⟨x', y', hh', X, he, rfl, hl, hv⟩
      injection he with e1 e2
      subst e1; subst e2
      congr 1
      apply beVal_inj (by rw [hl, Verif.beBytes_length])
      rw [hv, beBytes_val, Nat.mod_eq_of_lt hx]
    · rintro rfl
      exact ⟨x, y, hh, _, rfl, rfl, Verif.beBytes_length _ _, by rw [beBytes_val, Nat.mod_eq_of_lt hx]⟩

omit hF in
theorem sec1_ne_zero {Q : C.dom.curve.Point} {b : Bytes} (hs : C.dom.Sec1 Q b) : Q ≠ 0 := by
  rcases hs with ⟨x, y, hh, X, rfl, _⟩ | ⟨x, y, hh, X, Y, rfl, _⟩ | ⟨x, y, hh, X, rfl, _⟩ <;>
    exact WeierstrassCurve.Affine.Point.some_ne_zero _

theorem sec1_inj {Q Q' : C.dom.curve.Point} {q : Pt} (hq : Rep (C := C) q Q) (hq' : Rep (C := C) q Q') : Q = Q' := by
  cases q with
  | inf => simp only [Rep] at hq hq'; rw [hq, hq']
  | aff x y =>
    obtain ⟨_, _, _, rfl⟩ := hq
    obtain ⟨_, _, _, rfl⟩ := hq'
    rfl

/-! ### Signatures -/

omit hF in
theorem sigOf_iff (b : Bytes) (r s : Nat) :
    C.sigOf b = some (r, s) ↔ C.dom.SigBytes r s b ∧ (0 < r ∧ r < C.n) ∧ 0 < s ∧ s < C.n := by
  constructor
  · intro hb
    simp only [Curve.sigOf] at hb
    split at hb
    · rename_i hc
      simp only [Option.some.injEq, Prod.mk.injEq] at hb
      obtain ⟨rfl, rfl⟩ := hb
      refine ⟨⟨b.take C.len, b.drop C.len, (List.take_append_drop _ _).symm, ⟨?_, beNat_eq _ ▸ rfl⟩, ⟨?_, beNat_eq _ ▸ rfl⟩⟩,
        ⟨hc.2.1, hc.2.2.1⟩, hc.2.2.2⟩
      · rw [List.length_take, hc.1]; show min C.len _ = C.len; omega
      · rw [List.length_drop, hc.1]; show _ - C.len = C.len; omega
    · cases hb
  · rintro ⟨⟨x, y, rfl, ⟨hl, rfl⟩, ⟨hl', rfl⟩⟩, hr, hs⟩
    have e1 : (x ++ y).take C.len = x := List.take_left' hl
    have e2 : (x ++ y).drop C.len = y := List.drop_left' hl
    simp only [Curve.sigOf, e1, e2, beNat_eq]
    rw [if_pos]
    refine ⟨?_, hr.1, hr.2, hs.1, hs.2⟩
    rw [List.length_append, hl, hl']; show C.len + C.len = _; omega

omit hF in
theorem inv_mul (h : C.Full) {s : Nat} (hs : 0 < s ∧ s < C.n) (w : Nat) :
    w * s % C.n = 1 ↔ (w : ZMod C.n) = (s : ZMod C.n)⁻¹ := by
  have hFn : Fact C.n.Prime := ⟨h.nprime⟩
  have hs0 : (s : ZMod C.n) ≠ 0 := by
    rw [Ne, ZMod.natCast_eq_zero_iff]
    intro hd; have := Nat.le_of_dvd hs.1 hd; omega
  have h1 : 1 % C.n = 1 := Nat.mod_eq_of_lt (by have := h.nbig; omega)
  rw [← mul_left_inj' hs0, inv_mul_cancel₀ hs0]
  conv_lhs => rhs; rw [← h1]
  rw [← ZMod.natCast_eq_natCast_iff', Nat.cast_mul, Nat.cast_one]

theorem verify_iff (h : C.Full) {q : Pt} {Q : C.dom.curve.Point} (hq : Rep (C := C) q Q) (z : Nat) {r s : Nat}
    (hr : 0 < r ∧ r < C.n) (hs : 0 < s ∧ s < C.n) : C.verifyPt q z (r, s) = true ↔ C.dom.Valid Q z r s := by
  obtain ⟨G, hB, hn, h0, hG⟩ := base_exists h
  have hnQ := order_all h Q
  have hw0 := cast_inv' h.nprime h.nbig s
  have hw1 := (inv_mul h hs _).2 hw0
  unfold Curve.verifyPt
  simp only
  generalize inv C.n s = w at hw0 hw1
  have hsum := add_rep h.toOk (smul_rep h.toOk (z * w % C.n) hG) (smul_rep h.toOk (r * w % C.n) hq)
  have key : ∀ w', w' * s % C.n = 1 → (z * w % C.n) • G + (r * w % C.n) • Q = (z * w') • G + (r * w') • Q := by
    intro w' hw'
    have hww : (w : ZMod C.n) = w' := by rw [hw0, (inv_mul h hs _).1 hw']
    have e : ∀ z : Nat, z * w % C.n % C.n = z * w' % C.n := by
      intro z
      rw [Nat.mod_mod, ← ZMod.natCast_eq_natCast_iff']
      push_cast; rw [hww]
    rw [smul_congr hn (e z), smul_congr hnQ (e r)]
  constructor
  · intro hv
    split at hv
    · cases hv
    · rename_i x y he
      rw [he] at hsum
      obtain ⟨hx, hy, hh, hsum⟩ := hsum
      rw [beq_iff_eq] at hv
      exact ⟨hr, hs, G, w, x, y, hh, hB, hw1, by rw [← key w hw1]; exact hsum, by rw [ZMod.val_natCast_of_lt hx]; exact hv⟩
  · rintro ⟨_, _, G', w', x, y, hh, hB', hw', he, hx⟩
    rw [base_unique hB' hB, ← key w' hw'] at he
    erw [he] at hsum
    rw [rep_some] at hsum
    rw [hsum]
    simpa using hx

theorem signs_iff (h : C.Full) {k : Nat} (hk : 0 < k ∧ k < C.n) (z d r s : Nat) :
    C.signWith k z d = some (r, s) ↔ C.dom.Signs d k z r s := by
  obtain ⟨G, hB, hn, h0, hG⟩ := base_exists h
  have hFn : Fact C.n.Prime := ⟨h.nprime⟩
  have hkn : (k : ZMod C.n) ≠ 0 := by
    rw [Ne, ZMod.natCast_eq_zero_iff]
    intro hd; have := Nat.le_of_dvd hk.1 hd; omega
  have hR := smul_rep h.toOk k hG
  have hki := cast_inv' h.nprime h.nbig k
  have eqn : ∀ {r s : Nat}, s < C.n → (inv C.n k * (z + r * d) % C.n = s ↔ k * s % C.n = (z + r * d) % C.n) := by
    intro r s hs
    conv_lhs => rhs; rw [← Nat.mod_eq_of_lt hs]
    rw [← ZMod.natCast_eq_natCast_iff', ← ZMod.natCast_eq_natCast_iff', Nat.cast_mul, hki, Nat.cast_mul, inv_mul_eq_iff_eq_mul₀ hkn]
    exact ⟨fun e => e.symm, fun e => e.symm⟩
  rw [Curve.signWith]
  constructor
  · intro hs
    split at hs
    · cases hs
    rename_i x y hx
    rw [hx] at hR
    obtain ⟨hxp, hyp, hh, hR⟩ := hR
    simp only at hs
    split at hs
    · cases hs
    rename_i hrs
    simp only [Option.some.injEq, Prod.mk.injEq] at hs
    obtain ⟨rfl, hs⟩ := hs
    have hsn : s < C.n := hs ▸ Nat.mod_lt _ h.nprime.pos
    rw [not_or, hs] at hrs
    exact ⟨hk, by omega, by omega, hsn, G, x, y, hh, hB, hR, by rw [ZMod.val_natCast_of_lt hxp], (eqn hsn).1 hs⟩
  · rintro ⟨_, hr, hs, hsn, G', x, y, hh, hB', he, hx, hse⟩
    rw [base_unique hB' hB] at he
    erw [he] at hR
    rw [rep_some] at hR
    rw [hR]
    simp only [hx]
    rw [(eqn hsn).2 hse, if_neg (by omega)]

/-- What is signed verifies. -/
theorem signs_valid (h : C.Full) {k z d r s : Nat} {G : C.dom.curve.Point} (hB : C.dom.IsBase G) (hs : C.dom.Signs d k z r s) :
    C.dom.Valid (d • G) z r s := by
  have hk := hs.1
  have hw := (signs_iff h hk z d r s).2 hs
  have hr := signWith_range h.toGood hw
  have hv := verify_signWith h.toGood hk hw
  exact (verify_iff h (smul_rep h.toOk d ((isBase_iff h).1 hB)) z ⟨hr.1, hr.2.1⟩ hr.2.2).1 hv

/-- The second signature. -/
theorem valid_neg (h : C.Full) {Q : C.dom.curve.Point} {z r s : Nat} (hv : C.dom.Valid Q z r s) : C.dom.Valid Q z r (C.n - s) := by
  obtain ⟨hr, hs, G, w, x, y, hh, hB, hw, he, hx⟩ := hv
  have hs' : 0 < s ∧ s < C.n := hs
  obtain ⟨_, _, hn, _, _⟩ := base_exists h
  have hws : 0 < C.n - s ∧ C.n - s < C.n := by omega
  have hwl : w % C.n ≤ C.n := (Nat.mod_lt _ h.nprime.pos).le
  have cneg : ((C.n - w % C.n : Nat) : ZMod C.n) = -w := by
    rw [Nat.cast_sub hwl, ZMod.natCast_self, ZMod.natCast_mod]; ring
  have hneg : ∀ (a : Nat) (P : C.dom.curve.Point), (a * (C.n - w % C.n)) • P = -((a * w) • P) := by
    intro a P
    rw [eq_neg_iff_add_eq_zero, ← add_nsmul]
    have hP := order_all h P
    rw [smul_congr hP (b := 0), zero_nsmul]
    rw [← ZMod.natCast_eq_natCast_iff']
    push_cast [cneg]
    ring
  refine ⟨hr, hws, G, C.n - w % C.n, x, C.dom.curve.negY x y, (WeierstrassCurve.Affine.nonsingular_neg x y).2 hh, hB, ?_, ?_, hx⟩
  · have hFn : Fact C.n.Prime := ⟨h.nprime⟩
    rw [inv_mul h hws, cneg, Nat.cast_sub hs'.2.le, ZMod.natCast_self, zero_sub, (inv_mul h hs' w).1 hw, inv_neg]
  · rw [hneg, hneg, ← neg_add]
    rw [he, WeierstrassCurve.Affine.Point.neg_some]

/-! ### The scheme -/

variable {hash : Bytes → Bytes} {nonce : Bytes → Nat → Bytes → Option Nat}

theorem scheme_verify (h : C.Full) {q : Pt} {Q : C.dom.curve.Point} (hq : Rep (C := C) q Q) (m sig : Bytes) :
    verifyRes (ecdsaWith C hash nonce) q m sig = .ok () ↔
      ∃ r s, C.dom.SigBytes r s sig ∧ C.dom.Valid Q (beVal (hash m)) r s := by
  have hv : verifyRes (ecdsaWith C hash nonce) q m sig = match C.sigOf sig with
      | none => .err .parseSignature
      | some rs => if C.verifyPt q (beNat (hash m)) rs = true then .ok () else .err .invalidSignature := by
    unfold verifyRes
    rw [show (ecdsaWith C hash nonce).sigOf sig = C.sigOf sig from rfl]
    cases C.sigOf sig <;> rfl
  rw [hv]
  constructor
  · intro hv
    split at hv
    · cases hv
    · rename_i rs he
      obtain ⟨r, s⟩ := rs
      obtain ⟨hb, hr, hs⟩ := (sigOf_iff sig r s).1 he
      split at hv
      · rename_i hv'
        exact ⟨r, s, hb, beNat_eq _ ▸ (verify_iff h hq _ hr hs).1 hv'⟩
      · cases hv
  · rintro ⟨r, s, hb, hv⟩
    rw [(sigOf_iff sig r s).2 ⟨hb, hv.1, hv.2.1⟩]
    simp only
    rw [if_pos ((verify_iff h hq _ hv.1 hv.2.1).2 (beNat_eq _ ▸ hv))]

theorem octets_beBytes {len x : Nat} (hx : x < 256 ^ len) : Octets len x (beBytes len x) :=
  ⟨Verif.beBytes_length _ _, by rw [beBytes_val, Nat.mod_eq_of_lt hx]⟩

theorem scheme_sign (h : C.Full) (hnonce : ∀ r d h k, nonce r d h = some k → 0 < k ∧ k < C.n) (rnd : Bytes) (d : C.Scalar)
    (m sig : Bytes) :
    (ecdsaWith C hash nonce).sign rnd d m = some sig →
      ∃ k r s, C.dom.SigBytes r s sig ∧ C.dom.Signs d.1 k (beVal (hash m)) r s := by
  have hs : (ecdsaWith C hash nonce).sign rnd d m = match nonce rnd d.1 (hash m) with
    | none => none
    | some k => (C.signWith k (beNat (hash m)) d.1).map fun rs => beBytes C.len rs.1 ++ beBytes C.len rs.2 := rfl
  rw [hs]
  intro hs
  split at hs
  · cases hs
  rename_i k hk
  have hk := hnonce _ _ _ _ hk
  rw [Option.map_eq_some_iff] at hs
  obtain ⟨⟨r, s⟩, hrs, rfl⟩ := hs
  have hr := signWith_range h.toGood hrs
  have hl := h.nlen
  refine ⟨k, r, s, ⟨_, _, rfl, octets_beBytes ?_, octets_beBytes ?_⟩, beNat_eq _ ▸ (signs_iff h hk _ _ _ _).1 hrs⟩
  · show r < 256 ^ C.len; omega
  · show s < 256 ^ C.len; omega

omit hF in
theorem skOf_iff (b : Bytes) (d : C.Scalar) : C.skOf b = some d ↔ b.length = C.len ∧ beVal b = d.1 := by
  unfold Curve.skOf
  split
  · rename_i h
    rw [Option.some.injEq]
    constructor
    · rintro rfl; exact ⟨h.1, (beNat_eq b).symm⟩
    · intro e; apply Subtype.ext; show beNat b = _; rw [beNat_eq, e.2]
  · rename_i h
    constructor
    · intro e; cases e
    · intro e; exact absurd ⟨e.1, by rw [beNat_eq, e.2]; exact d.2⟩ h

end Verif.Ec
