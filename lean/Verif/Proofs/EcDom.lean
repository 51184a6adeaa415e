import Verif.Proofs.EcSpec
/-!
`EcSpec` for domain parameters that are equal to those of the model.
-/
namespace Verif.Ec
open ModArith Sha2 Spec.Ecdsa Spec.Sha

instance fact256 : Fact p256.p.Prime := ⟨p256_good.prime⟩
instance fact384 : Fact p384.p.Prime := ⟨p384_good.prime⟩

variable {C : Curve} {D : Domain} [hF : Fact D.p.Prime] {hash : Bytes → Bytes} {nonce : Bytes → Nat → Bytes → Option Nat}

theorem d_import (h : C.Full) (hD : D = C.dom) (b : Bytes) : (∃ q, C.ofSec1 b = some q) ↔ ∃ Q, D.Sec1 Q b := by
  subst hD
  constructor
  · rintro ⟨q, hq⟩
    obtain ⟨x, y, rfl, ho⟩ := ofSec1_on h.toGood hq
    obtain ⟨Q, hQ⟩ := rep_on h.toOk ho
    exact ⟨Q, (sec1_iff h Q b).2 ⟨_, hq, hQ⟩⟩
  · rintro ⟨Q, hQ⟩
    obtain ⟨q, hq, _⟩ := (sec1_iff h Q b).1 hQ
    exact ⟨q, hq⟩

theorem d_same (h : C.Full) (hD : D = C.dom) {Q Q' : D.curve.Point} {b b' : Bytes} {q q' : Pt} (hQ : D.Sec1 Q b) (hQ' : D.Sec1 Q' b')
    (hq : C.ofSec1 b = some q) (hq' : C.ofSec1 b' = some q') : q = q' ↔ Q = Q' := by
  subst hD
  obtain ⟨_, h1, h2⟩ := (sec1_iff h Q b).1 hQ
  obtain ⟨_, h1', h2'⟩ := (sec1_iff h Q' b').1 hQ'
  rw [hq] at h1; rw [hq'] at h1'
  cases h1; cases h1'
  constructor
  · rintro rfl; exact sec1_inj h2 h2'
  · rintro rfl; exact rep_inj h2 h2'

theorem d_verify (h : C.Full) (hD : D = C.dom) {Q : D.curve.Point} {b : Bytes} {q : Pt} (hQ : D.Sec1 Q b) (hq : C.ofSec1 b = some q)
    (m sig : Bytes) :
    verifyRes (ecdsaWith C hash nonce) q m sig = .ok () ↔ ∃ r s, D.SigBytes r s sig ∧ D.Valid Q (beVal (hash m)) r s := by
  subst hD
  obtain ⟨_, h1, h2⟩ := (sec1_iff h Q b).1 hQ
  rw [hq] at h1; cases h1
  exact scheme_verify h h2 m sig

theorem d_base (h : C.Full) (hD : D = C.dom) : ∃ G, D.IsBase G ∧ addOrderOf G = D.n ∧ ∀ Q, ∃ d, d < D.n ∧ Q = d • G := by
  subst hD
  obtain ⟨G, hB, hn, h0, hG⟩ := base_exists h
  have : Fact C.n.Prime := ⟨h.nprime⟩
  exact ⟨G, hB, addOrderOf_eq_prime hn h0, fun Q => exists_log h.toGood h.root h.count hn h0 Q⟩

theorem d_pair (h : C.Full) (hD : D = C.dom) {Q G : D.curve.Point} {b : Bytes} {q : Pt} (hQ : D.Sec1 Q b) (hq : C.ofSec1 b = some q)
    (hB : D.IsBase G) (d : Nat) : C.smul d C.g = q ↔ Q = d • G := by
  subst hD
  obtain ⟨_, h1, h2⟩ := (sec1_iff h Q b).1 hQ
  rw [hq] at h1; cases h1
  have hr := smul_rep h.toOk d ((isBase_iff h).1 hB)
  constructor
  · rintro rfl; exact sec1_inj h2 hr
  · rintro rfl; exact rep_inj hr h2

theorem d_sign (h : C.Full) (hD : D = C.dom) (hnonce : ∀ r d h k, nonce r d h = some k → 0 < k ∧ k < C.n) {rnd : Bytes}
    {d : C.Scalar} {m sig : Bytes} (hs : (ecdsaWith C hash nonce).sign rnd d m = some sig) :
    ∃ k r s, D.SigBytes r s sig ∧ D.Signs d.1 k (beVal (hash m)) r s := by
  subst hD
  exact scheme_sign h hnonce rnd d m sig hs

theorem d_signs_valid (h : C.Full) (hD : D = C.dom) {k z d r s : Nat} {G : D.curve.Point} (hB : D.IsBase G)
    (hs : D.Signs d k z r s) : D.Valid (d • G) z r s := by
  subst hD; exact signs_valid h hB hs

theorem d_sk_verify (h : C.Full) (hD : D = C.dom) {G : D.curve.Point} (hB : D.IsBase G) (d : C.Scalar) (m sig : Bytes) :
    verifyRes (ecdsaWith C hash nonce) (C.smul d.1 C.g) m sig = .ok () ↔
      ∃ r s, D.SigBytes r s sig ∧ D.Valid (d.1 • G) (beVal (hash m)) r s := by
  subst hD
  exact scheme_verify h (smul_rep h.toOk d.1 ((isBase_iff h).1 hB)) m sig

theorem d_keyId (h : C.Full) (hD : D = C.dom) {Q : D.curve.Point} {b : Bytes} {q : Pt} (hQ : D.Sec1 Q b) (hq : C.ofSec1 b = some q)
    (c : Bytes) : D.Compressed Q c ↔ c = C.compress q := by
  subst hD
  obtain ⟨_, h1, h2⟩ := (sec1_iff h Q b).1 hQ
  rw [hq] at h1; cases h1
  exact compress_iff h h2 (sec1_ne_zero hQ) c

theorem d_neg (h : C.Full) (hD : D = C.dom) {Q : D.curve.Point} {z r s : Nat} (hv : D.Valid Q z r s) : D.Valid Q z r (D.n - s) := by
  subst hD; exact valid_neg h hv

theorem d_secret (h : C.Full) (hD : D = C.dom) {Q G : D.curve.Point} {b : Bytes} (hQ : D.Sec1 Q b) (hB : D.IsBase G) :
    ∃ d, 0 < d ∧ d < D.n ∧ Q = d • G := by
  subst hD
  obtain ⟨G', hB', hn, h0, _⟩ := base_exists h
  rw [base_unique hB hB']
  obtain ⟨d, hd, e⟩ := exists_log h.toGood h.root h.count hn h0 Q
  refine ⟨d, ?_, hd, e⟩
  by_contra hz
  have : d = 0 := by omega
  rw [this, zero_nsmul] at e
  exact sec1_ne_zero hQ e

end Verif.Ec
