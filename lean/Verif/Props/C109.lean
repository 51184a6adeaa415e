import Verif.Props.C62
import Verif.Props.C78
import Verif.Props.C105
/-!
C109: when signing with an ECDSA key returns. The crate panics where FIPS 186-4 asks for another nonce. For each key and nonce this
happens for the digests of one residue modulo the order. The test of /repo with two signatures passes exactly if it does not happen.
-/
namespace Verif
open Spec Spec.Sha Spec.Ecdsa Ex Sha2

section
variable {D : Domain} [Fact D.p.Prime]

/-- With this nonce there is no signature of `z` with the private key `d`: FIPS 186-4 section 6.3 asks for another nonce. -/
def NoSignature (D : Domain) [Fact D.p.Prime] (d k z : Nat) : Prop :=
  ∃ (G : D.curve.Point) (x y : ZMod D.p) (h : D.curve.Nonsingular x y), D.IsBase G ∧ k • G = .some x y h ∧
    (x.val % D.n = 0 ∨ (z + x.val % D.n * d) % D.n = 0)

theorem signs_exists (hn : D.n.Prime) {G : D.curve.Point} (hG : D.IsBase G) {d k z : Nat} (hk : 0 < k ∧ k < D.n) {x y : ZMod D.p}
    {h : D.curve.Nonsingular x y} (hP : k • G = .some x y h) :
    (∃ r s, D.Signs d k z r s) ↔ ¬ NoSignature D d k z := by
  have : Fact D.n.Prime := ⟨hn⟩
  have same : ∀ {G' : D.curve.Point}, D.IsBase G' → ∀ {x' y' : ZMod D.p} {h' : D.curve.Nonsingular x' y'}, k • G' = .some x' y' h' → x' = x := by
    rintro G' ⟨_, rfl⟩ x' y' h' e
    obtain ⟨_, rfl⟩ := hG
    rw [hP] at e
    injection e with e _
    exact e.symm
  constructor
  · rintro ⟨r, s, _, hr, hs, hsn, G', x', y', h', hG', hP', hx, he⟩ ⟨G2, x2, y2, h2, hG2, hP2, hz⟩
    rw [same hG' hP'] at hx
    rw [same hG2 hP2, hx] at hz
    rcases hz with hz | hz
    · omega
    · rw [hz] at he
      rcases (hn.dvd_mul).1 (Nat.dvd_of_mod_eq_zero he) with h | h
      · exact absurd (Nat.le_of_dvd hk.1 h) (by omega)
      · exact absurd (Nat.le_of_dvd hs h) (by omega)
  · intro hno
    have hr : x.val % D.n ≠ 0 := fun e => hno ⟨G, x, y, h, hG, hP, .inl e⟩
    have hz : (z + x.val % D.n * d) % D.n ≠ 0 := fun e => hno ⟨G, x, y, h, hG, hP, .inr e⟩
    have hk0 : (k : ZMod D.n) ≠ 0 := by
      rw [Ne, ZMod.natCast_eq_zero_iff]
      exact fun h => absurd (Nat.le_of_dvd hk.1 h) (by omega)
    have hz0 : ((z + x.val % D.n * d : Nat) : ZMod D.n) ≠ 0 := by
      rw [Ne, ZMod.natCast_eq_zero_iff]
      exact fun h => hz (Nat.mod_eq_zero_of_dvd h)
    let s : ZMod D.n := (k : ZMod D.n)⁻¹ * (z + x.val % D.n * d : Nat)
    have hs0 : s ≠ 0 := mul_ne_zero (inv_ne_zero hk0) hz0
    refine ⟨x.val % D.n, s.val, hk, Nat.pos_of_ne_zero hr, Nat.pos_of_ne_zero fun e => hs0 ((ZMod.val_eq_zero s).1 e), ZMod.val_lt s,
      G, x, y, h, hG, hP, rfl, ?_⟩
    have : ((k * s.val : Nat) : ZMod D.n) = (z + x.val % D.n * d : Nat) := by
      rw [Nat.cast_mul, ZMod.natCast_zmod_val]
      show (k : ZMod D.n) * ((k : ZMod D.n)⁻¹ * _) = _
      rw [← mul_assoc, mul_inv_cancel₀ hk0, one_mul]
    exact (ZMod.natCast_eq_natCast_iff' _ _ _).1 this

/-- C109: for a key and a nonce with a usable point, the digests without a signature are those of one residue. -/
theorem C109_one_residue {d k z z' : Nat} {G : D.curve.Point} (hG : D.IsBase G) {x y : ZMod D.p}
    {h : D.curve.Nonsingular x y} (hP : k • G = .some x y h) (hx : x.val % D.n ≠ 0) (hz : NoSignature D d k z) :
    NoSignature D d k z' ↔ z % D.n = z' % D.n := by
  have one : ∀ {w}, NoSignature D d k w → (w + x.val % D.n * d) % D.n = 0 := by
    rintro w ⟨G', x', y', h', hG', hP', hw⟩
    obtain ⟨_, rfl⟩ := hG'
    obtain ⟨_, rfl⟩ := hG
    rw [hP] at hP'
    injection hP' with e _
    subst e
    exact hw.resolve_left hx
  have e := one hz
  constructor
  · intro h'
    have e' := one h'
    have : (z + x.val % D.n * d) ≡ (z' + x.val % D.n * d) [MOD D.n] := e.trans e'.symm
    exact Nat.ModEq.add_right_cancel' _ this
  · intro he
    refine ⟨G, x, y, h, hG, hP, .inr ?_⟩
    have : (z + x.val % D.n * d) ≡ (z' + x.val % D.n * d) [MOD D.n] := Nat.ModEq.add_right _ he
    exact Eq.trans (show _ % _ = _ % _ from this.symm) e

/-- C109: two nonces with different `r` do not both fail for a private key and a digest. -/
theorem C109_two_nonces (hn : D.n.Prime) {d k k' z : Nat} (hd : 0 < d ∧ d < D.n) {G : D.curve.Point} (hG : D.IsBase G)
    {x y x' y' : ZMod D.p} {h : D.curve.Nonsingular x y} {h' : D.curve.Nonsingular x' y'} (hP : k • G = .some x y h)
    (hP' : k' • G = .some x' y' h') (hx : x.val % D.n ≠ 0) (hx' : x'.val % D.n ≠ 0) (hne : x.val % D.n ≠ x'.val % D.n) :
    ¬ (NoSignature D d k z ∧ NoSignature D d k' z) := by
  rintro ⟨⟨G1, x1, y1, h1, hG1, hP1, hz1⟩, ⟨G2, x2, y2, h2, hG2, hP2, hz2⟩⟩
  obtain ⟨_, rfl⟩ := hG1
  obtain ⟨_, rfl⟩ := hG2
  obtain ⟨_, rfl⟩ := hG
  rw [hP] at hP1
  rw [hP'] at hP2
  injection hP1 with e1 _
  injection hP2 with e2 _
  subst e1 e2
  have e : (z + x.val % D.n * d) ≡ (z + x'.val % D.n * d) [MOD D.n] := (hz1.resolve_left hx).trans (hz2.resolve_left hx').symm
  have e : x.val % D.n * d ≡ x'.val % D.n * d [MOD D.n] := Nat.ModEq.add_left_cancel' _ e
  have hc : Nat.gcd D.n d = 1 := (Nat.Prime.coprime_iff_not_dvd hn).2 fun h => absurd (Nat.le_of_dvd hd.1 h) (by omega)
  have e := Nat.ModEq.cancel_right_of_coprime hc e
  exact hne (by rw [← Nat.mod_mod x.val, ← Nat.mod_mod x'.val]; exact e)

/-- The base point times a nonce is not the point at infinity. -/
theorem nonce_point {C : Ec.Curve} [Fact C.p.Prime] (hC : C.Full) (hD : D = C.dom) {k : Nat} (hk : 0 < k ∧ k < D.n) :
    ∃ (G : D.curve.Point) (x y : ZMod D.p) (h : D.curve.Nonsingular x y), D.IsBase G ∧ k • G = .some x y h := by
  obtain ⟨G, hG, ho, _⟩ := Ec.d_base hC hD
  cases hP : k • G with
  | zero =>
    have : addOrderOf G ∣ k := addOrderOf_dvd_of_nsmul_eq_zero hP
    rw [ho] at this
    exact absurd (Nat.le_of_dvd hk.1 this) (by omega)
  | some x y h => exact ⟨G, x, y, h, hG, hP⟩

theorem signs_iff_not {C : Ec.Curve} [Fact C.p.Prime] (hC : C.Full) (hD : D = C.dom) {d k z : Nat} (hk : 0 < k ∧ k < D.n) :
    (∃ r s, D.Signs d k z r s) ↔ ¬ NoSignature D d k z := by
  obtain ⟨G, x, y, h, hG, hP⟩ := nonce_point hC hD hk
  exact signs_exists (by subst hD; exact hC.nprime) hG hk hP

/-- Signing with a curve: it returns or panics. -/
theorem scheme_returns {C : Ec.Curve} [Fact C.p.Prime] (hC : C.Full) (hD : D = C.dom) {hash : Bytes → Bytes}
    {nonce : Bytes → Nat → Bytes → Option Nat} (hr : ∀ r d h k, nonce r d h = some k → 0 < k ∧ k < C.n) (rnd : Bytes) (d : C.Scalar)
    (m : Bytes) :
    ((∃ s, signRes ((Ec.ecdsaWith C hash nonce).sign rnd d m) = .ok s) ↔
      ∃ k, nonce rnd d.1 (hash m) = some k ∧ ¬ NoSignature D d.1 k (beNat (hash m))) ∧
    ((¬ ∃ s, signRes ((Ec.ecdsaWith C hash nonce).sign rnd d m) = .ok s) →
      signRes ((Ec.ecdsaWith C hash nonce).sign rnd d m) = .panic) := by
  constructor
  · rw [sign_eq]
    cases hn : nonce rnd d.1 (hash m) with
    | none => simp [signRes]
    | some k =>
      have hk := hr _ _ _ _ hn
      have hk' : 0 < k ∧ k < D.n := by subst hD; exact hk
      simp only [Option.some.injEq, exists_eq_left']
      rw [← signs_iff_not hC hD hk']
      simp only [← Ec.d_signs_iff hC hD hk]
      cases C.signWith k (beNat (hash m)) d.1 with
      | none => simp [signRes]
      | some rs => simp [signRes]; exact ⟨rs.1, rs.2, rfl⟩
  · cases (Ec.ecdsaWith C hash nonce).sign rnd d m with
    | none => exact fun _ => rfl
    | some s => exact fun h => absurd ⟨s, rfl⟩ h

end

/-- C109: signing with a P-256 key returns exactly if the library has a nonce and there is a signature with it; otherwise it panics. -/
theorem C109_p256 (V : Variant 32) (hV : IsSha256 V) (L : Libs) (rsa : Bool) {b : Bytes} {sk : SecretKey L.prims}
    (h : SecretKey.fromBytes rsa .ecdsaP256Sha256 b = .ok sk) (rnd data e : Bytes) (hd : 8 * data.length < 2 ^ 64) (he : Digest V data e) :
    ((∃ sig, sk.sign rnd data = .ok sig) ↔ ∃ k, L.nonce256 rnd (beVal b) e = some k ∧ ¬ NoSignature P256 (beVal b) k (beVal e)) ∧
    ((¬ ∃ sig, sk.sign rnd data = .ok sig) → sk.sign rnd data = .panic) := by
  obtain ⟨d, hb, rfl⟩ := sk_p256_iff.1 h
  rw [((Ec.skOf_iff b d).1 hb).2, (C61_sha256 V hV data e hd).1 he, sign_p256]
  have := scheme_returns (hash := sha256) Ec.p256_full Ec.P256_eq L.nonce256_range rnd d data
  rwa [beNat_eq] at this

/-- C109: the same for P-384. -/
theorem C109_p384 (V : Variant 64) (hV : IsSha384 V) (L : Libs) (rsa : Bool) {b : Bytes} {sk : SecretKey L.prims}
    (h : SecretKey.fromBytes rsa .ecdsaP384Sha384 b = .ok sk) (rnd data e : Bytes) (hd : 8 * data.length < 2 ^ 128) (he : Digest384 V data e) :
    ((∃ sig, sk.sign rnd data = .ok sig) ↔ ∃ k, L.nonce384 rnd (beVal b) e = some k ∧ ¬ NoSignature P384 (beVal b) k (beVal e)) ∧
    ((¬ ∃ sig, sk.sign rnd data = .ok sig) → sk.sign rnd data = .panic) := by
  obtain ⟨d, hb, rfl⟩ := sk_p384_iff.1 h
  rw [((Ec.skOf_iff b d).1 hb).2, (C61_sha384 V hV data e hd).1 he, sign_p384]
  have := scheme_returns (hash := sha384) Ec.p384_full Ec.P384_eq L.nonce384_range rnd d data
  rwa [beNat_eq] at this

/-! ### The test with two signatures -/

/-- The private key of the test, its public point and their key id. -/
def testScalar : Nat := 0xbfbcf15b9ea88eb5b0992a35e2e39d6d58547e3f4977ee5a64807dbbc82d5a78
def testPoint : Ec.Pt := .aff 0x4662c31ed024faa48ca9c11be82652cdb38f9c4e1d8a2fb7d435be62e966cac6 0x4a40a0efba4f7a4c046e58c3bfbc36e193befb6b6405ddb80da088fc50f3309f
def exP256Id : Str := c! "k34r3Nqfak67bhJSXTjTRo5tCIr1Bsre1cPoJ3LJ9xE="

theorem testScalar_range : 0 < testScalar ∧ testScalar < Ec.p256.n := by decide +kernel

set_option maxRecDepth 100000 in
theorem testPoint_eq : Ec.p256.smul testScalar Ec.p256.g = testPoint := by
  rw [Ec.smul_fast Ec.p256_good.prime (by decide +kernel)]; decide +kernel

theorem exP256Id_eq : Base64.encode (sha256 (Ec.p256.compress testPoint)) = exP256Id := by decide +kernel

theorem second_secret_file : ∃ der key, PemText Libs.std.rsa.der (c! "PRIVATE KEY") der Tests.p256Secret ∧
    PrivateFile Libs.std.rsa.der .ecdsaP256Sha256 key der ∧ KeyField Libs.std.rsa.der .ecdsaP256Sha256 key (beBytes 32 testScalar) := by
  have h : ((Der.pem Der.lib Tests.p256Secret).bind fun x => (Der.pkiOfDer Der.lib x.2).map fun p =>
      (x.1, skBytesOfPki Libs.std.prims true .ecdsaP256Sha256 p)) = some (c! "PRIVATE KEY", .ok (beBytes 32 testScalar)) := by decide +kernel
  simp only [Option.bind_eq_some_iff, Option.map_eq_some_iff, Prod.mk.injEq, Prod.exists] at h
  obtain ⟨l, der, h1, pki, h2, h3, h4⟩ := h
  subst h3
  obtain ⟨hd, _, hk⟩ := (skField_iff (L := Libs.std) (pki_fits (L := Libs.std) h2)).1 h4
  exact ⟨der, _, pemText_of h1, pki_declares.1 ⟨pki, h2, hd, rfl⟩, hk⟩

def testPointBytes : Bytes := 4 :: beBytes 32 0x4662c31ed024faa48ca9c11be82652cdb38f9c4e1d8a2fb7d435be62e966cac6 ++
  beBytes 32 0x4a40a0efba4f7a4c046e58c3bfbc36e193befb6b6405ddb80da088fc50f3309f

theorem second_public_file : ∃ der, PemText Libs.std.rsa.der (c! "PUBLIC KEY") der Tests.p256Public ∧
    PublicFile Libs.std.rsa.der .ecdsaP256Sha256 testPointBytes der := by
  have h : ((Der.pem Der.lib Tests.p256Public).bind fun x => (Der.spkiOfDer Der.lib x.2).map fun p =>
      (x.1, p.oid, p.paramsOid, p.publicKey)) = some (c! "PUBLIC KEY", oidEC, some oidP256, some testPointBytes) := by decide +kernel
  simp only [Option.bind_eq_some_iff, Option.map_eq_some_iff, Prod.mk.injEq, Prod.exists] at h
  obtain ⟨l, der, h1, spki, h2, h3, h4, h5, h6⟩ := h
  subst h3
  obtain ⟨c, o, params, ⟨he, hf⟩, hq, ht, ho, hpo⟩ := (Der.spki_iff h6).1 h2
  rw [hpo] at h5
  obtain ⟨d1, d2, d3⟩ := declares_iff.1 ⟨_, ho, (show Declares .ecdsaP256Sha256 _ _ from ⟨h4, h5⟩)⟩
  exact ⟨der, pemText_of h1, c, o, params, he, hf.1, hf.2, hq, ⟨d1, ht⟩, d2, d3⟩

theorem p256_public (L : Libs) (d : Ec.p256.Scalar) : (SecretKey.ecdsaP256Sha256 (P := L.prims) d).publicKey =
    .ecdsaP256Sha256 (P := L.prims) (Ec.p256.smul d.1 Ec.p256.g) := rfl

/-- The second key of the test. -/
theorem second_keys (R : Run) (hL : R.L.rsa.der = Der.lib) : ∃ sk pk, Tests.secondSecret R = .ok sk ∧ Tests.secondPublished R = .ok pk ∧
    SecretKey.fromBytes R.rsa .ecdsaP256Sha256 (beBytes 32 testScalar) = .ok sk ∧ KeyPair (sk.signing R.nonce) pk.verifying ∧
    (sk.signing R.nonce).keyId = exP256Id ∧ pk.keyId = exP256Id ∧ (sk.signing R.nonce).alg = .ecdsaP256Sha256 := by
  obtain ⟨der, key, h1, h2, h3⟩ := second_secret_file
  obtain ⟨der', h1', h2'⟩ := second_public_file
  have e : Libs.std.rsa.der = R.L.rsa.der := hL.symm
  rw [e] at h1 h2 h3 h1' h2'
  have hb : SecretKey.fromBytes (P := R.L.prims) R.rsa .ecdsaP256Sha256 (beBytes 32 testScalar) =
      .ok (.ecdsaP256Sha256 (P := R.L.prims) ⟨testScalar, testScalar_range⟩) := sk_p256_iff.2 ⟨_, by decide +kernel, rfl⟩
  have hs : SecretKey.fromPem (P := R.L.prims) R.rsa .ecdsaP256Sha256 Tests.p256Secret =
      .ok (.ecdsaP256Sha256 (P := R.L.prims) ⟨testScalar, testScalar_range⟩) := by
    refine (C68_secret_pem R.L R.rsa .ecdsaP256Sha256 _ _).2 ⟨der, h1, ?_⟩
    rw [C68_key_bytes R.L R.rsa h2 h3 rfl]
    exact hb
  have hp : PublicKey.fromPem (P := R.L.prims) R.rsa .ecdsaP256Sha256 Tests.p256Public = .ok (.ecdsaP256Sha256 (P := R.L.prims) testPoint) :=
    (C68_public_pem R.L R.rsa .ecdsaP256Sha256 _ _).2 ⟨der', testPointBytes, h1', h2', pk_p256_iff.2 ⟨_, by decide +kernel, rfl⟩⟩
  have hpk : (SecretKey.ecdsaP256Sha256 (P := R.L.prims) ⟨testScalar, testScalar_range⟩).publicKey = .ecdsaP256Sha256 (P := R.L.prims) testPoint := by
    rw [p256_public]
    show PublicKey.ecdsaP256Sha256 (P := R.L.prims) (Ec.p256.smul testScalar Ec.p256.g) = _
    rw [testPoint_eq]
  have hid : (PublicKey.ecdsaP256Sha256 (P := R.L.prims) testPoint).keyId = exP256Id := exP256Id_eq
  refine ⟨.ecdsaP256Sha256 (P := R.L.prims) ⟨testScalar, testScalar_range⟩, .ecdsaP256Sha256 (P := R.L.prims) testPoint,
    by unfold Tests.secondSecret; rw [hs]; rfl, by unfold Tests.secondPublished; rw [hp]; rfl, hb, ?_, (congrArg PublicKey.keyId hpk).trans hid, hid, rfl⟩
  rw [← hpk]; exact C70_key_pair R.L _ _

/-- C109: the test with two signatures passes exactly if the P-256 key signs; otherwise it panics. -/
theorem C109_test (R : Run) (U : UriLib) (hL : R.L.rsa.der = Der.lib) (hU : ∃ u, Uri.parse U target = some u) (b : Bytes)
    (h1 : R.t1.toNat < 10 ^ 15) (h2 : R.t2.toNat < 10 ^ 15) :
    ∃ r, ∃ sk : SecretKey R.L.prims, ∃ t, Tests.request U b = .ok r ∧ SecretKey.fromBytes R.rsa .ecdsaP256Sha256 (beBytes 32 testScalar) = .ok sk ∧
      BaseOf (.req r) none (testParams R.t2 .ecdsaP256Sha256 exP256Id exReqIds) t ∧
      ((∃ s, sk.sign R.nonce (utf8 t) = .ok s) → Tests.multiple R U b = .ok ()) ∧
      ((¬ ∃ s, sk.sign R.nonce (utf8 t) = .ok s) → Tests.multiple R U b = .panic) := by
  obtain ⟨sk, pk, e1, e2, e3, e4, e5, e6, e7⟩ := test_keys R hL
  obtain ⟨sk', pk', f1, f2, f0, f3, f5, f6, f7⟩ := second_keys R hL
  obtain ⟨r, hr, _, _, hw, hi, hs, hv, _, _⟩ := ex_request U hU b
  have hr : Tests.request U b = .ok r := hr
  have hvals : ∀ i ∈ exReqIds, ∃ v, HasValue (.req r) none i v := ex_request_values hv
  have hf : ∀ q, (none : Option Request) = some q → WfHeaders q.headers := by simp
  obtain ⟨vs, hvs⟩ := forall₂_of_all hvals
  obtain ⟨t, ht⟩ : ∃ t, BaseOf (.req r) none (testParams R.t1 .ed25519 exEdId exReqIds) t := ⟨_, vs, hvs, rfl⟩
  obtain ⟨t', ht'⟩ : ∃ t, BaseOf (.req r) none (testParams R.t2 .ecdsaP256Sha256 exP256Id exReqIds) t := ⟨_, vs, hvs, rfl⟩
  have sP : SafeText exP256Id := by rw [← exP256Id_eq]; exact base64_safe _
  have p1 : SafeParams (testParams R.t1 .ed25519 exEdId exReqIds) :=
    test_safe h1 exEdId_safe (fun i hi => exIds_safe i (by simp [hi])) exIds_distinct.1
  have p2 : SafeParams (testParams R.t2 .ecdsaP256Sha256 exP256Id exReqIds) :=
    test_safe h2 sP (fun i hi => exIds_safe i (by simp [hi])) exIds_distinct.1
  have m1 : Tests.made R.t1 requestCovered (sk.signing R.noise) = .ok (testParams R.t1 .ed25519 exEdId exReqIds) := by
    rw [test_made exReqIds_eq exUnique.1, e5, e7]
  have m2 : Tests.made R.t2 requestCovered (sk'.signing R.nonce) = .ok (testParams R.t2 .ecdsaP256Sha256 exP256Id exReqIds) := by
    rw [test_made exReqIds_eq exUnique.1, f5, f7]
  have hsafe : ∀ x ∈ ([(testParams R.t1 .ed25519 exEdId exReqIds, sk.signing R.noise, some (c! "eddsa_sig")),
      (testParams R.t2 .ecdsaP256Sha256 exP256Id exReqIds, sk'.signing R.nonce, some (c! "p256_sig"))] : List Signer),
      SafeParams x.1 ∧ LegalKey x.label ∧ NotSelf x.1 := by
    intro x hx
    rcases List.mem_cons.1 hx with rfl | hx
    · exact ⟨p1, (by decide : LegalKey (c! "eddsa_sig")), test_notSelf fun i hi => List.mem_append_left _ hi⟩
    · rw [List.mem_singleton.1 hx]
      exact ⟨p2, (by decide : LegalKey (c! "p256_sig")), test_notSelf fun i hi => List.mem_append_left _ hi⟩
  have run : Tests.multiple R U b = Tests.signAll (.req r) [(testParams R.t1 .ed25519 exEdId exReqIds, sk.signing R.noise, some (c! "eddsa_sig")),
      (testParams R.t2 .ecdsaP256Sha256 exP256Id exReqIds, sk'.signing R.nonce, some (c! "p256_sig"))] none >>= fun m =>
      unwrap (verifySignatures R.t1' m [(pk.verifying, some pk.keyId), (pk'.verifying, some pk'.keyId)] none) >>= fun rs =>
      match rs with
      | [.ok n, .ok n'] => assert (n == c! "eddsa_sig") >>= fun _ => assert (n' == c! "p256_sig")
      | _ => .panic := by
    unfold Tests.multiple
    rw [hr, e1, f1]
    simp only [Res.bind_ok, m1, m2, e2, f2]
    rfl
  refine ⟨r, sk', t', hr, f0, ht', ?_, ?_⟩
  · rintro ⟨s', hs'⟩
    obtain ⟨s, hsg⟩ := e4 (utf8 t)
    have g1 : SignedBy (.req r) none (testParams R.t1 .ed25519 exEdId exReqIds, sk.signing R.noise, some (c! "eddsa_sig"))
        ⟨c! "eddsa_sig", s, testParams R.t1 .ed25519 exEdId exReqIds⟩ := ⟨rfl, rfl, t, ht, hsg⟩
    have g2 : SignedBy (.req r) none (testParams R.t2 .ecdsaP256Sha256 exP256Id exReqIds, sk'.signing R.nonce, some (c! "p256_sig"))
        ⟨c! "p256_sig", s', testParams R.t2 .ecdsaP256Sha256 exP256Id exReqIds⟩ := ⟨rfl, rfl, t', ht', hs'⟩
    have hall := List.Forall₂.cons g1 (List.Forall₂.cons g2 .nil)
    have hsh := signed_safe hall (fun x hx => ⟨(hsafe x hx).1, (hsafe x hx).2.1⟩)
    have hset := (setSignatures_ok (m := .req r) (rf := none) hw hf _ _).2
      ⟨_, hall, fun sh h => by rw [hvOfStr_printable (safe_input_printable (hsh sh h))]; rfl, rfl⟩
    have hver := C03_batch_distinct (now := R.t1') (m := .req r) (rf := none) hw hf hi hs
      [((testParams R.t1 .ed25519 exEdId exReqIds, sk.signing R.noise, some (c! "eddsa_sig")), pk.verifying),
        ((testParams R.t2 .ecdsaP256Sha256 exP256Id exReqIds, sk'.signing R.nonce, some (c! "p256_sig")), pk'.verifying)] (by simp)
      (by intro x hx; rcases List.mem_cons.1 hx with rfl | hx
          · exact e3
          · rw [List.mem_singleton.1 hx]; exact f3)
      (by intro x hx; exact hsafe x.1 (by
            rcases List.mem_cons.1 hx with rfl | hx
            · exact List.mem_cons_self
            · rw [List.mem_singleton.1 hx]; exact List.mem_cons_of_mem _ List.mem_cons_self))
      (show [c! "eddsa_sig", c! "p256_sig"].Nodup by decide)
      (by intro x hx e he; rcases List.mem_cons.1 hx with rfl | hx
          · cases he
          · rw [List.mem_singleton.1 hx] at he; cases he)
      (by intro x hx; rcases List.mem_cons.1 hx with rfl | hx
          · simp [testParams]
          · rw [List.mem_singleton.1 hx]; simp [testParams])
      (show [some exEdId, some exP256Id].Nodup by decide) hset
    rw [run]
    unfold Tests.signAll
    rw [hset]
    simp only [Res.bind_ok]
    rw [e6, f6]
    have hver : verifySignatures R.t1' _ [(pk.verifying, some exEdId), (pk'.verifying, some exP256Id)] none =
      .ok [.ok (c! "eddsa_sig"), .ok (c! "p256_sig")] := hver
    rw [hver]
    rfl
  · intro hno
    rw [run]
    unfold Tests.signAll
    split
    · next h' heq =>
      obtain ⟨hs2, hall, _⟩ := (setSignatures_ok (m := .req r) (rf := none) hw hf _ _).1 heq
      cases hall with
      | cons _ rest =>
        cases rest with
        | cons a _ =>
          obtain ⟨_, _, t2, h2, h3⟩ := a
          have h2 : BaseOf (.req r) none (testParams R.t2 .ecdsaP256Sha256 exP256Id exReqIds) t2 := h2
          have h3 : sk'.sign R.nonce (utf8 t2) = _ := h3
          rw [base_unique (m := .req r) hw hf h2 ht'] at h3
          exact absurd ⟨_, h3⟩ hno
    · rfl

/-! ### Examples -/

theorem signs_point {D : Domain} [Fact D.p.Prime] {d k z r s : Nat} (hs : D.Signs d k z r s) :
    ∃ (G : D.curve.Point) (x y : ZMod D.p) (h : D.curve.Nonsingular x y), D.IsBase G ∧ k • G = .some x y h ∧ x.val % D.n = r := by
  obtain ⟨_, _, _, _, G, x, y, h, h1, h2, h3, _⟩ := hs
  exact ⟨G, x, y, h, h1, h2, h3⟩

/-- The abscissas of the base point and of its double. -/
def r1 : Nat := 48439561293906451759052585252797914202762949526041747995844080717082404635286
def r2 : Nat := 56515219790691171413109057904011688695424810155802929973526481321309856242040

theorem signs_one : P256.Signs 1 1 5 r1 (r1 + 5) :=
  (Ec.d_signs_iff Ec.p256_full Ec.P256_eq (by decide +kernel) _ _ _ _).1 (by decide +kernel)

theorem two_point : Ec.p256.smul 2 Ec.p256.g = .aff r2 3377031843712258259223711451491452598088675519751548567112458094635497583569 := by
  rw [Ec.smul_fast Ec.p256_good.prime (by decide +kernel)]; decide +kernel

theorem signs_two : P256.Signs 1 2 5 r2 86153654500523710087903252426709631112710882689969345157974370191189184143207 := by
  refine (Ec.d_signs_iff Ec.p256_full Ec.P256_eq (by decide +kernel) _ _ _ _).1 ?_
  simp only [Ec.Curve.signWith]
  rw [two_point, ← Ec.inv'_eq Ec.p256_good.nprime (by decide +kernel)]
  decide +kernel

/-- With the key 1 and the nonce 1, the digest that gets no signature, and the others that get none. -/
theorem no_signature_one : NoSignature P256 1 1 (P256.n - r1) := by
  obtain ⟨G, x, y, h, h1, h2, h3⟩ := signs_point signs_one
  exact ⟨G, x, y, h, h1, h2, .inr (by rw [h3]; decide +kernel)⟩

example (z : Nat) : NoSignature P256 1 1 z ↔ (P256.n - r1) % P256.n = z % P256.n := by
  obtain ⟨G, x, y, h, h1, h2, h3⟩ := signs_point signs_one
  exact C109_one_residue h1 h2 (by rw [h3]; decide +kernel) no_signature_one

example : ¬ NoSignature P256 1 1 5 := (signs_iff_not Ec.p256_full Ec.P256_eq (by decide +kernel)).1 ⟨_, _, signs_one⟩

/-- The nonces 1 and 2 do not both fail. -/
theorem one_or_two {d : Nat} (hd : 0 < d ∧ d < P256.n) (z : Nat) : ¬ (NoSignature P256 d 1 z ∧ NoSignature P256 d 2 z) := by
  obtain ⟨G, x, y, h, h1, h2, h3⟩ := signs_point signs_one
  obtain ⟨G', x', y', h', h1', h2', h3'⟩ := signs_point signs_two
  have : G' = G := by obtain ⟨_, rfl⟩ := h1; obtain ⟨_, rfl⟩ := h1'; rfl
  subst this
  exact C109_two_nonces (by rw [Ec.P256_eq]; exact Ec.p256_full.nprime) hd h1 h2 h2' (by rw [h3]; decide +kernel)
    (by rw [h3']; decide +kernel) (by rw [h3, h3']; decide +kernel)

/-- A library that takes the nonce 2 where 1 fails. It gives its keys away (C78), but it always signs with P-256. -/
def libsTwo : Libs where
  nonce256 _ d h := if (Ec.p256.signWith 1 (beNat h) d).isSome then some 1 else some 2
  nonce384 _ _ _ := some 1
  nonce256_range := by
    intro _ _ _ _ h
    split at h <;> (injection h with h; subst h; decide +kernel)
  nonce384_range := by rintro _ _ _ _ ⟨⟩; decide +kernel
  ed := Ed.rfc8032
  rsa := Rsa.lib

theorem libsTwo_signs {rsa : Bool} {b : Bytes} {sk : SecretKey libsTwo.prims} (h : SecretKey.fromBytes rsa .ecdsaP256Sha256 b = .ok sk)
    (rnd data : Bytes) : ∃ s, sk.sign rnd data = .ok s := by
  obtain ⟨d, _, rfl⟩ := sk_p256_iff.1 h
  rw [sign_p256]
  refine (scheme_returns (hash := sha256) Ec.p256_full Ec.P256_eq libsTwo.nonce256_range rnd d data).1.2 ?_
  have hn : libsTwo.nonce256 rnd d.1 (sha256 data) = if (Ec.p256.signWith 1 (beNat (sha256 data)) d.1).isSome then some 1 else some 2 := by
    simp only [libsTwo]
  rw [hn]
  have one : (Ec.p256.signWith 1 (beNat (sha256 data)) d.1).isSome = true ↔ ¬ NoSignature P256 d.1 1 (beNat (sha256 data)) := by
    rw [← signs_iff_not Ec.p256_full Ec.P256_eq (by decide +kernel)]
    simp only [← Ec.d_signs_iff Ec.p256_full Ec.P256_eq (k := 1) (by decide +kernel)]
    rw [Option.isSome_iff_exists, Prod.exists]
  by_cases h1 : NoSignature P256 d.1 1 (beNat (sha256 data))
  · rw [if_neg fun e => one.1 e h1]
    exact ⟨2, rfl, fun h2 => one_or_two (by rw [Ec.P256_eq]; exact d.2) _ ⟨h1, h2⟩⟩
  · rw [if_pos (one.2 h1)]
    exact ⟨1, rfl, h1⟩

/-- With this library the test passes, for every body. -/
example (b : Bytes) : Tests.multiple ⟨libsTwo, false, 1700000000, 1700000001, 1700000001, 0, [], []⟩ httpLib b = .ok () := by
  obtain ⟨r, sk, t, _, h1, _, h2, _⟩ := C109_test ⟨libsTwo, false, 1700000000, 1700000001, 1700000001, 0, [], []⟩ httpLib rfl
    exTarget_parses b (by decide) (by decide)
  exact h2 (libsTwo_signs h1 _ _)

end Verif
