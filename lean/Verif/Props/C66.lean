import Verif.Proofs.EcDom
import Verif.Props.C61
import Verif.Model.Std
import Verif.Spec.Sign
/-!
C66: ECDSA keys and signatures against FIPS 186-4 and SEC 1, written down in `Spec/Ecdsa.lean` over Mathlib's group of points.
The theorems hold for every way of choosing nonces in range (`Libs.nonce256`, `Libs.nonce384`).
-/
namespace Verif
open Spec Spec.Sha Spec.Ecdsa Sha2

instance factP256 : Fact P256.p.Prime := ⟨Ec.P256_eq ▸ Ec.fact256.out⟩
instance factP384 : Fact P384.p.Prime := ⟨Ec.P384_eq ▸ Ec.fact384.out⟩

/-! ### P256 -/

/-- C66: the base point of P256 has order `n` and generates all points of the curve. -/
theorem C66_p256_group : ∃ G, P256.IsBase G ∧ addOrderOf G = P256.n ∧ ∀ Q, ∃ d, d < P256.n ∧ Q = d • G :=
  Ec.d_base Ec.p256_full Ec.P256_eq

theorem pk_p256_iff {L : Libs} {rsa : Bool} {b : Bytes} {pk : PublicKey L.prims} :
    PublicKey.fromBytes rsa .ecdsaP256Sha256 b = .ok pk ↔ ∃ q, Ec.p256.ofSec1 b = some q ∧ pk = .ecdsaP256Sha256 (P := L.prims) q := by
  have e : PublicKey.fromBytes (P := L.prims) rsa .ecdsaP256Sha256 b =
      Res.ofOption .parsePublicKey (Ec.p256.ofSec1 b) >>= fun k => .ok (.ecdsaP256Sha256 (P := L.prims) k) := rfl
  rw [e, Res.bind_eq_ok]
  simp only [Res.ofOption_eq_ok, Res.ok.injEq]
  exact ⟨fun ⟨q, h, h'⟩ => ⟨q, h, h'.symm⟩, fun ⟨q, h, h'⟩ => ⟨q, h, h'.symm⟩⟩

/-- C66: the byte strings taken as public keys are the encodings of points; everything else is refused with an error. -/
theorem C66_p256_public_key (L : Libs) (rsa : Bool) (b : Bytes) :
    ((∃ pk, PublicKey.fromBytes (P := L.prims) rsa .ecdsaP256Sha256 b = .ok pk) ↔ ∃ Q, P256.Sec1 Q b) ∧
    ((¬∃ Q, P256.Sec1 Q b) → PublicKey.fromBytes (P := L.prims) rsa .ecdsaP256Sha256 b = .err .parsePublicKey) := by
  have hi := Ec.d_import Ec.p256_full Ec.P256_eq b
  constructor
  · rw [← hi]
    constructor
    · rintro ⟨pk, h⟩; obtain ⟨q, hq, _⟩ := pk_p256_iff.1 h; exact ⟨q, hq⟩
    · rintro ⟨q, hq⟩; exact ⟨_, pk_p256_iff.2 ⟨q, hq, rfl⟩⟩
  · intro hn
    rw [← hi] at hn
    have : Ec.p256.ofSec1 b = none := by
      cases h : Ec.p256.ofSec1 b with
      | none => rfl
      | some q => exact absurd ⟨q, h⟩ hn
    have e : PublicKey.fromBytes (P := L.prims) rsa .ecdsaP256Sha256 b =
        Res.ofOption .parsePublicKey (Ec.p256.ofSec1 b) >>= fun k => .ok (.ecdsaP256Sha256 (P := L.prims) k) := rfl
    rw [e, this]; rfl

theorem pk_p256_inj {L : Libs} (q q' : Ec.Pt) :
    PublicKey.ecdsaP256Sha256 (P := L.prims) q = PublicKey.ecdsaP256Sha256 (P := L.prims) q' ↔ q = q' :=
  ⟨fun h => by injection h, fun h => by rw [h]⟩

/-- C66: keys are equal exactly if the points are, however they were written. -/
theorem C66_p256_same_key (L : Libs) (rsa : Bool) {b b' : Bytes} {pk pk' : PublicKey L.prims} {Q Q' : P256.curve.Point}
    (h : PublicKey.fromBytes rsa .ecdsaP256Sha256 b = .ok pk) (h' : PublicKey.fromBytes rsa .ecdsaP256Sha256 b' = .ok pk')
    (hQ : P256.Sec1 Q b) (hQ' : P256.Sec1 Q' b') : pk = pk' ↔ Q = Q' := by
  obtain ⟨q, hq, rfl⟩ := pk_p256_iff.1 h
  obtain ⟨q', hq', rfl⟩ := pk_p256_iff.1 h'
  exact (pk_p256_inj q q').trans (Ec.d_same Ec.p256_full Ec.P256_eq hQ hQ' hq hq')

theorem sigBytes_p256_length {r s : Nat} {b : Bytes} (h : P256.SigBytes r s b) : b.length = 64 := by
  obtain ⟨x, y, rfl, h1, h2⟩ := h
  rw [List.length_append, h1.1, h2.1]; rfl

theorem verify_p256_len {L : Libs} (q : Ec.Pt) (data sig : Bytes) (Q : P256.curve.Point) (z : Nat)
    (h : verifyRes L.prims.p256 q data sig = .ok () ↔ ∃ r s, P256.SigBytes r s sig ∧ P256.Valid Q z r s) :
    (PublicKey.ecdsaP256Sha256 (P := L.prims) q).verify data sig = .ok () ↔ ∃ r s, P256.SigBytes r s sig ∧ P256.Valid Q z r s := by
  have e : (PublicKey.ecdsaP256Sha256 (P := L.prims) q).verify data sig =
      if sig.length ≠ 64 then .panic else verifyRes L.prims.p256 q data sig := rfl
  rw [e]
  split
  · rename_i hl
    constructor
    · intro e; cases e
    · rintro ⟨r, s, hb, _⟩; exact absurd (sigBytes_p256_length hb) hl
  · exact h

/-- C66: an imported public key accepts exactly the signatures that FIPS 186-4 section 6.4 declares valid for its point. -/
theorem C66_p256_verify (V : Variant 32) (hV : IsSha256 V) (L : Libs) (rsa : Bool) {b : Bytes} {pk : PublicKey L.prims}
    {Q : P256.curve.Point} (h : PublicKey.fromBytes rsa .ecdsaP256Sha256 b = .ok pk) (hQ : P256.Sec1 Q b) (data sig : Bytes)
    (hd : 8 * data.length < 2 ^ 64) :
    pk.verify data sig = .ok () ↔
      ∃ e r s, Digest V data e ∧ P256.SigBytes r s sig ∧ P256.Valid Q (beVal e) r s := by
  obtain ⟨q, hq, rfl⟩ := pk_p256_iff.1 h
  rw [verify_p256_len q data sig Q _ (Ec.d_verify Ec.p256_full Ec.P256_eq hQ hq data sig)]
  simp only [C61_sha256 V hV data _ hd]
  exact ⟨fun ⟨r, s, h⟩ => ⟨_, r, s, rfl, h⟩, fun ⟨_, r, s, rfl, h⟩ => ⟨r, s, h⟩⟩

/-- C66: the text of the key id is made from the compressed point. -/
theorem C66_p256_key_id (V : Variant 32) (hV : IsSha256 V) (L : Libs) (rsa : Bool) {b c d : Bytes} {pk : PublicKey L.prims}
    {Q : P256.curve.Point} (h : PublicKey.fromBytes rsa .ecdsaP256Sha256 b = .ok pk) (hQ : P256.Sec1 Q b)
    (hc : P256.Compressed Q c) (hd : Digest V c d) : pk.keyId = Base64.encode d := by
  obtain ⟨q, hq, rfl⟩ := pk_p256_iff.1 h
  have hl : c.length = 32 + 1 := by
    obtain ⟨_, _, _, X, _, rfl, hX, _⟩ := hc
    rw [List.length_cons, hX]; rfl
  rw [C61_sha256 V hV c d (by rw [hl]; decide)] at hd
  rw [hd, (Ec.d_keyId Ec.p256_full Ec.P256_eq hQ hq c).1 hc]
  rfl

theorem sk_p256_iff {L : Libs} {rsa : Bool} {b : Bytes} {sk : SecretKey L.prims} :
    SecretKey.fromBytes rsa .ecdsaP256Sha256 b = .ok sk ↔
      ∃ d : Ec.p256.Scalar, Ec.p256.skOf b = some d ∧ sk = .ecdsaP256Sha256 (P := L.prims) d := by
  have e : SecretKey.fromBytes (P := L.prims) rsa .ecdsaP256Sha256 b = if b.length ≠ 32 then .panic else
      Res.ofOption .parsePrivateKey (Ec.p256.skOf b) >>= fun k => .ok (.ecdsaP256Sha256 (P := L.prims) k) := rfl
  rw [e]
  split
  · rename_i hl
    constructor
    · intro h; cases h
    · rintro ⟨d, hd, _⟩; exact absurd ((Ec.skOf_iff b d).1 hd).1 hl
  · rw [Res.bind_eq_ok]
    simp only [Res.ofOption_eq_ok, Res.ok.injEq]
    exact ⟨fun ⟨q, h, h'⟩ => ⟨q, h, h'.symm⟩, fun ⟨q, h, h'⟩ => ⟨q, h, h'.symm⟩⟩

/-- C66: private keys are the numbers from 1 to `n - 1` at full length. -/
theorem C66_p256_secret_key (L : Libs) (rsa : Bool) (b : Bytes) :
    (∃ sk, SecretKey.fromBytes (P := L.prims) rsa .ecdsaP256Sha256 b = .ok sk) ↔ ∃ d, 0 < d ∧ d < P256.n ∧ Octets P256.len d b := by
  constructor
  · rintro ⟨sk, h⟩
    obtain ⟨d, hd, _⟩ := sk_p256_iff.1 h
    obtain ⟨h1, h2⟩ := (Ec.skOf_iff b d).1 hd
    rw [Ec.P256_eq]
    exact ⟨d.1, d.2.1, d.2.2, h1, h2⟩
  · rintro ⟨d, h0, h1, h2⟩
    rw [Ec.P256_eq] at h1 h2
    exact ⟨_, sk_p256_iff.2 ⟨⟨d, h0, h1⟩, (Ec.skOf_iff b _).2 h2, rfl⟩⟩

/-- C66: a public key belongs to a private key exactly if its point is that multiple of the base point. -/
theorem C66_p256_pair (L : Libs) (rsa rsa' : Bool) {b b' : Bytes} {sk : SecretKey L.prims} {pk : PublicKey L.prims} {Q G : P256.curve.Point}
    (h : SecretKey.fromBytes rsa .ecdsaP256Sha256 b = .ok sk) (h' : PublicKey.fromBytes rsa' .ecdsaP256Sha256 b' = .ok pk)
    (hQ : P256.Sec1 Q b') (hG : P256.IsBase G) : sk.publicKey = pk ↔ Q = beVal b • G := by
  obtain ⟨d, hd, rfl⟩ := sk_p256_iff.1 h
  obtain ⟨q, hq, rfl⟩ := pk_p256_iff.1 h'
  rw [((Ec.skOf_iff b d).1 hd).2, ← Ec.d_pair Ec.p256_full Ec.P256_eq hQ hq hG d.1]
  exact pk_p256_inj _ _

/-- C66: every public key that can be imported belongs to a private key that can be imported. -/
theorem C66_p256_has_secret (L : Libs) (rsa : Bool) {b : Bytes} {pk : PublicKey L.prims}
    (h : PublicKey.fromBytes rsa .ecdsaP256Sha256 b = .ok pk) :
    ∃ b' sk, SecretKey.fromBytes rsa .ecdsaP256Sha256 b' = .ok sk ∧ sk.publicKey = pk := by
  obtain ⟨Q, hQ⟩ := (C66_p256_public_key L rsa b).1.1 ⟨pk, h⟩
  obtain ⟨G, hG, _⟩ := C66_p256_group
  obtain ⟨d, h0, hn, he⟩ := Ec.d_secret Ec.p256_full Ec.P256_eq hQ hG
  have hnl : P256.n ≤ 256 ^ P256.len := by rw [Ec.P256_eq]; exact Ec.p256_full.nlen
  have hl : d < 256 ^ P256.len := lt_of_lt_of_le hn hnl
  have ho := Ec.octets_beBytes hl
  obtain ⟨sk, hsk⟩ := (C66_p256_secret_key L rsa _).2 ⟨d, h0, hn, ho⟩
  refine ⟨_, sk, hsk, (C66_p256_pair L rsa rsa hsk h hQ hG).2 ?_⟩
  rw [ho.2]; exact he

theorem signRes_iff {o : Option Bytes} {s : Bytes} : signRes o = .ok s ↔ o = some s := by
  cases o <;> simp [signRes]

/-- C66: what is signed solves the equations of FIPS 186-4 section 6.3 for the digest of the data. -/
theorem C66_p256_sign (V : Variant 32) (hV : IsSha256 V) (L : Libs) (rsa : Bool) {b : Bytes} {sk : SecretKey L.prims}
    (h : SecretKey.fromBytes rsa .ecdsaP256Sha256 b = .ok sk) {rnd data sig : Bytes} (hd : 8 * data.length < 2 ^ 64)
    (hs : sk.sign rnd data = .ok sig) :
    ∃ e k r s, Digest V data e ∧ P256.SigBytes r s sig ∧ P256.Signs (beVal b) k (beVal e) r s := by
  obtain ⟨d, hb, rfl⟩ := sk_p256_iff.1 h
  obtain ⟨k, r, s, h1, h2⟩ := Ec.d_sign Ec.p256_full Ec.P256_eq L.nonce256_range (signRes_iff.1 hs)
  rw [← ((Ec.skOf_iff b d).1 hb).2] at h2
  exact ⟨_, k, r, s, (C61_sha256 V hV data _ hd).2 rfl, h1, h2⟩

/-- C66: what a key signs, its public key accepts. -/
theorem C66_p256_sign_verify (L : Libs) (d : L.prims.p256.SK) (rnd : Bytes) :
    KeyPair ((SecretKey.ecdsaP256Sha256 d).signing rnd) (SecretKey.ecdsaP256Sha256 d).publicKey.verifying := by
  intro data sig hs
  obtain ⟨G, hG, _⟩ := C66_p256_group
  obtain ⟨k, r, s, h1, h2⟩ := Ec.d_sign Ec.p256_full Ec.P256_eq L.nonce256_range (signRes_iff.1 hs)
  exact (verify_p256_len _ data sig _ _ (Ec.d_sk_verify Ec.p256_full Ec.P256_eq hG d data sig)).2
    ⟨r, s, h1, Ec.d_signs_valid Ec.p256_full Ec.P256_eq hG h2⟩

/-- C66: beside every accepted signature `(r, s)` the different signature `(r, n - s)` is accepted, so a signature does not
identify a message uniquely (neither the crate nor the library asks for the smaller `s`). -/
theorem C66_p256_second_signature (L : Libs) (rsa : Bool) {b : Bytes} {pk : PublicKey L.prims}
    (h : PublicKey.fromBytes rsa .ecdsaP256Sha256 b = .ok pk) {data sig : Bytes} (hv : pk.verify data sig = .ok ()) :
    ∃ sig', sig' ≠ sig ∧ sig'.take 32 = sig.take 32 ∧ beVal (sig'.drop 32) + beVal (sig.drop 32) = P256.n ∧
      pk.verify data sig' = .ok () := by
  obtain ⟨Q, hQ⟩ := (C66_p256_public_key L rsa b).1.1 ⟨pk, h⟩
  obtain ⟨q, hq, rfl⟩ := pk_p256_iff.1 h
  have iff := fun s => verify_p256_len q data s Q _ (Ec.d_verify Ec.p256_full Ec.P256_eq hQ hq data s (nonce := L.nonce256))
  obtain ⟨r, s, ⟨x, y, rfl, hx, hy⟩, hval⟩ := (iff sig).1 hv
  have hs := hval.2.1
  have hnl : P256.n ≤ 256 ^ 32 := by rw [Ec.P256_eq]; exact Ec.p256_full.nlen
  have ho : Octets P256.len (P256.n - s) (beBytes P256.len (P256.n - s)) :=
    Ec.octets_beBytes (show P256.n - s < 256 ^ 32 by omega)
  have hval' := Ec.d_neg Ec.p256_full Ec.P256_eq hval
  have e1 : ∀ z : Bytes, (x ++ z).take 32 = x := fun z => List.take_left' hx.1
  have e2 : ∀ z : Bytes, (x ++ z).drop 32 = z := fun z => List.drop_left' hx.1
  refine ⟨x ++ beBytes P256.len (P256.n - s), ?_, ?_, ?_, (iff _).2 ⟨r, P256.n - s, ⟨x, _, rfl, hx, ho⟩, hval'⟩⟩
  · intro he
    have he := List.append_cancel_left he
    have hv1 := ho.2
    rw [he, hy.2] at hv1
    have hodd : P256.n % 2 = 1 := by decide +kernel
    omega
  · rw [e1, e1]
  · rw [e2, e2, ho.2, hy.2]; omega

/-! ### P384 -/

/-- C66: the base point of P384 has order `n` and generates all points of the curve. -/
theorem C66_p384_group : ∃ G, P384.IsBase G ∧ addOrderOf G = P384.n ∧ ∀ Q, ∃ d, d < P384.n ∧ Q = d • G :=
  Ec.d_base Ec.p384_full Ec.P384_eq

theorem pk_p384_iff {L : Libs} {rsa : Bool} {b : Bytes} {pk : PublicKey L.prims} :
    PublicKey.fromBytes rsa .ecdsaP384Sha384 b = .ok pk ↔ ∃ q, Ec.p384.ofSec1 b = some q ∧ pk = .ecdsaP384Sha384 (P := L.prims) q := by
  have e : PublicKey.fromBytes (P := L.prims) rsa .ecdsaP384Sha384 b =
      Res.ofOption .parsePublicKey (Ec.p384.ofSec1 b) >>= fun k => .ok (.ecdsaP384Sha384 (P := L.prims) k) := rfl
  rw [e, Res.bind_eq_ok]
  simp only [Res.ofOption_eq_ok, Res.ok.injEq]
  exact ⟨fun ⟨q, h, h'⟩ => ⟨q, h, h'.symm⟩, fun ⟨q, h, h'⟩ => ⟨q, h, h'.symm⟩⟩

/-- C66: the byte strings taken as public keys are the encodings of points; everything else is refused with an error. -/
theorem C66_p384_public_key (L : Libs) (rsa : Bool) (b : Bytes) :
    ((∃ pk, PublicKey.fromBytes (P := L.prims) rsa .ecdsaP384Sha384 b = .ok pk) ↔ ∃ Q, P384.Sec1 Q b) ∧
    ((¬∃ Q, P384.Sec1 Q b) → PublicKey.fromBytes (P := L.prims) rsa .ecdsaP384Sha384 b = .err .parsePublicKey) := by
  have hi := Ec.d_import Ec.p384_full Ec.P384_eq b
  constructor
  · rw [← hi]
    constructor
    · rintro ⟨pk, h⟩; obtain ⟨q, hq, _⟩ := pk_p384_iff.1 h; exact ⟨q, hq⟩
    · rintro ⟨q, hq⟩; exact ⟨_, pk_p384_iff.2 ⟨q, hq, rfl⟩⟩
  · intro hn
    rw [← hi] at hn
    have : Ec.p384.ofSec1 b = none := by
      cases h : Ec.p384.ofSec1 b with
      | none => rfl
      | some q => exact absurd ⟨q, h⟩ hn
    have e : PublicKey.fromBytes (P := L.prims) rsa .ecdsaP384Sha384 b =
        Res.ofOption .parsePublicKey (Ec.p384.ofSec1 b) >>= fun k => .ok (.ecdsaP384Sha384 (P := L.prims) k) := rfl
    rw [e, this]; rfl

theorem pk_p384_inj {L : Libs} (q q' : Ec.Pt) :
    PublicKey.ecdsaP384Sha384 (P := L.prims) q = PublicKey.ecdsaP384Sha384 (P := L.prims) q' ↔ q = q' :=
  ⟨fun h => by injection h, fun h => by rw [h]⟩

/-- C66: keys are equal exactly if the points are, however they were written. -/
theorem C66_p384_same_key (L : Libs) (rsa : Bool) {b b' : Bytes} {pk pk' : PublicKey L.prims} {Q Q' : P384.curve.Point}
    (h : PublicKey.fromBytes rsa .ecdsaP384Sha384 b = .ok pk) (h' : PublicKey.fromBytes rsa .ecdsaP384Sha384 b' = .ok pk')
    (hQ : P384.Sec1 Q b) (hQ' : P384.Sec1 Q' b') : pk = pk' ↔ Q = Q' := by
  obtain ⟨q, hq, rfl⟩ := pk_p384_iff.1 h
  obtain ⟨q', hq', rfl⟩ := pk_p384_iff.1 h'
  exact (pk_p384_inj q q').trans (Ec.d_same Ec.p384_full Ec.P384_eq hQ hQ' hq hq')

theorem sigBytes_p384_length {r s : Nat} {b : Bytes} (h : P384.SigBytes r s b) : b.length = 96 := by
  obtain ⟨x, y, rfl, h1, h2⟩ := h
  rw [List.length_append, h1.1, h2.1]; rfl

theorem verify_p384_len {L : Libs} (q : Ec.Pt) (data sig : Bytes) (Q : P384.curve.Point) (z : Nat)
    (h : verifyRes L.prims.p384 q data sig = .ok () ↔ ∃ r s, P384.SigBytes r s sig ∧ P384.Valid Q z r s) :
    (PublicKey.ecdsaP384Sha384 (P := L.prims) q).verify data sig = .ok () ↔ ∃ r s, P384.SigBytes r s sig ∧ P384.Valid Q z r s := by
  have e : (PublicKey.ecdsaP384Sha384 (P := L.prims) q).verify data sig =
      if sig.length ≠ 96 then .panic else verifyRes L.prims.p384 q data sig := rfl
  rw [e]
  split
  · rename_i hl
    constructor
    · intro e; cases e
    · rintro ⟨r, s, hb, _⟩; exact absurd (sigBytes_p384_length hb) hl
  · exact h

/-- C66: an imported public key accepts exactly the signatures that FIPS 186-4 section 6.4 declares valid for its point. -/
theorem C66_p384_verify (V : Variant 64) (hV : IsSha384 V) (L : Libs) (rsa : Bool) {b : Bytes} {pk : PublicKey L.prims}
    {Q : P384.curve.Point} (h : PublicKey.fromBytes rsa .ecdsaP384Sha384 b = .ok pk) (hQ : P384.Sec1 Q b) (data sig : Bytes)
    (hd : 8 * data.length < 2 ^ 128) :
    pk.verify data sig = .ok () ↔
      ∃ e r s, Digest384 V data e ∧ P384.SigBytes r s sig ∧ P384.Valid Q (beVal e) r s := by
  obtain ⟨q, hq, rfl⟩ := pk_p384_iff.1 h
  rw [verify_p384_len q data sig Q _ (Ec.d_verify Ec.p384_full Ec.P384_eq hQ hq data sig)]
  simp only [C61_sha384 V hV data _ hd]
  exact ⟨fun ⟨r, s, h⟩ => ⟨_, r, s, rfl, h⟩, fun ⟨_, r, s, rfl, h⟩ => ⟨r, s, h⟩⟩

/-- C66: the text of the key id is made from the compressed point. -/
theorem C66_p384_key_id (V : Variant 32) (hV : IsSha256 V) (L : Libs) (rsa : Bool) {b c d : Bytes} {pk : PublicKey L.prims}
    {Q : P384.curve.Point} (h : PublicKey.fromBytes rsa .ecdsaP384Sha384 b = .ok pk) (hQ : P384.Sec1 Q b)
    (hc : P384.Compressed Q c) (hd : Digest V c d) : pk.keyId = Base64.encode d := by
  obtain ⟨q, hq, rfl⟩ := pk_p384_iff.1 h
  have hl : c.length = 48 + 1 := by
    obtain ⟨_, _, _, X, _, rfl, hX, _⟩ := hc
    rw [List.length_cons, hX]; rfl
  rw [C61_sha256 V hV c d (by rw [hl]; decide)] at hd
  rw [hd, (Ec.d_keyId Ec.p384_full Ec.P384_eq hQ hq c).1 hc]
  rfl

theorem sk_p384_iff {L : Libs} {rsa : Bool} {b : Bytes} {sk : SecretKey L.prims} :
    SecretKey.fromBytes rsa .ecdsaP384Sha384 b = .ok sk ↔
      ∃ d : Ec.p384.Scalar, Ec.p384.skOf b = some d ∧ sk = .ecdsaP384Sha384 (P := L.prims) d := by
  have e : SecretKey.fromBytes (P := L.prims) rsa .ecdsaP384Sha384 b = if b.length ≠ 48 then .panic else
      Res.ofOption .parsePrivateKey (Ec.p384.skOf b) >>= fun k => .ok (.ecdsaP384Sha384 (P := L.prims) k) := rfl
  rw [e]
  split
  · rename_i hl
    constructor
    · intro h; cases h
    · rintro ⟨d, hd, _⟩; exact absurd ((Ec.skOf_iff b d).1 hd).1 hl
  · rw [Res.bind_eq_ok]
    simp only [Res.ofOption_eq_ok, Res.ok.injEq]
    exact ⟨fun ⟨q, h, h'⟩ => ⟨q, h, h'.symm⟩, fun ⟨q, h, h'⟩ => ⟨q, h, h'.symm⟩⟩

/-- C66: private keys are the numbers from 1 to `n - 1` at full length. -/
theorem C66_p384_secret_key (L : Libs) (rsa : Bool) (b : Bytes) :
    (∃ sk, SecretKey.fromBytes (P := L.prims) rsa .ecdsaP384Sha384 b = .ok sk) ↔ ∃ d, 0 < d ∧ d < P384.n ∧ Octets P384.len d b := by
  constructor
  · rintro ⟨sk, h⟩
    obtain ⟨d, hd, _⟩ := sk_p384_iff.1 h
    obtain ⟨h1, h2⟩ := (Ec.skOf_iff b d).1 hd
    rw [Ec.P384_eq]
    exact ⟨d.1, d.2.1, d.2.2, h1, h2⟩
  · rintro ⟨d, h0, h1, h2⟩
    rw [Ec.P384_eq] at h1 h2
    exact ⟨_, sk_p384_iff.2 ⟨⟨d, h0, h1⟩, (Ec.skOf_iff b _).2 h2, rfl⟩⟩

/-- C66: a public key belongs to a private key exactly if its point is that multiple of the base point. -/
theorem C66_p384_pair (L : Libs) (rsa rsa' : Bool) {b b' : Bytes} {sk : SecretKey L.prims} {pk : PublicKey L.prims} {Q G : P384.curve.Point}
    (h : SecretKey.fromBytes rsa .ecdsaP384Sha384 b = .ok sk) (h' : PublicKey.fromBytes rsa' .ecdsaP384Sha384 b' = .ok pk)
    (hQ : P384.Sec1 Q b') (hG : P384.IsBase G) : sk.publicKey = pk ↔ Q = beVal b • G := by
  obtain ⟨d, hd, rfl⟩ := sk_p384_iff.1 h
  obtain ⟨q, hq, rfl⟩ := pk_p384_iff.1 h'
  rw [((Ec.skOf_iff b d).1 hd).2, ← Ec.d_pair Ec.p384_full Ec.P384_eq hQ hq hG d.1]
  exact pk_p384_inj _ _

/-- C66: every public key that can be imported belongs to a private key that can be imported. -/
theorem C66_p384_has_secret (L : Libs) (rsa : Bool) {b : Bytes} {pk : PublicKey L.prims}
    (h : PublicKey.fromBytes rsa .ecdsaP384Sha384 b = .ok pk) :
    ∃ b' sk, SecretKey.fromBytes rsa .ecdsaP384Sha384 b' = .ok sk ∧ sk.publicKey = pk := by
  obtain ⟨Q, hQ⟩ := (C66_p384_public_key L rsa b).1.1 ⟨pk, h⟩
  obtain ⟨G, hG, _⟩ := C66_p384_group
  obtain ⟨d, h0, hn, he⟩ := Ec.d_secret Ec.p384_full Ec.P384_eq hQ hG
  have hnl : P384.n ≤ 256 ^ P384.len := by rw [Ec.P384_eq]; exact Ec.p384_full.nlen
  have hl : d < 256 ^ P384.len := lt_of_lt_of_le hn hnl
  have ho := Ec.octets_beBytes hl
  obtain ⟨sk, hsk⟩ := (C66_p384_secret_key L rsa _).2 ⟨d, h0, hn, ho⟩
  refine ⟨_, sk, hsk, (C66_p384_pair L rsa rsa hsk h hQ hG).2 ?_⟩
  rw [ho.2]; exact he

/-- C66: what is signed solves the equations of FIPS 186-4 section 6.3 for the digest of the data. -/
theorem C66_p384_sign (V : Variant 64) (hV : IsSha384 V) (L : Libs) (rsa : Bool) {b : Bytes} {sk : SecretKey L.prims}
    (h : SecretKey.fromBytes rsa .ecdsaP384Sha384 b = .ok sk) {rnd data sig : Bytes} (hd : 8 * data.length < 2 ^ 128)
    (hs : sk.sign rnd data = .ok sig) :
    ∃ e k r s, Digest384 V data e ∧ P384.SigBytes r s sig ∧ P384.Signs (beVal b) k (beVal e) r s := by
  obtain ⟨d, hb, rfl⟩ := sk_p384_iff.1 h
  obtain ⟨k, r, s, h1, h2⟩ := Ec.d_sign Ec.p384_full Ec.P384_eq L.nonce384_range (signRes_iff.1 hs)
  rw [← ((Ec.skOf_iff b d).1 hb).2] at h2
  exact ⟨_, k, r, s, (C61_sha384 V hV data _ hd).2 rfl, h1, h2⟩

/-- C66: what a key signs, its public key accepts. -/
theorem C66_p384_sign_verify (L : Libs) (d : L.prims.p384.SK) (rnd : Bytes) :
    KeyPair ((SecretKey.ecdsaP384Sha384 d).signing rnd) (SecretKey.ecdsaP384Sha384 d).publicKey.verifying := by
  intro data sig hs
  obtain ⟨G, hG, _⟩ := C66_p384_group
  obtain ⟨k, r, s, h1, h2⟩ := Ec.d_sign Ec.p384_full Ec.P384_eq L.nonce384_range (signRes_iff.1 hs)
  exact (verify_p384_len _ data sig _ _ (Ec.d_sk_verify Ec.p384_full Ec.P384_eq hG d data sig)).2
    ⟨r, s, h1, Ec.d_signs_valid Ec.p384_full Ec.P384_eq hG h2⟩

/-- C66: beside every accepted signature `(r, s)` the different signature `(r, n - s)` is accepted, so a signature does not
identify a message uniquely (neither the crate nor the library asks for the smaller `s`). -/
theorem C66_p384_second_signature (L : Libs) (rsa : Bool) {b : Bytes} {pk : PublicKey L.prims}
    (h : PublicKey.fromBytes rsa .ecdsaP384Sha384 b = .ok pk) {data sig : Bytes} (hv : pk.verify data sig = .ok ()) :
    ∃ sig', sig' ≠ sig ∧ sig'.take 48 = sig.take 48 ∧ beVal (sig'.drop 48) + beVal (sig.drop 48) = P384.n ∧
      pk.verify data sig' = .ok () := by
  obtain ⟨Q, hQ⟩ := (C66_p384_public_key L rsa b).1.1 ⟨pk, h⟩
  obtain ⟨q, hq, rfl⟩ := pk_p384_iff.1 h
  have iff := fun s => verify_p384_len q data s Q _ (Ec.d_verify Ec.p384_full Ec.P384_eq hQ hq data s (nonce := L.nonce384))
  obtain ⟨r, s, ⟨x, y, rfl, hx, hy⟩, hval⟩ := (iff sig).1 hv
  have hs := hval.2.1
  have hnl : P384.n ≤ 256 ^ 48 := by rw [Ec.P384_eq]; exact Ec.p384_full.nlen
  have ho : Octets P384.len (P384.n - s) (beBytes P384.len (P384.n - s)) :=
    Ec.octets_beBytes (show P384.n - s < 256 ^ 48 by omega)
  have hval' := Ec.d_neg Ec.p384_full Ec.P384_eq hval
  have e1 : ∀ z : Bytes, (x ++ z).take 48 = x := fun z => List.take_left' hx.1
  have e2 : ∀ z : Bytes, (x ++ z).drop 48 = z := fun z => List.drop_left' hx.1
  refine ⟨x ++ beBytes P384.len (P384.n - s), ?_, ?_, ?_, (iff _).2 ⟨r, P384.n - s, ⟨x, _, rfl, hx, ho⟩, hval'⟩⟩
  · intro he
    have he := List.append_cancel_left he
    have hv1 := ho.2
    rw [he, hy.2] at hv1
    have hodd : P384.n % 2 = 1 := by decide +kernel
    omega
  · rw [e1, e1]
  · rw [e2, e2, ho.2, hy.2]; omega

/-! ### Concrete cases -/

/-- Libraries whose nonce is always 1. -/
def libsOne : Libs where
  nonce256 _ _ _ := some 1
  nonce384 _ _ _ := some 1
  nonce256_range := by rintro _ _ _ _ ⟨⟩; decide +kernel
  nonce384_range := by rintro _ _ _ _ ⟨⟩; decide +kernel
  ed := Ed.rfc8032
  rsa := Rsa.lib

/-- The base point of P-256 as bytes, uncompressed. -/
def base256 : Bytes := 4 :: beBytes 32 P256.gx ++ beBytes 32 P256.gy

theorem base256_key : PublicKey.fromBytes (P := libsOne.prims) true .ecdsaP256Sha256 base256 =
    .ok (.ecdsaP256Sha256 (P := libsOne.prims) Ec.p256.g) :=
  pk_p256_iff.2 ⟨_, by decide +kernel, rfl⟩

theorem base256_sec1 : ∃ Q, P256.IsBase Q ∧ P256.Uncompressed Q base256 := by
  obtain ⟨G, hG, _⟩ := C66_p256_group
  refine ⟨G, hG, ?_⟩
  obtain ⟨h, rfl⟩ := hG
  refine ⟨_, _, h, _, _, rfl, rfl, ?_, ?_⟩
  · rw [ZMod.val_natCast_of_lt (by decide +kernel)]; exact Ec.octets_beBytes (by decide +kernel)
  · rw [ZMod.val_natCast_of_lt (by decide +kernel)]; exact Ec.octets_beBytes (by decide +kernel)

/-- C66: the comment at asymmetric.rs 404-407 promises the hash of the uncompressed point as key id of ECDSA keys. The code
(412-413) hashes the compressed point, and the two differ. -/
theorem C66_key_id_not_as_documented : ∃ (b : Bytes) (pk : PublicKey libsOne.prims) (Q : P256.curve.Point),
    PublicKey.fromBytes true .ecdsaP256Sha256 b = .ok pk ∧ P256.Uncompressed Q b ∧ pk.keyId ≠ Base64.encode (sha256 b) := by
  obtain ⟨Q, _, hQ⟩ := base256_sec1
  exact ⟨_, _, Q, base256_key, hQ, by decide +kernel⟩

-- the same point, compressed: equal keys, the key id below
example : PublicKey.fromBytes (P := libsOne.prims) true .ecdsaP256Sha256 (3 :: beBytes 32 P256.gx) =
    .ok (.ecdsaP256Sha256 (P := libsOne.prims) Ec.p256.g) :=
  pk_p256_iff.2 ⟨_, by decide +kernel, rfl⟩
example : (PublicKey.ecdsaP256Sha256 (P := libsOne.prims) Ec.p256.g).keyId = c! "W6/4nefeXB17YZOhVnzu6zl8vaiPA/clyN4yhZG/wZQ=" := by
  decide +kernel
example : (PublicKey.ecdsaP384Sha384 (P := libsOne.prims) Ec.p384.g).keyId = c! "YX6O/Hsclvwio/hd57i+So9v7ZU3ODKds5TQCFMOb3s=" := by
  decide +kernel

-- no points: a wrong ordinate, a wrong length, infinity, hybrid form
example : ∀ b ∈ [4 :: beBytes 32 P256.gx ++ beBytes 32 (P256.gy + 1), 3 :: beBytes 31 P256.gx, [0], 7 :: beBytes 32 P256.gx ++ beBytes 32 P256.gy],
    Ec.p256.ofSec1 b = none := by decide +kernel

/-- The private key 1. -/
def one256 : SecretKey libsOne.prims := .ecdsaP256Sha256 (P := libsOne.prims) ⟨1, by decide, by decide +kernel⟩

theorem one256_key : SecretKey.fromBytes true .ecdsaP256Sha256 (beBytes 32 1) = .ok one256 :=
  sk_p256_iff.2 ⟨_, by decide +kernel, rfl⟩

-- private keys out of range
example : (∀ b ∈ [beBytes 32 0, beBytes 32 P256.n], Ec.p256.skOf b = none) ∧ (Ec.p256.skOf (beBytes 32 (P256.n - 1))).isSome := by
  decide +kernel

/-- Its signature of "abc": the abscissa of the base point, and the digest plus that. -/
def sig256 : Bytes :=
    [107, 23, 209, 242, 225, 44, 66, 71, 248, 188, 230, 229, 99, 164, 64, 242, 119, 3, 125, 129, 45, 235, 51, 160, 244, 161, 57, 69,
      216, 152, 194, 150, 37, 143, 232, 179, 112, 46, 18, 49, 57, 254, 39, 195, 193, 82, 99, 22, 106, 31, 228, 119, 28, 235, 15, 184, 180,
      248, 109, 228, 206, 53, 178, 242]

theorem one256_sign : one256.sign [] [97, 98, 99] = .ok sig256 := by decide +kernel

theorem one256_public : one256.publicKey = .ecdsaP256Sha256 (P := libsOne.prims) Ec.p256.g :=
  congrArg (PublicKey.ecdsaP256Sha256 (P := libsOne.prims)) (show Ec.p256.smul 1 Ec.p256.g = Ec.p256.g by decide +kernel)

-- it verifies with the public key of base256, and so does another one
example : ∃ sig, (PublicKey.ecdsaP256Sha256 (P := libsOne.prims) Ec.p256.g).verify [97, 98, 99] sig = .ok () ∧
    ∃ sig', sig' ≠ sig ∧ (PublicKey.ecdsaP256Sha256 (P := libsOne.prims) Ec.p256.g).verify [97, 98, 99] sig' = .ok () := by
  have hk : KeyPair (one256.signing []) one256.publicKey.verifying := C66_p256_sign_verify libsOne _ []
  have hs : (one256.signing []).sign [97, 98, 99] = .ok sig256 := by simp only [SecretKey.signing]; exact one256_sign
  have hv := hk [97, 98, 99] sig256 hs
  simp only [PublicKey.verifying] at hv
  rw [one256_public] at hv
  obtain ⟨s', h1, _, _, h2⟩ := C66_p256_second_signature libsOne true base256_key hv
  exact ⟨_, hv, s', h1, h2⟩

/-- The same for P-384. -/
def one384 : SecretKey libsOne.prims := .ecdsaP384Sha384 (P := libsOne.prims) ⟨1, by decide, by decide +kernel⟩

theorem one384_key : SecretKey.fromBytes true .ecdsaP384Sha384 (beBytes 48 1) = .ok one384 :=
  sk_p384_iff.2 ⟨_, by decide +kernel, rfl⟩

theorem one384_sign : one384.sign [] [97, 98, 99] =
    .ok [170, 135, 202, 34, 190, 139, 5, 55, 142, 177, 199, 30, 243, 32, 173, 116, 110, 29, 59, 98, 139, 167, 155, 152, 89, 247, 65, 224,
      130, 84, 42, 56, 85, 2, 242, 93, 191, 85, 41, 108, 58, 84, 94, 56, 114, 118, 10, 183, 117, 136, 63, 98, 4, 46, 99, 195, 68, 82, 4, 136,
      141, 230, 253, 123, 149, 73, 110, 13, 154, 134, 108, 251, 173, 31, 84, 184, 210, 28, 88, 70, 125, 110, 235, 215, 24, 140, 78, 20, 166,
      35, 49, 110, 218, 121, 6, 235] := by decide +kernel

example : PublicKey.fromBytes (P := libsOne.prims) true .ecdsaP384Sha384 (4 :: beBytes 48 P384.gx ++ beBytes 48 P384.gy) = .ok one384.publicKey :=
  pk_p384_iff.2 ⟨Ec.p384.g, by decide +kernel,
    congrArg (PublicKey.ecdsaP384Sha384 (P := libsOne.prims)) (show Ec.p384.smul 1 Ec.p384.g = Ec.p384.g by decide +kernel)⟩

end Verif
