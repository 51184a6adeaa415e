import Verif.Model.Rfc6979
import Verif.Proofs.Rfc6979
import Verif.Props.C66
/-!
C78 The nonces of ECDSA signatures are those of RFC 6979, and what happens to a key whose nonce is used twice.
-/
namespace Verif
open Spec Spec.Sha Spec.Ecdsa Spec.Rfc6979 Sha2

theorem hmac_short (V : Variant 32) (hV : IsSha256 V) (k t tag : Bytes) (hk : k.length = 32) (ht : t.length ≤ 3 * 32 + 1) :
    Spec.Sha.Hmac V k t tag ↔ tag = hmac k t := C61_hmac V hV k t tag (by omega) (by omega)

theorem hmac_length (k t : Bytes) : (hmac k t).length = 32 := by unfold hmac; exact S256.sha_length _

theorem hmac384_length (k t : Bytes) : (hmacOf sha384 128 k t).length = 48 := by unfold hmacOf; exact S384.sha_length _

theorem hmac384_short (V : Variant 64) (hV : IsSha384 V) (k t tag : Bytes) (hk : k.length = 48) (ht : t.length ≤ 3 * 48 + 1) :
    Hmac384 V k t tag ↔ tag = hmacOf sha384 128 k t := Ec.hmac384_iff V hV k t tag (by omega) (by omega)

theorem nonce384_iff (V : Variant 64) (hV : IsSha384 V) (d : Ec.p384.Scalar) (h1 : Bytes) (k : Nat) :
    Ec.p384.nonce (hmacOf sha384 128) d.1 h1 = some k ↔ ∃ i, i < 1000 ∧ Nonce Ec.p384.dom (Hmac384 V) d.1 h1 i k :=
  Ec.nonce_iff (C := Ec.p384) (mac := hmacOf sha384 128) (M := Hmac384 V) Ec.p384_full (fun k t tag => hmac384_short V hV k t tag)
    (fun k t => hmac384_length k t) d.2.2 h1 k

/-- C78: a signature over P-256 is made with the nonce of RFC 6979 for the key and the digest of the data, and there is no other.
The model looks at 1000 candidates; each is out of range with probability below 2⁻³². -/
theorem C78_p256_sign (V : Variant 32) (hV : IsSha256 V) (L : Libs) (rsa : Bool) {b : Bytes} {sk : SecretKey L.rfc6979.prims}
    (h : SecretKey.fromBytes rsa .ecdsaP256Sha256 b = .ok sk) (rnd data sig : Bytes) (hd : 8 * data.length < 2 ^ 64) :
    sk.sign rnd data = .ok sig ↔ ∃ e i k r s, Digest V data e ∧ i < 1000 ∧ Nonce P256 (Spec.Sha.Hmac V) (beVal b) e i k ∧
      P256.SigBytes r s sig ∧ P256.Signs (beVal b) k (beVal e) r s := by
  obtain ⟨d, hb, rfl⟩ := sk_p256_iff.1 h
  have hbd := ((Ec.skOf_iff b d).1 hb).2
  have e : (SecretKey.ecdsaP256Sha256 (P := L.rfc6979.prims) d).sign rnd data =
      signRes ((Ec.ecdsaWith Ec.p256 sha256 L.rfc6979.nonce256).sign rnd d data) := rfl
  rw [e, signRes_iff, Ec.d_sign_iff Ec.p256_full Ec.P256_eq L.rfc6979.nonce256_range, hbd]
  have hn : ∀ k, L.rfc6979.nonce256 rnd d.1 (sha256 data) = some k ↔ ∃ i, i < 1000 ∧ Nonce P256 (Spec.Sha.Hmac V) d.1 (sha256 data) i k := by
    intro k
    rw [Ec.P256_eq]
    exact Ec.nonce_iff Ec.p256_full (hmac_short V hV) hmac_length d.2.2 _ k
  simp only [hn, C61_sha256 V hV data _ hd]
  constructor
  · rintro ⟨k, r, s, ⟨i, hi, h1⟩, h2, h3⟩
    exact ⟨_, i, k, r, s, rfl, hi, h1, h2, h3⟩
  · rintro ⟨_, i, k, r, s, rfl, hi, h1, h2, h3⟩
    exact ⟨k, r, s, ⟨i, hi, h1⟩, h2, h3⟩

/-- C78: the same for P-384 with SHA-384. -/
theorem C78_p384_sign (V : Variant 64) (hV : IsSha384 V) (L : Libs) (rsa : Bool) {b : Bytes} {sk : SecretKey L.rfc6979.prims}
    (h : SecretKey.fromBytes rsa .ecdsaP384Sha384 b = .ok sk) (rnd data sig : Bytes) (hd : 8 * data.length < 2 ^ 128) :
    sk.sign rnd data = .ok sig ↔ ∃ e i k r s, Digest384 V data e ∧ i < 1000 ∧ Nonce P384 (Hmac384 V) (beVal b) e i k ∧
      P384.SigBytes r s sig ∧ P384.Signs (beVal b) k (beVal e) r s := by
  obtain ⟨d, hb, rfl⟩ := sk_p384_iff.1 h
  have hbd := ((Ec.skOf_iff b d).1 hb).2
  have e : (SecretKey.ecdsaP384Sha384 (P := L.rfc6979.prims) d).sign rnd data =
      signRes ((Ec.ecdsaWith Ec.p384 sha384 L.rfc6979.nonce384).sign rnd d data) := rfl
  rw [e, signRes_iff, Ec.d_sign_iff Ec.p384_full Ec.P384_eq L.rfc6979.nonce384_range, hbd]
  have hn : ∀ k, L.rfc6979.nonce384 rnd d.1 (sha384 data) = some k ↔ ∃ i, i < 1000 ∧ Nonce P384 (Hmac384 V) d.1 (sha384 data) i k := by
    intro k
    rw [Ec.P384_eq]
    rw [← nonce384_iff V hV d (sha384 data) k]
    simp only [Libs.rfc6979]
  simp only [hn, C61_sha384 V hV data _ hd]
  constructor
  · rintro ⟨k, r, s, ⟨i, hi, h1⟩, h2, h3⟩
    exact ⟨_, i, k, r, s, rfl, hi, h1, h2, h3⟩
  · rintro ⟨_, i, k, r, s, rfl, hi, h1, h2, h3⟩
    exact ⟨k, r, s, ⟨i, hi, h1⟩, h2, h3⟩

theorem sign_eq {C : Ec.Curve} {hash : Bytes → Bytes} {nonce : Bytes → Nat → Bytes → Option Nat} (rnd : Bytes) (d : C.Scalar) (m : Bytes) :
    (Ec.ecdsaWith C hash nonce).sign rnd d m = match nonce rnd d.1 (hash m) with
      | none => none
      | some k => (C.signWith k (beNat (hash m)) d.1).map fun rs => beBytes C.len rs.1 ++ beBytes C.len rs.2 := rfl

theorem sign_rnd {C : Ec.Curve} {hash : Bytes → Bytes} {nonce : Bytes → Nat → Bytes → Option Nat} {rnd rnd' : Bytes} (h : nonce rnd = nonce rnd')
    (d : C.Scalar) (m : Bytes) : (Ec.ecdsaWith C hash nonce).sign rnd d m = (Ec.ecdsaWith C hash nonce).sign rnd' d m := by
  simp only [Ec.ecdsaWith, h]

theorem sign_p256 (L : Libs) (d : Ec.p256.Scalar) (rnd data : Bytes) : (SecretKey.ecdsaP256Sha256 (P := L.prims) d).sign rnd data =
    signRes ((Ec.ecdsaWith Ec.p256 sha256 L.nonce256).sign rnd d data) := rfl

theorem sign_p384 (L : Libs) (d : Ec.p384.Scalar) (rnd data : Bytes) : (SecretKey.ecdsaP384Sha384 (P := L.prims) d).sign rnd data =
    signRes ((Ec.ecdsaWith Ec.p384 sha384 L.nonce384).sign rnd d data) := rfl

theorem nonce256_rnd (L : Libs) (rnd rnd' : Bytes) : L.rfc6979.nonce256 rnd = L.rfc6979.nonce256 rnd' := by simp only [Libs.rfc6979]

theorem nonce384_rnd (L : Libs) (rnd rnd' : Bytes) : L.rfc6979.nonce384 rnd = L.rfc6979.nonce384 rnd' := by simp only [Libs.rfc6979]

/-- C78: the randomness of the call does not enter an ECDSA signature: signing the same data again gives the same bytes. -/
theorem C78_deterministic (L : Libs) (rsa : Bool) (alg : Alg) (halg : alg = .ecdsaP256Sha256 ∨ alg = .ecdsaP384Sha384) {b : Bytes}
    {sk : SecretKey L.rfc6979.prims} (h : SecretKey.fromBytes rsa alg b = .ok sk) (rnd rnd' data : Bytes) :
    sk.sign rnd data = sk.sign rnd' data := by
  rcases halg with rfl | rfl
  · obtain ⟨d, _, rfl⟩ := sk_p256_iff.1 h
    rw [sign_p256, sign_p256, sign_rnd (rnd := rnd) (rnd' := rnd') (nonce256_rnd L rnd rnd')]
  · obtain ⟨d, _, rfl⟩ := sk_p384_iff.1 h
    rw [sign_p384, sign_p384, sign_rnd (rnd := rnd) (rnd' := rnd') (nonce384_rnd L rnd rnd')]

/-- C78: why the nonce has to depend on the data. Two signatures for different digests made with one nonce show it (they have the same
`r`), and the private key is then the only solution of a linear equation of public numbers. -/
theorem C78_p256_reuse {d k z z' r r' s s' : Nat} (h : P256.Signs d k z r s) (h' : P256.Signs d k z' r' s') (hd : d < P256.n)
    (hz : z % P256.n ≠ z' % P256.n) : r = r' ∧ ∀ x, x < P256.n →
      ((x : ZMod P256.n) * (r * ((s' : ZMod P256.n) - s)) = s * z' - s' * z ↔ x = d) :=
  Ec.signs_reuse (by rw [Ec.P256_eq]; exact Ec.p256_full.nprime) h h' hd hz

theorem C78_p384_reuse {d k z z' r r' s s' : Nat} (h : P384.Signs d k z r s) (h' : P384.Signs d k z' r' s') (hd : d < P384.n)
    (hz : z % P384.n ≠ z' % P384.n) : r = r' ∧ ∀ x, x < P384.n →
      ((x : ZMod P384.n) * (r * ((s' : ZMod P384.n) - s)) = s * z' - s' * z ↔ x = d) :=
  Ec.signs_reuse (by rw [Ec.P384_eq]; exact Ec.p384_full.nprime) h h' hd hz

/-! ### Examples: the test vectors of RFC 6979 sections A.2.5 and A.2.6 for the message "sample" -/

/-- "sample" -/
def sample : Bytes := [115, 97, 109, 112, 108, 101]

def rfc256 : Ec.p256.Scalar := ⟨0xC9AFA9D845BA75166B5C215767B1D6934E50C3DB36E89B127B8A622B120F6721, by decide +kernel⟩

theorem rfc256_digest : sha256 sample = beBytes 32 0xaf2bdbe1aa9b6ec1e2ade1d694f41fc71a831d0268e9891562113d8a62add1bf := by decide +kernel
theorem rfc256_k1 : hmac (List.replicate Ec.p256.len 0) (List.replicate Ec.p256.len 1 ++ [0] ++ (beBytes Ec.p256.len rfc256.1 ++
    beBytes Ec.p256.len (beNat (beBytes 32 0xaf2bdbe1aa9b6ec1e2ade1d694f41fc71a831d0268e9891562113d8a62add1bf) % Ec.p256.n))) =
    beBytes 32 0x122db1de98dae4dfa33f2da8e98494c80bff807b479fd79261b37e25f267ee58 := by decide +kernel
theorem rfc256_v1 : hmac (beBytes 32 0x122db1de98dae4dfa33f2da8e98494c80bff807b479fd79261b37e25f267ee58) (List.replicate Ec.p256.len 1) =
    beBytes 32 0xc9947803a747fc60c23535fdcc13b5ca566b48221ca67d4964d22daa48275844 := by decide +kernel
theorem rfc256_k2 : hmac (beBytes 32 0x122db1de98dae4dfa33f2da8e98494c80bff807b479fd79261b37e25f267ee58)
    (beBytes 32 0xc9947803a747fc60c23535fdcc13b5ca566b48221ca67d4964d22daa48275844 ++ [1] ++ (beBytes Ec.p256.len rfc256.1 ++
    beBytes Ec.p256.len (beNat (beBytes 32 0xaf2bdbe1aa9b6ec1e2ade1d694f41fc71a831d0268e9891562113d8a62add1bf) % Ec.p256.n))) =
    beBytes 32 0xb6d4f98ebae70aa15a2238ade4e20ab323fc1e777d22f0c582d8ef2e6ba73569 := by decide +kernel
theorem rfc256_v2 : hmac (beBytes 32 0xb6d4f98ebae70aa15a2238ade4e20ab323fc1e777d22f0c582d8ef2e6ba73569)
    (beBytes 32 0xc9947803a747fc60c23535fdcc13b5ca566b48221ca67d4964d22daa48275844) =
    beBytes 32 0xbae57fe256de2de806b10635497237e7bae96754582566384c47c6c3416494d1 := by decide +kernel
theorem rfc256_t : hmac (beBytes 32 0xb6d4f98ebae70aa15a2238ade4e20ab323fc1e777d22f0c582d8ef2e6ba73569)
    (beBytes 32 0xbae57fe256de2de806b10635497237e7bae96754582566384c47c6c3416494d1) =
    beBytes 32 0xA6E3C57DD01ABE90086538398355DD4C3B17AA873382B0F24D6129493D8AAD60 := by decide +kernel

theorem rfc256_nonce : Ec.p256.nonce hmac rfc256.1 (sha256 sample) =
    some 0xA6E3C57DD01ABE90086538398355DD4C3B17AA873382B0F24D6129493D8AAD60 := by
  unfold Ec.Curve.nonce
  rw [rfc256_digest]
  simp only [rfc256_k1, rfc256_v1, rfc256_k2, rfc256_v2]
  show Ec.nonceLoop hmac _ (999 + 1) _ _ = _
  rw [Ec.nonceLoop]
  simp only [rfc256_t]
  decide +kernel

theorem rfc256_point : Ec.smulI (Ec.inv' Ec.p256.p) Ec.p256 (Nat.log2 0xA6E3C57DD01ABE90086538398355DD4C3B17AA873382B0F24D6129493D8AAD60 + 1)
    0xA6E3C57DD01ABE90086538398355DD4C3B17AA873382B0F24D6129493D8AAD60 Ec.p256.g .inf =
    .aff 0xEFD48B2AACB6A8FD1140DD9CD45E81D69D2C877B56AAF991C34D0EA84EAF3716 23816927082762815370282769170926222301915909407297503829989736095857061655698 := by decide +kernel

theorem rfc256_sign : (SecretKey.ecdsaP256Sha256 (P := libsOne.rfc6979.prims) rfc256).sign [] sample =
    .ok (beBytes 32 0xEFD48B2AACB6A8FD1140DD9CD45E81D69D2C877B56AAF991C34D0EA84EAF3716 ++
      beBytes 32 0xF7CB1C942D657C41D436C7A1B6E29F65F3E900DBB9AFF4064DC4AB2F843ACDA8) := by
  have hn : libsOne.rfc6979.nonce256 [] rfc256.1 (sha256 sample) =
      some 0xA6E3C57DD01ABE90086538398355DD4C3B17AA873382B0F24D6129493D8AAD60 := by
    simp only [Libs.rfc6979]; exact rfc256_nonce
  rw [sign_p256, sign_eq, hn, rfc256_digest]
  simp only [Ec.Curve.signWith]
  rw [Ec.smul_fast Ec.p256_good.prime (by decide +kernel), rfc256_point, ← Ec.inv'_eq Ec.p256_good.nprime (by decide +kernel)]
  decide +kernel

theorem rfc256_key : SecretKey.fromBytes true .ecdsaP256Sha256 (beBytes 32 rfc256.1) =
    .ok (SecretKey.ecdsaP256Sha256 (P := libsOne.rfc6979.prims) rfc256) := sk_p256_iff.2 ⟨_, by decide +kernel, rfl⟩

/-- So the nonce of the standard exists for this key and digest. -/
example (V : Variant 32) (hV : IsSha256 V) : ∃ e i k, Digest V sample e ∧ Nonce P256 (Spec.Sha.Hmac V) rfc256.1 e i k := by
  obtain ⟨e, i, k, _, _, h1, _, h2, _⟩ := (C78_p256_sign V hV libsOne true rfc256_key [] sample _ (by decide)).1 rfc256_sign
  rw [show beVal (beBytes 32 rfc256.1) = rfc256.1 by decide +kernel] at h2
  exact ⟨e, i, k, h1, h2⟩

-- evaluated, not proved: the vector for P-384
#guard Ec.p384.nonce (hmacOf sha384 128) 0x6B9D3DAD2E1B8C1C05B19875B6659F4DE23C3B667BF297BA9AA47740787137D896D5724E4C70A825F872C9EA60D2EDF5
    (sha384 sample) = some 0x94ED910D1A099DAD3254E9242AE85ABDE4BA15168EAF0CA87A555FD56D10FBCA2907E3E83BA95368623B8C4686915CF9

/-- Two signatures with the nonce 1: the library of C66 that always takes this nonce gives its keys away. -/
example : ∃ r s s', P256.Signs 1 1 5 r s ∧ P256.Signs 1 1 6 r s' ∧ 5 % P256.n ≠ 6 % P256.n := by
  have h1 : Ec.p256.signWith 1 5 1 = some (48439561293906451759052585252797914202762949526041747995844080717082404635286,
    48439561293906451759052585252797914202762949526041747995844080717082404635291) := by decide +kernel
  have h2 : Ec.p256.signWith 1 6 1 = some (48439561293906451759052585252797914202762949526041747995844080717082404635286,
    48439561293906451759052585252797914202762949526041747995844080717082404635292) := by decide +kernel
  refine ⟨48439561293906451759052585252797914202762949526041747995844080717082404635286,
    48439561293906451759052585252797914202762949526041747995844080717082404635291,
    48439561293906451759052585252797914202762949526041747995844080717082404635292, ?_, ?_, by decide +kernel⟩
  · exact (Ec.d_signs_iff Ec.p256_full Ec.P256_eq (by decide +kernel) _ _ _ _).1 h1
  · exact (Ec.d_signs_iff Ec.p256_full Ec.P256_eq (by decide +kernel) _ _ _ _).1 h2

end Verif
