import Verif.Props.C04
import Verif.Props.C39
import Verif.Props.C65
import Verif.Props.C69
/-!
C70: the whole way, from a key file and the bytes of a message to acceptance and back. Nothing is assumed of the cryptography: a
signature is what the standard of its algorithm says. The theorems hold for all choices in `Libs`.
-/
namespace Verif
open Spec Spec.Sha Spec.Ecdsa Sha2

set_option exponentiation.threshold 400

/-! ### Keys and signatures of the standards -/

/-- A key to check signatures with: a secret, a point of a curve, 32 bytes, or modulus and exponent. -/
inductive StdKey where
  | hmac (k : Bytes)
  | p256 (Q : P256.curve.Point)
  | p384 (Q : P384.curve.Point)
  | ed25519 (pk : Bytes)
  | rsa15 (n e : Nat)
  | rsaPss (n e : Nat)

/-- The hash functions of FIPS 180-4. -/
structure Hashes where
  sha256 : Variant 32
  sha384 : Variant 64
  sha512 : Variant 64
  is256 : IsSha256 sha256
  is384 : IsSha384 sha384
  is512 : IsSha512 sha512

/-- `sig` is a signature of `m` for the key. -/
def Genuine (H : Hashes) (L : Libs) : StdKey → (m sig : Bytes) → Prop
  | .hmac k, m, sig => Hmac H.sha256 k m sig
  | .p256 Q, m, sig => ∃ e r s, Digest H.sha256 m e ∧ P256.SigBytes r s sig ∧ P256.Valid Q (beVal e) r s
  | .p384 Q, m, sig => ∃ e r s, Digest384 H.sha384 m e ∧ P384.SigBytes r s sig ∧ P384.Valid Q (beVal e) r s
  | .ed25519 pk, m, sig =>
    Eddsa.Accepts (q := Eddsa.q25519) L.ed.canonicalY L.ed.canonicalX L.ed.rejectWeak L.ed.cofactored H.sha512 pk m sig
  | .rsa15 n e, m, sig => Rsa.Verifies15 H.sha256 L.rsa.sigLen n e m sig
  | .rsaPss n e, m, sig => Rsa.VerifiesPss H.sha512 L.rsa.sigLen L.rsa.topByte n e m sig

/-- The bytes of a public key, by algorithm. -/
inductive Holds (L : Libs) : Alg → Bytes → StdKey → Prop where
  | p256 {b Q} : P256.Sec1 Q b → Holds L .ecdsaP256Sha256 b (.p256 Q)
  | p384 {b Q} : P384.Sec1 Q b → Holds L .ecdsaP384Sha384 b (.p384 Q)
  | ed25519 {b} : b.length = 32 → Holds L .ed25519 b (.ed25519 b)
  | rsa15 {b n e} : RsaPublicFile L.rsa.der n e b → L.rsa.okPub ⟨n, e⟩ = true → Holds L .rsaV15Sha256 b (.rsa15 n e)
  | rsaPss {b n e} : RsaPublicFile L.rsa.der n e b → L.rsa.okPub ⟨n, e⟩ = true → Holds L .rsaPssSha512 b (.rsaPss n e)

/-- Signatures on which the verifying key panics: ECDSA signatures of a wrong length. -/
def WrongLength : StdKey → Bytes → Prop
  | .p256 _, sig => sig.length ≠ 64
  | .p384 _, sig => sig.length ≠ 96
  | _, _ => False

/-- A verifying key does what the standard says for `K`. The bound is that of SHA-256 on the length of its input. -/
def Follows (H : Hashes) (L : Libs) (K : StdKey) (vk : VerifyingKey) : Prop :=
  ∀ data sig, 8 * (64 + data.length) < 2 ^ 64 →
    (vk.verify data sig = .ok () ↔ Genuine H L K data sig) ∧ (vk.verify data sig = .panic ↔ WrongLength K sig)

theorem verifyRes_ne_panic (S : Scheme) (pk : S.PK) (d s : Bytes) : verifyRes S pk d s ≠ .panic := by
  unfold verifyRes
  split
  · simp
  · split <;> simp

/-- C70: which bytes are imported as a public key. -/
theorem C70_import (L : Libs) (rsa : Bool) (alg : Alg) (b : Bytes) :
    (∃ pk, PublicKey.fromBytes (P := L.prims) rsa alg b = .ok pk) ↔ (IsRsa alg → rsa = true) ∧ ∃ K, Holds L alg b K := by
  have nr : ∀ {a : Alg}, a ≠ .rsaV15Sha256 → a ≠ .rsaPssSha512 → (IsRsa a → rsa = true) := fun h1 h2 h => (h.elim h1 h2).elim
  cases alg with
  | ecdsaP256Sha256 =>
    rw [(C66_p256_public_key L rsa b).1]
    exact ⟨fun ⟨Q, h⟩ => ⟨nr (by simp) (by simp), _, .p256 h⟩, fun ⟨_, K, h⟩ => by cases h with | p256 h => exact ⟨_, h⟩⟩
  | ecdsaP384Sha384 =>
    rw [(C66_p384_public_key L rsa b).1]
    exact ⟨fun ⟨Q, h⟩ => ⟨nr (by simp) (by simp), _, .p384 h⟩, fun ⟨_, K, h⟩ => by cases h with | p384 h => exact ⟨_, h⟩⟩
  | ed25519 =>
    rw [(C67_public_key L rsa b).1]
    exact ⟨fun h => ⟨nr (by simp) (by simp), _, .ed25519 h⟩, fun ⟨_, K, h⟩ => by cases h with | ed25519 h => exact h⟩
  | rsaV15Sha256 =>
    rw [(C69_public_key L rsa (Or.inl rfl) b).1]
    exact ⟨fun ⟨h1, n, e, h2, h3⟩ => ⟨fun _ => h1, _, .rsa15 h2 h3⟩,
      fun ⟨h1, K, h⟩ => by cases h with | rsa15 h2 h3 => exact ⟨h1 (Or.inl rfl), _, _, h2, h3⟩⟩
  | rsaPssSha512 =>
    rw [(C69_public_key L rsa (Or.inr rfl) b).1]
    exact ⟨fun ⟨h1, n, e, h2, h3⟩ => ⟨fun _ => h1, _, .rsaPss h2 h3⟩,
      fun ⟨h1, K, h⟩ => by cases h with | rsaPss h2 h3 => exact ⟨h1 (Or.inr rfl), _, _, h2, h3⟩⟩
  | hmacSha256 =>
    constructor
    · rintro ⟨pk, h⟩; cases h
    · rintro ⟨_, K, h⟩; cases h

/-- C70: an imported public key accepts the signatures of the standard for the key in its bytes, and panics on ECDSA signatures of
another length only. -/
theorem C70_follows (H : Hashes) (L : Libs) (rsa : Bool) {alg : Alg} {b : Bytes} {pk : PublicKey L.prims} {K : StdKey}
    (h : PublicKey.fromBytes rsa alg b = .ok pk) (hK : Holds L alg b K) : Follows H L K pk.verifying := by
  intro data sig hd
  have h64 : 8 * data.length < 2 ^ 64 := by omega
  have h128 : 8 * data.length < 2 ^ 128 := lt_trans h64 (by norm_num)
  have h128' : 8 * (64 + data.length) < 2 ^ 128 := lt_trans hd (by norm_num)
  show (pk.verify data sig = .ok () ↔ _) ∧ (pk.verify data sig = .panic ↔ _)
  cases hK with
  | p256 hQ =>
    refine ⟨C66_p256_verify H.sha256 H.is256 L rsa h hQ data sig h64, ?_⟩
    obtain ⟨q, _, rfl⟩ := pk_p256_iff.1 h
    show (if sig.length ≠ 64 then .panic else verifyRes L.prims.p256 q data sig) = .panic ↔ _
    split
    · rename_i hl; exact ⟨fun _ => hl, fun _ => rfl⟩
    · rename_i hl; exact ⟨fun e => absurd e (verifyRes_ne_panic _ _ _ _), fun e => absurd e hl⟩
  | p384 hQ =>
    refine ⟨C66_p384_verify H.sha384 H.is384 L rsa h hQ data sig h128, ?_⟩
    obtain ⟨q, _, rfl⟩ := pk_p384_iff.1 h
    show (if sig.length ≠ 96 then .panic else verifyRes L.prims.p384 q data sig) = .panic ↔ _
    split
    · rename_i hl; exact ⟨fun _ => hl, fun _ => rfl⟩
    · rename_i hl; exact ⟨fun e => absurd e (verifyRes_ne_panic _ _ _ _), fun e => absurd e hl⟩
  | ed25519 hl =>
    refine ⟨(C67_verify H.sha512 H.is512 L rsa h data sig h128').1, ?_⟩
    obtain ⟨_, rfl⟩ := pk_ed_iff.1 h
    exact ⟨fun e => absurd e (verifyRes_ne_panic _ _ _ _), False.elim⟩
  | rsa15 hf _ =>
    refine ⟨(C69_verify_v15 H.sha256 H.is256 L rsa h hf data sig h64).1, ?_⟩
    refine ⟨fun e => ?_, False.elim⟩
    have := (C69_verify_v15 H.sha256 H.is256 L rsa h hf data sig h64).2
    rw [e] at this; exact absurd (this (by simp)) (by simp)
  | rsaPss hf _ =>
    refine ⟨(C69_verify_pss H.sha512 H.is512 L rsa h hf data sig h128).1, ?_⟩
    refine ⟨fun e => ?_, False.elim⟩
    have := (C69_verify_pss H.sha512 H.is512 L rsa h hf data sig h128).2
    rw [e] at this; exact absurd (this (by simp)) (by simp)

/-- C70: so does a shared key. -/
theorem C70_shared_follows (H : Hashes) (L : Libs) (k : Bytes) (hk : 8 * k.length < 2 ^ 64) :
    Follows H L (.hmac k) (SharedKey.hmacSha256 k).verifying := by
  intro data sig hd
  refine ⟨C61_shared_key_verify H.sha256 H.is256 k data sig hk hd, ?_⟩
  refine ⟨fun e => ?_, False.elim⟩
  have e : (if sig = hmac k data then Res.ok () else .err SigErr.invalidSignature) = .panic := e
  split at e <;> cases e

/-! ### Verification -/

section
variable {now : UInt64} {m : Msg} {rf : Option Request} {id : Option Str}

/-- The texts that the signatures of the message cover are within the limit of SHA-256. -/
def Bounded (m : Msg) (rf : Option Request) : Prop :=
  ∀ l, Wire.Carries m.headers l → ∀ kv ∈ l, ∀ text, Wire.BaseOf m rf kv.2.params text → 8 * (64 + (utf8 text).length) < 2 ^ 64

/-- The signature has the key id asked for, is not expired, and is one of the text it covers. -/
def Proper (H : Hashes) (L : Libs) (K : StdKey) (now : UInt64) (m : Msg) (rf : Option Request) (id : Option Str) (h : SigHeaders) : Prop :=
  ∃ text, Wire.BaseOf m rf h.params text ∧ Wire.ForKey id h ∧ Wire.InTime now h ∧ Genuine H L K (utf8 text) h.signature

/-- The key panics on the signature. -/
def Fatal (K : StdKey) (now : UInt64) (m : Msg) (rf : Option Request) (id : Option Str) (h : SigHeaders) : Prop :=
  (∃ text, Wire.BaseOf m rf h.params text) ∧ Wire.ForKey id h ∧ Wire.InTime now h ∧ WrongLength K h.signature

/-- C70: a key that follows a standard accepts a message, with label `n`, exactly if the lines of the message carry signatures, none is of a
length it panics on, and `n` is the label of the first that is proper. -/
theorem C70_verify (H : Hashes) (L : Libs) {K : StdKey} {vk : VerifyingKey} (hK : Follows H L K vk) (hw : WfHeaders m.headers)
    (hf : ∀ r, rf = some r → WfHeaders r.headers) (hb : Bounded m rf) (n : Str) :
    verifySignature now m vk id rf = .ok n ↔
      ∃ l, Wire.Carries m.headers l ∧ (∀ kv ∈ l, ¬ Fatal K now m rf id kv.2) ∧
        ∃ l1 h l2, l = l1 ++ (n, h) :: l2 ∧ Proper H L K now m rf id h ∧ ∀ kv ∈ l1, ¬ Proper H L K now m rf id kv.2 := by
  rw [C65_verify hw hf]
  refine exists_congr fun l => and_congr_right fun hc => ?_
  have a : ∀ kv ∈ l, (Wire.Checked now m rf vk id kv.2 (.ok ()) ↔ Proper H L K now m rf id kv.2) := by
    intro kv hkv
    refine exists_congr fun t => and_congr_right fun ht => ?_
    rw [(hK (utf8 t) kv.2.signature (hb l hc kv hkv t ht)).1]
  have p : ∀ kv ∈ l, (Wire.Checked now m rf vk id kv.2 .panic ↔ Fatal K now m rf id kv.2) := by
    intro kv hkv
    constructor
    · rintro ⟨t, h1, h2, h3, h4⟩
      exact ⟨⟨t, h1⟩, h2, h3, ((hK _ _ (hb l hc kv hkv t h1)).2).1 h4⟩
    · rintro ⟨⟨t, h1⟩, h2, h3, h4⟩
      exact ⟨t, h1, h2, h3, ((hK _ _ (hb l hc kv hkv t h1)).2).2 h4⟩
  refine and_congr (forall₂_congr fun kv hkv => not_congr (p kv hkv)) ?_
  constructor
  · rintro ⟨l1, h, l2, rfl, h1, h2⟩
    exact ⟨l1, h, l2, rfl, (a (n, h) (by simp)).1 h1, fun kv hkv e => h2 kv hkv ((a kv (by simp [hkv])).2 e)⟩
  · rintro ⟨l1, h, l2, rfl, h1, h2⟩
    exact ⟨l1, h, l2, rfl, (a (n, h) (by simp)).2 h1, fun kv hkv e => h2 kv hkv ((a kv (by simp [hkv])).1 e)⟩

/-- C70: with an HMAC, Ed25519 or RSA key, a message with signatures is accepted exactly if one of them is proper, and otherwise it is refused with
an error. -/
theorem C70_verify_decides (H : Hashes) (L : Libs) {K : StdKey} {vk : VerifyingKey} (hK : Follows H L K vk) (hn : ∀ sig, ¬ WrongLength K sig)
    (hw : WfHeaders m.headers) (hf : ∀ r, rf = some r → WfHeaders r.headers) (hb : Bounded m rf) {l : List (Str × SigHeaders)}
    (hl : Wire.Carries m.headers l) :
    ((∃ n, verifySignature now m vk id rf = .ok n) ↔ ∃ kv ∈ l, Proper H L K now m rf id kv.2) ∧
    ((¬ ∃ kv ∈ l, Proper H L K now m rf id kv.2) →
      verifySignature now m vk id rf = .err .invalidSignature ∨ verifySignature now m vk id rf = .err .noSignatureHeaders) := by
  have uniq : ∀ l', Wire.Carries m.headers l' → l' = l := fun l' h' => by
    rw [← C65_carries hw] at h' hl
    rw [h'] at hl; injection hl
  have ok : (∃ n, verifySignature now m vk id rf = .ok n) ↔ ∃ kv ∈ l, Proper H L K now m rf id kv.2 := by
    constructor
    · rintro ⟨n, h⟩
      obtain ⟨l', h1, _, l1, x, l2, rfl, h2, _⟩ := (C70_verify H L hK hw hf hb n).1 h
      rw [← uniq _ h1]
      exact ⟨(n, x), by simp, h2⟩
    · intro h
      obtain ⟨n, l1, x, l2, e, h1, h2⟩ := first_of_mem h
      exact ⟨n, (C70_verify H L hK hw hf hb n).2 ⟨l, hl, fun kv _ ⟨_, _, _, hx⟩ => hn _ hx, l1, x, l2, e, h1, h2⟩⟩
  refine ⟨ok, fun h => ?_⟩
  by_cases hc : ∃ kv ∈ l, Wire.Candidate m rf id kv.2
  · left
    refine (C65_invalid hw hf).2 ⟨l, hl, ?_, hc, ?_⟩
    · rintro kv hkv ⟨t, h1, _, _, h4⟩
      exact hn _ (((hK _ _ (hb l hl kv hkv t h1)).2).1 h4)
    · rintro kv hkv ⟨t, h1, h2, h3, h4⟩
      exact h ⟨kv, hkv, t, h1, h2, h3, ((hK _ _ (hb l hl kv hkv t h1)).1).1 h4⟩
  · right
    exact (C65_no_candidate hw hf).2 (Or.inr (Or.inr ⟨l, hl, fun kv hkv e => hc ⟨kv, hkv, e⟩⟩))

/-- C70, from the file on: what a public key read from a PEM text accepts. -/
theorem C70_verify_pem (H : Hashes) (L : Libs) (rsa : Bool) {alg : Alg} {pem : Str} {pk : PublicKey L.prims}
    (h : PublicKey.fromPem rsa alg pem = .ok pk) :
    ∃ der b K, PemText L.rsa.der (c! "PUBLIC KEY") der pem ∧ PublicFile L.rsa.der alg b der ∧ Holds L alg b K ∧
      ∀ (now : UInt64) (m : Msg) (rf : Option Request) (id : Option Str) (n : Str), WfHeaders m.headers →
        (∀ r, rf = some r → WfHeaders r.headers) → Bounded m rf →
        (verifySignature now m pk.verifying id rf = .ok n ↔
          ∃ l, Wire.Carries m.headers l ∧ (∀ kv ∈ l, ¬ Fatal K now m rf id kv.2) ∧
            ∃ l1 h l2, l = l1 ++ (n, h) :: l2 ∧ Proper H L K now m rf id h ∧ ∀ kv ∈ l1, ¬ Proper H L K now m rf id kv.2) := by
  obtain ⟨der, b, h1, h2, h3⟩ := (C68_public_pem L rsa alg pem pk).1 h
  obtain ⟨_, K, hK⟩ := (C70_import L rsa alg b).1 ⟨pk, h3⟩
  exact ⟨der, b, K, h1, h2, hK, fun now m rf id n hw hf hb => C70_verify H L (C70_follows H L rsa h3 hK) hw hf hb n⟩

end

/-! ### Signing and verifying -/

/-- C70: what a private key signs, its public key accepts, for every algorithm. -/
theorem C70_key_pair (L : Libs) (sk : SecretKey L.prims) (rnd : Bytes) : KeyPair (sk.signing rnd) sk.publicKey.verifying := by
  cases sk with
  | ecdsaP256Sha256 k => exact C66_p256_sign_verify L k rnd
  | ecdsaP384Sha384 k => exact C66_p384_sign_verify L k rnd
  | ed25519 k => exact C67_sign_verify L k rnd
  | rsaV15Sha256 k => exact C69_sign_verify_v15 L k rnd
  | rsaPssSha512 k => exact C69_sign_verify_pss L k rnd

/-- A key whose id can be written. -/
theorem setKeyInfo_safe {p : SigParams} (hp : SafeParams p) {k : SigningKey} (hk : SafeText k.keyId) : SafeParams (p.setKeyInfo k) where
  created := hp.created
  expires := hp.expires
  nonce := hp.nonce
  alg := by intro s h; injection h with h; subst h; exact alg_safe _
  keyid := by intro s h; injection h with h; subst h; exact hk
  tag := hp.tag
  ids := hp.ids
  distinct := hp.distinct

theorem secret_keyId_safe {P : Prims} (sk : SecretKey P) (rnd : Bytes) : SafeText (sk.signing rnd).keyId := by
  obtain ⟨b, hb⟩ := (C40_key_id_length sk.publicKey (.hmacSha256 [])).1
  show SafeText sk.publicKey.keyId
  rw [hb]; exact base64_safe _

section
variable {now : UInt64} {m : Msg} {rf : Option Request}

/-- C70: a message without signatures, signed by a private key with its key info in the parameters, is accepted with the public key and its
key id; so for requests and responses. -/
theorem C70_round_trip (L : Libs) (sk : SecretKey L.prims) (pk : PublicKey L.prims) (hpk : sk.publicKey = pk) (rnd : Bytes)
    (hw : WfHeaders m.headers) (hf : ∀ r, rf = some r → WfHeaders r.headers)
    (h0 : fieldLines m.headers (c! "signature-input") = []) (h0' : fieldLines m.headers (c! "signature") = [])
    {p : SigParams} (hp : SafeParams p) (hs : NotSelf p) {name : Option Str} (hn : LegalKey (name.getD (c! "sig"))) {h' : Headers}
    (h : setSignature m (p.setKeyInfo (sk.signing rnd)) (sk.signing rnd) name rf = (h', .ok ()))
    (ht : ∀ e, p.expires = some e → now ≤ e) :
    verifySignature now (m.withHeaders h') pk.verifying (some pk.keyId) rf = .ok (name.getD (c! "sig")) := by
  subst hpk
  exact sign_then_verify hw hf h0 h0' (setKeyInfo_safe hp (secret_keyId_safe sk rnd)) hs hn (C70_key_pair L sk rnd) h ht (Or.inr rfl)

/-- C70: signing succeeds exactly if the covered components have values and the key signs their text. -/
theorem C70_sign_iff (hw : WfHeaders m.headers) (hf : ∀ r, rf = some r → WfHeaders r.headers) {p : SigParams} (hp : SafeParams p)
    {name : Option Str} (hn : LegalKey (name.getD (c! "sig"))) (k : SigningKey) :
    (∃ h', setSignature m p k name rf = (h', .ok ())) ↔ ∃ text sig, Wire.BaseOf m rf p text ∧ k.sign (utf8 text) = .ok sig := by
  constructor
  · rintro ⟨h', h⟩
    obtain ⟨hs, h1, _⟩ := (setSignatures_ok hw hf _ h').1 h
    cases h1 with
    | cons h1 _ =>
      obtain ⟨text, h2, h3⟩ := h1.signature
      exact ⟨text, _, wireBaseOf_iff.2 h2, h3⟩
  · rintro ⟨text, sig, h1, h2⟩
    have hs : SignedBy m rf (p, k, name) ⟨name.getD (c! "sig"), sig, p⟩ := ⟨rfl, rfl, text, wireBaseOf_iff.1 h1, h2⟩
    refine ⟨_, (setSignatures_ok hw hf _ _).2 ⟨[⟨name.getD (c! "sig"), sig, p⟩], .cons hs .nil, ?_, rfl⟩⟩
    intro sh hsh
    rw [List.mem_singleton.1 hsh, hvOfStr_printable (safe_input_printable ⟨hn, hp⟩)]
    rfl

theorem setKeyInfo_base {p : SigParams} {k : SigningKey} :
    (∃ text, Wire.BaseOf m rf p text) ↔ ∃ text, Wire.BaseOf m rf (p.setKeyInfo k) text :=
  ⟨fun ⟨_, t, h, _⟩ => ⟨_, t, h, rfl⟩, fun ⟨_, t, h, _⟩ => ⟨_, t, h, rfl⟩⟩

/-- C70 for Ed25519: if the covered components have values, signing succeeds and the result is accepted. -/
theorem C70_ed25519 (L : Libs) (k : L.prims.ed25519.SK) (rnd : Bytes) (hw : WfHeaders m.headers) (hf : ∀ r, rf = some r → WfHeaders r.headers)
    (h0 : fieldLines m.headers (c! "signature-input") = []) (h0' : fieldLines m.headers (c! "signature") = [])
    {p : SigParams} (hp : SafeParams p) (hs : NotSelf p) {name : Option Str} (hn : LegalKey (name.getD (c! "sig")))
    (hb : ∃ text, Wire.BaseOf m rf p text) :
    ∃ h', setSignature m (p.setKeyInfo ((SecretKey.ed25519 k).signing rnd)) ((SecretKey.ed25519 k).signing rnd) name rf = (h', .ok ()) ∧
      ∀ now : UInt64, (∀ e, p.expires = some e → now ≤ e) →
        verifySignature now (m.withHeaders h') (SecretKey.ed25519 k).publicKey.verifying (some (SecretKey.ed25519 k).publicKey.keyId) rf =
          .ok (name.getD (c! "sig")) := by
  have hp' := setKeyInfo_safe hp (secret_keyId_safe (SecretKey.ed25519 k) rnd)
  obtain ⟨text, hb⟩ := setKeyInfo_base (k := (SecretKey.ed25519 k).signing rnd).1 hb
  obtain ⟨h', h⟩ := (C70_sign_iff hw hf hp' hn ((SecretKey.ed25519 k).signing rnd)).2 ⟨text, _, hb, rfl⟩
  exact ⟨h', h, fun now ht => C70_round_trip L _ _ rfl rnd hw hf h0 h0' hp hs hn h ht⟩

/-- C70 for shared keys. -/
theorem C70_shared (k : SharedKey) (hw : WfHeaders m.headers) (hf : ∀ r, rf = some r → WfHeaders r.headers)
    (h0 : fieldLines m.headers (c! "signature-input") = []) (h0' : fieldLines m.headers (c! "signature") = [])
    {p : SigParams} (hp : SafeParams p) (hs : NotSelf p) {name : Option Str} (hn : LegalKey (name.getD (c! "sig")))
    (hb : ∃ text, Wire.BaseOf m rf p text) :
    ∃ h', setSignature m (p.setKeyInfo k.signing) k.signing name rf = (h', .ok ()) ∧
      ∀ now : UInt64, (∀ e, p.expires = some e → now ≤ e) →
        verifySignature now (m.withHeaders h') k.verifying (some k.keyId) rf = .ok (name.getD (c! "sig")) := by
  have hid : SafeText k.signing.keyId := by cases k; exact base64_safe _
  have hp' := setKeyInfo_safe hp hid
  obtain ⟨text, hb⟩ := setKeyInfo_base (k := k.signing).1 hb
  obtain ⟨sig, hsig⟩ : ∃ sig, k.signing.sign (utf8 text) = .ok sig := by cases k; exact ⟨_, rfl⟩
  obtain ⟨h', h⟩ := (C70_sign_iff hw hf hp' hn k.signing).2 ⟨text, _, hb, hsig⟩
  exact ⟨h', h, fun now ht => sign_then_verify hw hf h0 h0' hp' hs hn (shared_pair k) h ht (Or.inr rfl)⟩

end

/-! ### Files that belong together -/

/-- The bytes of a public key belong to the bytes of a private key. -/
def Pairs (H : Hashes) (L : Libs) : Alg → (secret pub : Bytes) → Prop
  | .ecdsaP256Sha256, b, b' => ∃ G Q, P256.IsBase G ∧ P256.Sec1 Q b' ∧ Q = beVal b • G
  | .ecdsaP384Sha384, b, b' => ∃ G Q, P384.IsBase G ∧ P384.Sec1 Q b' ∧ Q = beVal b • G
  | .ed25519, b, b' => ∃ (h : Bytes) (a : Nat) (B : Eddsa.Pair Eddsa.q25519), Digest H.sha512 b h ∧ Eddsa.Scalar h a ∧ Eddsa.IsBase B ∧
      Eddsa.Encodes true true b' (Eddsa.mul a B)
  | .rsaV15Sha256, b, b' => ∃ n e d p q, RsaPrivateFile L.rsa.der n e d p q b ∧ RsaPublicFile L.rsa.der n e b'
  | .rsaPssSha512, b, b' => ∃ n e d p q, RsaPrivateFile L.rsa.der n e d p q b ∧ RsaPublicFile L.rsa.der n e b'
  | .hmacSha256, _, _ => False

/-- C70: an imported public key is that of an imported private key exactly if the standard says so of their bytes. -/
theorem C70_pair (H : Hashes) (L : Libs) (rsa rsa' : Bool) {alg : Alg} {b b' : Bytes} {sk : SecretKey L.prims} {pk : PublicKey L.prims}
    (h : SecretKey.fromBytes rsa alg b = .ok sk) (h' : PublicKey.fromBytes rsa' alg b' = .ok pk) :
    sk.publicKey = pk ↔ Pairs H L alg b b' := by
  have rs : ∀ {alg}, IsRsa alg → SecretKey.fromBytes rsa alg b = .ok sk → PublicKey.fromBytes rsa' alg b' = .ok pk →
      (sk.publicKey = pk ↔ ∃ n e d p q, RsaPrivateFile L.rsa.der n e d p q b ∧ RsaPublicFile L.rsa.der n e b') := by
    intro alg ha h h'
    obtain ⟨_, n, e, d, p, q, hf, _⟩ := (C69_secret_key L rsa ha b).1.1 ⟨sk, h⟩
    obtain ⟨_, n', e', hf', _⟩ := (C69_public_key L rsa' ha b').1.1 ⟨pk, h'⟩
    constructor
    · intro hp
      obtain ⟨rfl, rfl⟩ := (C69_pair L rsa rsa' ha h hf h' hf').1 hp
      exact ⟨_, _, d, p, q, hf, hf'⟩
    · rintro ⟨n2, e2, d2, p2, q2, g, g'⟩
      exact (C69_pair L rsa rsa' ha h g h' g').2 ⟨rfl, rfl⟩
  cases alg with
  | ecdsaP256Sha256 =>
    obtain ⟨Q, hQ⟩ := (C66_p256_public_key L rsa' b').1.1 ⟨pk, h'⟩
    obtain ⟨G, hG, _⟩ := C66_p256_group
    constructor
    · intro hp; exact ⟨G, Q, hG, hQ, (C66_p256_pair L rsa rsa' h h' hQ hG).1 hp⟩
    · rintro ⟨G, Q, hG, hQ, e⟩; exact (C66_p256_pair L rsa rsa' h h' hQ hG).2 e
  | ecdsaP384Sha384 =>
    obtain ⟨Q, hQ⟩ := (C66_p384_public_key L rsa' b').1.1 ⟨pk, h'⟩
    obtain ⟨G, hG, _⟩ := C66_p384_group
    constructor
    · intro hp; exact ⟨G, Q, hG, hQ, (C66_p384_pair L rsa rsa' h h' hQ hG).1 hp⟩
    · rintro ⟨G, Q, hG, hQ, e⟩; exact (C66_p384_pair L rsa rsa' h h' hQ hG).2 e
  | ed25519 =>
    have hl : b.length = 32 := ((C67_secret_key L rsa b).1.1 ⟨sk, h⟩).1
    obtain ⟨B, hB, _⟩ := C67_base
    have hd := (C61_sha512 H.sha512 H.is512 b (sha512 b) (by rw [hl]; norm_num)).2 rfl
    constructor
    · intro hp
      exact ⟨_, _, B, hd, (Ed.clamp_scalar _ _).2 rfl, hB, (C67_pair H.sha512 H.is512 L rsa rsa' h h' hd ((Ed.clamp_scalar _ _).2 rfl) hB).1 hp⟩
    · rintro ⟨x, a, B, hx, ha, hB, he⟩; exact (C67_pair H.sha512 H.is512 L rsa rsa' h h' hx ha hB).2 he
  | rsaV15Sha256 => exact rs (Or.inl rfl) h h'
  | rsaPssSha512 => exact rs (Or.inr rfl) h h'
  | hmacSha256 => cases h

/-- C70, from the files on: PEM texts with a private and a public key whose bytes belong together are imported, and what the one key signs
the other accepts. -/
theorem C70_round_trip_pem {m : Msg} {rf : Option Request} (H : Hashes) (L : Libs) (rsa : Bool) {alg : Alg} {s s' : Str}
    {der der' key b b' : Bytes} (ha : alg.available rsa = true)
    (h1 : PemText L.rsa.der (c! "PRIVATE KEY") der s) (h2 : PrivateFile L.rsa.der alg key der) (h3 : KeyField L.rsa.der alg key b)
    (h4 : ∃ sk : SecretKey L.prims, SecretKey.fromBytes rsa alg b = .ok sk)
    (h1' : PemText L.rsa.der (c! "PUBLIC KEY") der' s') (h2' : PublicFile L.rsa.der alg b' der') (h3' : ∃ K, Holds L alg b' K)
    (hp : Pairs H L alg b b') (hw : WfHeaders m.headers) (hf : ∀ r, rf = some r → WfHeaders r.headers)
    (h0 : fieldLines m.headers (c! "signature-input") = []) (h0' : fieldLines m.headers (c! "signature") = [])
    {p : SigParams} (hsafe : SafeParams p) (hself : NotSelf p) {name : Option Str} (hn : LegalKey (name.getD (c! "sig"))) :
    ∃ (sk : SecretKey L.prims) (pk : PublicKey L.prims), SecretKey.fromPem rsa alg s = .ok sk ∧ PublicKey.fromPem rsa alg s' = .ok pk ∧
      ∀ (rnd : Bytes) (h' : Headers) (now : UInt64),
        setSignature m (p.setKeyInfo (sk.signing rnd)) (sk.signing rnd) name rf = (h', .ok ()) → (∀ e, p.expires = some e → now ≤ e) →
        verifySignature now (m.withHeaders h') pk.verifying (some pk.keyId) rf = .ok (name.getD (c! "sig")) := by
  obtain ⟨sk, hs⟩ := h4
  obtain ⟨pk, hk⟩ := (C70_import L rsa alg b').2 ⟨by rintro (rfl | rfl) <;> exact ha, h3'⟩
  refine ⟨sk, pk, (C68_secret_pem L rsa alg s sk).2 ⟨der, h1, ?_⟩, (C68_public_pem L rsa alg s' pk).2 ⟨der', b', h1', h2', hk⟩, ?_⟩
  · rw [C68_key_bytes L rsa h2 h3 ha, hs]
  · intro rnd h' now h ht
    exact C70_round_trip L sk pk ((C70_pair H L rsa rsa hs hk).2 hp) rnd hw hf h0 h0' hsafe hself hn h ht

/-! ### Cases -/

/-- There are the hash functions. -/
def stdHashes : Hashes := ⟨S256.V, S384.V, S512.V, S256.isSha, S384.isSha, S512.isSha⟩

/-- The key of RFC 9421 section B.1.4, which the tests use (httpsig/src/lib.rs 36-48). -/
def rfcSeed : Bytes := [159, 131, 98, 248, 122, 72, 74, 149, 78, 110, 116, 12, 91, 76, 14, 132, 34, 145, 57, 162, 10, 168, 171, 86, 255, 102, 88, 111, 106, 125, 41, 197]
def rfcPub : Bytes := [38, 180, 11, 143, 147, 255, 243, 216, 151, 17, 47, 126, 188, 88, 43, 35, 45, 189, 114, 81, 125, 8, 47, 232, 60, 251, 48, 221, 206, 67, 209, 187]

set_option maxRecDepth 100000 in
theorem rfcPub_eq : Ed.pub rfcSeed = rfcPub := by
  rw [Ed.pub, ed_smul_fast]
  decide +kernel

theorem rfc_secret_file : ∃ der, PemText Libs.std.rsa.der (c! "PRIVATE KEY") der KeyTests.rfcSk ∧
    PrivateFile Libs.std.rsa.der .ed25519 (4 :: 32 :: rfcSeed) der := by
  have h : ((Der.pem Der.lib KeyTests.rfcSk).bind fun x => (Der.pkiOfDer Der.lib x.2).map fun p => (x.1, p.oid, p.privateKey)) =
      some (c! "PRIVATE KEY", oidEd25519, 4 :: 32 :: rfcSeed) := by decide +kernel
  simp only [Option.bind_eq_some_iff, Option.map_eq_some_iff, Prod.mk.injEq, Prod.exists] at h
  obtain ⟨l, der, h1, pki, h2, h3, h4, h5⟩ := h
  subst h3
  exact ⟨der, pemText_of h1, pki_declares.1 ⟨pki, h2, h4, h5⟩⟩

theorem rfc_public_file : ∃ der, PemText Libs.std.rsa.der (c! "PUBLIC KEY") der KeyTests.rfcPk ∧ PublicFile Libs.std.rsa.der .ed25519 rfcPub der := by
  have h : PublicKey.fromPem (P := Libs.std.prims) true .ed25519 KeyTests.rfcPk = .ok (.ed25519 (P := Libs.std.prims) ⟨rfcPub, rfl⟩) := by rfl
  obtain ⟨der, b, h1, h2, h3⟩ := (C68_public_pem Libs.std true .ed25519 _ _).1 h
  obtain ⟨hl, e⟩ := pk_ed_iff.1 h3
  rw [show b = rfcPub from ((pk_ed_inj (L := Libs.std)).1 e).symm] at h2
  exact ⟨der, h1, h2⟩

theorem rfcSeed_ok : rfcSeed.length = 32 ∧ rfcSeed ≠ List.replicate 32 0 := by decide +kernel

theorem rfc_pairs : Pairs stdHashes Libs.std .ed25519 rfcSeed rfcPub :=
  (C70_pair stdHashes Libs.std true true (sk_ed_iff.2 ⟨rfcSeed_ok, rfl⟩) (pk_ed_iff.2 ⟨rfl, rfl⟩)).1
    ((pk_ed_inj (L := Libs.std) (h := Ed.encode_length _)).2 rfcPub_eq)

/-- `C70_round_trip_pem` with the two files of the RFC and the example request. -/
example : ∃ (sk : SecretKey Libs.std.prims) (pk : PublicKey Libs.std.prims), SecretKey.fromPem true .ed25519 KeyTests.rfcSk = .ok sk ∧
    PublicKey.fromPem true .ed25519 KeyTests.rfcPk = .ok pk ∧
    ∀ (rnd : Bytes) (h' : Headers) (now : UInt64),
      setSignature (.req exReq) ((wParams (c! "k") wIds).setKeyInfo (sk.signing rnd)) (sk.signing rnd) none none = (h', .ok ()) →
      (∀ e, (wParams (c! "k") wIds).expires = some e → now ≤ e) →
      verifySignature now (Msg.withHeaders (.req exReq) h') pk.verifying (some pk.keyId) none = .ok (c! "sig") := by
  obtain ⟨der, h1, h2⟩ := rfc_secret_file
  obtain ⟨der', h1', h2'⟩ := rfc_public_file
  exact C70_round_trip_pem (m := .req exReq) stdHashes Libs.std true rfl h1 h2 ⟨4, 32, rfl⟩ ⟨_, sk_ed_iff.2 ⟨rfcSeed_ok, rfl⟩⟩ h1' h2'
    ⟨_, .ed25519 rfl⟩ rfc_pairs exReq_wf (by simp) (by decide) (by decide) (wParams_safe (by decide)) (wParams_notSelf _) (by decide)

/-- Signing the example request does succeed, with any Ed25519 key and any shared key, and it verifies until it expires. -/
theorem exReq_base : ∃ text, Wire.BaseOf (.req exReq) none (wParams (c! "k") wIds) text :=
  ⟨_, (C65_base (m := .req exReq) exReq_wf (by simp) _ _).1 ⟨_, rfl, rfl⟩⟩

example (L : Libs) (k : L.prims.ed25519.SK) (rnd : Bytes) : ∃ h',
    verifySignature 100 (Msg.withHeaders (.req exReq) h') (SecretKey.ed25519 k).publicKey.verifying (some (SecretKey.ed25519 k).publicKey.keyId) none =
      .ok (c! "sig") := by
  obtain ⟨h', _, h⟩ := C70_ed25519 (m := .req exReq) L k rnd exReq_wf (by simp) (by decide) (by decide) (wParams_safe (k := c! "k") (by decide))
    (wParams_notSelf _) (name := none) (by decide) exReq_base
  exact ⟨h', h 100 (by intro e h; injection h with h; subst h; decide)⟩

example (k : SharedKey) : ∃ h', verifySignature 100 (Msg.withHeaders (.req exReq) h') k.verifying (some k.keyId) none = .ok (c! "sig") := by
  obtain ⟨h', _, h⟩ := C70_shared (m := .req exReq) k exReq_wf (by simp) (by decide) (by decide) (wParams_safe (k := c! "k") (by decide))
    (wParams_notSelf _) (name := none) (by decide) exReq_base
  exact ⟨h', h 100 (by intro e h; injection h with h; subst h; decide)⟩

def baseSize (m : Msg) (p : SigParams) : Nat := match buildBase m p none with | .ok b => (utf8 b.disp).length | _ => 0

/-- The message with three signatures is within the bound of `C70_verify`. -/
theorem vReq_bounded : Bounded (.req vReq) none := by
  intro l hl kv hkv text ht
  rw [← C65_carries (m := .req vReq) vReq_wf] at hl
  rw [vReq_sigs] at hl
  injection hl with hl; subst hl
  obtain ⟨b, h1, rfl⟩ := (C65_base (m := .req vReq) vReq_wf (by simp) _ _).2 ht
  have h2 : ∀ kv ∈ vSigs, baseSize (.req vReq) kv.2.params < 1000 := by decide +kernel
  have h3 := h2 kv hkv
  unfold baseSize at h3
  rw [h1] at h3
  simp only at h3
  omega

/-- So `C70_verify` says for a shared key what it does with this message: none of the three signatures is one, and it is refused. -/
example : ¬ ∃ n, verifySignature 50 (.req vReq) (SharedKey.hmacSha256 [1, 2, 3]).verifying none none = .ok n := by
  rw [(C70_verify_decides stdHashes Libs.std (C70_shared_follows stdHashes Libs.std [1, 2, 3] (by decide)) (fun _ h => h) (m := .req vReq) vReq_wf (by simp)
    vReq_bounded ((C65_carries (m := .req vReq) vReq_wf _).1 vReq_sigs)).1]
  rintro ⟨kv, hkv, text, h1, _, _, h2⟩
  have h3 := vReq_bounded _ ((C65_carries (m := .req vReq) vReq_wf _).1 vReq_sigs) kv hkv text h1
  have h4 := congrArg List.length ((C61_hmac stdHashes.sha256 stdHashes.is256 [1, 2, 3] (utf8 text) _ (by decide) h3).1 h2)
  rw [hmac_length] at h4
  simp only [vSigs, List.mem_cons, List.not_mem_nil, or_false] at hkv
  rcases hkv with rfl | rfl | rfl <;> simp at h4

end Verif
