import Verif.Spec.Keys
import Verif.Proofs.Sha2
import Verif.Proofs.Text
import Verif.Proofs.Base64
import Verif.Model.SigParams
/-!
C17 (key level), C31 (names), C40, C41, C42, C43, C54: keys, algorithms and durations.
-/
namespace Verif
open Spec Sha2

/-- Key structures of a small concrete instance, used in the examples only: keys and signatures are their own bytes. -/
def toyScheme (n : Nat) : Scheme where
  SK := Bytes
  PK := Bytes
  Sig := Bytes
  skOf b := if b = [] then none else some b
  pkOf b := if b = [] then none else some b
  pub := id
  sign _ k d := some ((k ++ d ++ List.replicate n 0).take n)
  sigOf := some
  verify k d s := s == (k ++ d ++ List.replicate n 0).take n
  enc := id

def toyPrims : Prims where
  p256 := toyScheme 64
  p384 := toyScheme 96
  ed25519 := toyScheme 64
  rsa15 := toyScheme 256
  rsaPss := toyScheme 256
  pkiOfDer b := match b with
    | 1 :: t => some ⟨c! "1.2.840.10045.2.1", some (c! "1.2.840.10045.3.1.7"), t⟩
    | 2 :: t => some ⟨c! "1.3.101.112", none, t⟩
    | _ => none
  spkiOfDer b := match b with
    | 1 :: t => some ⟨c! "1.2.840.10045.2.1", some (c! "1.2.840.10045.3.1.7"), some t⟩
    | 2 :: t => some ⟨c! "1.3.101.112", none, some t⟩
    | _ => none
  sec1 := some
  pem s := if s = c! "pub" then some (c! "PUBLIC KEY", [1, 5]) else if s = c! "priv" then some (c! "PRIVATE KEY", [2, 4, 32, 7]) else none

/-! ### C17 at the level of keys -/

/-- C17: verification panics exactly for ECDSA keys with a signature of a length other than 64 (P-256) or 96 (P-384) bytes. -/
theorem C17_verify_panics_iff {P : Prims} (k : PublicKey P) (d s : Bytes) :
    k.verify d s = .panic ↔
      (k.alg = .ecdsaP256Sha256 ∧ s.length ≠ 64) ∨ (k.alg = .ecdsaP384Sha384 ∧ s.length ≠ 96) := by
  have hv : ∀ (S : Scheme) (pk : S.PK), verifyRes S pk d s ≠ .panic := by
    intro S pk; unfold verifyRes; split
    · simp
    · split <;> simp
  cases k with
  | ecdsaP256Sha256 k => simp only [PublicKey.verify, PublicKey.alg]; split <;> simp_all
  | ecdsaP384Sha384 k => simp only [PublicKey.verify, PublicKey.alg]; split <;> simp_all
  | ed25519 k => simp [PublicKey.verify, PublicKey.alg, hv]
  | rsaV15Sha256 k => simp [PublicKey.verify, PublicKey.alg, hv]
  | rsaPssSha512 k => simp [PublicKey.verify, PublicKey.alg, hv]

/-- C17: a shared key never panics. -/
theorem C17_shared_never_panics (k : SharedKey) (d s : Bytes) : k.verify d s ≠ .panic := by
  cases k; simp only [SharedKey.verify]; split <;> simp

/-- C17 is false for ECDSA: a signature that is too short panics. -/
theorem C17_false : ∃ (P : Prims) (k : PublicKey P) (d s : Bytes), k.verify d s = .panic :=
  ⟨toyPrims, .ecdsaP256Sha256 [1], [], [0], rfl⟩

/-! ### C31, names -/

/-- C31: the text of an algorithm is read back, in a build that has the algorithm. -/
theorem C31_name_round_trip (rsa : Bool) (a : Alg) (h : a.available rsa = true) : Alg.ofStr rsa a.toStr = .ok a := by
  cases a <;> cases rsa <;> first | rfl | (exact absurd h (by decide))

/-- C31: nothing else is accepted, and the error is always the same. -/
theorem C31_name_exact (rsa : Bool) (s : Str) :
    (∀ a, Alg.ofStr rsa s = .ok a ↔ s = a.toStr ∧ a.available rsa = true) ∧
    ((∀ a : Alg, a.available rsa = true → s ≠ a.toStr) → Alg.ofStr rsa s = .err .invalidAlgorithmName) := by
  constructor
  · intro a
    constructor
    · intro h
      unfold Alg.ofStr at h
      split at h; · injection h with h; subst h; exact ⟨by assumption, rfl⟩
      split at h; · injection h with h; subst h; exact ⟨by assumption, rfl⟩
      split at h; · injection h with h; subst h; exact ⟨by assumption, rfl⟩
      split at h; · injection h with h; subst h; exact ⟨by assumption, rfl⟩
      split at h; · rename_i hh; injection h with h; subst h; exact ⟨hh.2, hh.1⟩
      split at h; · rename_i hh; injection h with h; subst h; exact ⟨hh.2, hh.1⟩
      cases h
    · rintro ⟨rfl, h⟩; exact C31_name_round_trip rsa a h
  · intro h
    unfold Alg.ofStr
    rw [if_neg (show ¬ s = c! "hmac-sha256" from h .hmacSha256 rfl),
      if_neg (show ¬ s = c! "ecdsa-p256-sha256" from h .ecdsaP256Sha256 rfl),
      if_neg (show ¬ s = c! "ecdsa-p384-sha384" from h .ecdsaP384Sha384 rfl),
      if_neg (show ¬ s = c! "ed25519" from h .ed25519 rfl),
      if_neg (show ¬ (rsa = true ∧ s = c! "rsa-v1_5-sha256") from fun hh => h .rsaV15Sha256 hh.1 hh.2),
      if_neg (show ¬ (rsa = true ∧ s = c! "rsa-pss-sha512") from fun hh => h .rsaPssSha512 hh.1 hh.2)]

example : Alg.ofStr false (c! "rsa-v1_5-sha256") = .err .invalidAlgorithmName := by decide
example : Alg.ofStr true (c! "rsa-v1_5-sha256") = .ok .rsaV15Sha256 := by decide

/-! ### C40 -/

theorem encode_length : ∀ b : Bytes, (Base64.encode b).length = (b.length + 2) / 3 * 4
  | [] => rfl
  | [_] => by simp [Base64.encode]
  | [_, _] => by simp [Base64.encode]
  | _ :: _ :: _ :: t => by
    simp only [Base64.encode, List.length_cons, encode_length t]; omega

/-- C40: a secret key and its public key have the same identity and verify alike. -/
theorem C40_secret_and_public_agree {P : Prims} (k : SecretKey P) (rnd : Bytes) :
    (k.signing rnd).keyId = k.publicKey.verifying.keyId ∧ (k.signing rnd).alg = k.publicKey.verifying.alg ∧
    k.verifying.keyId = k.publicKey.verifying.keyId ∧ k.verifying.alg = k.publicKey.verifying.alg ∧
    ∀ d s, k.verifying.verify d s = k.publicKey.verifying.verify d s := by
  refine ⟨rfl, rfl, rfl, rfl, fun _ _ => rfl⟩

/-- C40: the identity does not depend on the randomness of signing, and the public key has the algorithm of the secret key. -/
theorem C40_public_key_alg {P : Prims} (k : SecretKey P) :
    k.alg = k.publicKey.alg ∧ (match k with
      | .ecdsaP256Sha256 _ => k.publicKey.alg = .ecdsaP256Sha256
      | .ecdsaP384Sha384 _ => k.publicKey.alg = .ecdsaP384Sha384
      | .ed25519 _ => k.publicKey.alg = .ed25519
      | .rsaV15Sha256 _ => k.publicKey.alg = .rsaV15Sha256
      | .rsaPssSha512 _ => k.publicKey.alg = .rsaPssSha512) := by
  cases k <;> exact ⟨rfl, rfl⟩

/-- C40: the two traits of a shared key agree. -/
theorem C40_shared_agree (k : SharedKey) :
    k.signing.keyId = k.verifying.keyId ∧ k.signing.alg = k.verifying.alg ∧ k.signing.alg = .hmacSha256 := by
  cases k; exact ⟨rfl, rfl, rfl⟩

/-- C40: every key id is the base64 text of a SHA-256 value, so 44 characters. -/
theorem C40_key_id_length {P : Prims} (k : PublicKey P) (s : SharedKey) :
    (∃ b, k.keyId = Base64.encode (sha256 b)) ∧ k.keyId.length = 44 ∧
    (∃ b, s.keyId = Base64.encode (sha256 b)) ∧ s.keyId.length = 44 := by
  have hl : ∀ b, (Base64.encode (sha256 b)).length = 44 := by intro b; rw [encode_length, sha256_length]
  refine ⟨?_, ?_, ?_, ?_⟩
  · cases k <;> exact ⟨_, rfl⟩
  · cases k <;> exact hl _
  · cases s; exact ⟨_, rfl⟩
  · cases s; exact hl _

/-- C40: shared keys with equal key ids have equal SHA-256 values. -/
theorem C40_key_id_binds_hash (a b : SharedKey) (h : a.keyId = b.keyId) :
    ∃ x y, a = .hmacSha256 x ∧ b = .hmacSha256 y ∧ sha256 x = sha256 y := by
  cases a with | hmacSha256 x => cases b with | hmacSha256 y =>
  refine ⟨x, y, rfl, rfl, ?_⟩
  have := congrArg (Base64.decode true) h
  simp only [SharedKey.keyId, Base64.decode_encode] at this
  injection this

/-! ### C41 -/

theorem sk_fromBytes_alg {P : Prims} {rsa : Bool} {alg : Alg} {b : Bytes} {k : SecretKey P}
    (h : SecretKey.fromBytes rsa alg b = .ok k) : k.alg = alg ∧ alg ≠ .hmacSha256 ∧ alg.available rsa = true := by
  cases alg with
  | hmacSha256 => cases h
  | ecdsaP256Sha256 =>
    simp only [SecretKey.fromBytes] at h
    split at h; · cases h
    obtain ⟨x, _, hx⟩ := Res.bind_eq_ok.1 h
    injection hx with hx; subst hx; exact ⟨rfl, by decide, rfl⟩
  | ecdsaP384Sha384 =>
    simp only [SecretKey.fromBytes] at h
    split at h; · cases h
    obtain ⟨x, _, hx⟩ := Res.bind_eq_ok.1 h
    injection hx with hx; subst hx; exact ⟨rfl, by decide, rfl⟩
  | ed25519 =>
    simp only [SecretKey.fromBytes] at h
    split at h; · cases h
    split at h
    · injection h with hx; subst hx; exact ⟨rfl, by decide, rfl⟩
    · cases h
  | rsaV15Sha256 =>
    simp only [SecretKey.fromBytes] at h
    split at h
    · rename_i hr
      obtain ⟨x, _, hx⟩ := Res.bind_eq_ok.1 h
      injection hx with hx; subst hx; exact ⟨rfl, by decide, hr⟩
    · cases h
  | rsaPssSha512 =>
    simp only [SecretKey.fromBytes] at h
    split at h
    · rename_i hr
      obtain ⟨x, _, hx⟩ := Res.bind_eq_ok.1 h
      injection hx with hx; subst hx; exact ⟨rfl, by decide, hr⟩
    · cases h

theorem pk_fromBytes_alg {P : Prims} {rsa : Bool} {alg : Alg} {b : Bytes} {k : PublicKey P}
    (h : PublicKey.fromBytes rsa alg b = .ok k) : k.alg = alg ∧ alg ≠ .hmacSha256 ∧ alg.available rsa = true := by
  cases alg with
  | hmacSha256 => cases h
  | ecdsaP256Sha256 =>
    obtain ⟨x, _, hx⟩ := Res.bind_eq_ok.1 h
    injection hx with hx; subst hx; exact ⟨rfl, by decide, rfl⟩
  | ecdsaP384Sha384 =>
    obtain ⟨x, _, hx⟩ := Res.bind_eq_ok.1 h
    injection hx with hx; subst hx; exact ⟨rfl, by decide, rfl⟩
  | ed25519 =>
    obtain ⟨x, _, hx⟩ := Res.bind_eq_ok.1 h
    injection hx with hx; subst hx; exact ⟨rfl, by decide, rfl⟩
  | rsaV15Sha256 =>
    simp only [PublicKey.fromBytes] at h
    split at h
    · rename_i hr
      obtain ⟨x, _, hx⟩ := Res.bind_eq_ok.1 h
      injection hx with hx; subst hx; exact ⟨rfl, by decide, hr⟩
    · cases h
  | rsaPssSha512 =>
    simp only [PublicKey.fromBytes] at h
    split at h
    · rename_i hr
      obtain ⟨x, _, hx⟩ := Res.bind_eq_ok.1 h
      injection hx with hx; subst hx; exact ⟨rfl, by decide, hr⟩
    · cases h

/-- C41: import from raw bytes gives a key of the requested algorithm, never for HMAC, never for an algorithm not built in. -/
theorem C41_from_bytes {P : Prims} (rsa : Bool) (alg : Alg) (b : Bytes) :
    (∀ k : SecretKey P, SecretKey.fromBytes rsa alg b = .ok k → k.alg = alg ∧ alg ≠ .hmacSha256 ∧ alg.available rsa = true) ∧
    (∀ k : PublicKey P, PublicKey.fromBytes rsa alg b = .ok k → k.alg = alg ∧ alg ≠ .hmacSha256 ∧ alg.available rsa = true) :=
  ⟨fun _ h => sk_fromBytes_alg h, fun _ h => pk_fromBytes_alg h⟩

theorem algOfCurve_ok {e : SigErr} {o : Str} {a : Alg} (h : algOfCurve e o = .ok a) :
    (a = .ecdsaP256Sha256 ∧ o = oidP256) ∨ (a = .ecdsaP384Sha384 ∧ o = oidP384) := by
  unfold algOfCurve at h
  split at h
  · injection h with h; exact Or.inl ⟨h.symm, by assumption⟩
  split at h
  · injection h with h; exact Or.inr ⟨h.symm, by assumption⟩
  cases h

theorem skBytes_declares {P : Prims} {rsa : Bool} {alg : Alg} {pki : Pki} {b : Bytes}
    (h : skBytesOfPki P rsa alg pki = .ok b) : Declares alg pki.oid pki.paramsOid := by
  unfold skBytesOfPki at h
  split at h
  · rename_i ho
    obtain ⟨p, hp, h1⟩ := Res.bind_eq_ok.1 h
    obtain ⟨a, ha, h2⟩ := Res.bind_eq_ok.1 h1
    split at h2
    · cases h2
    rename_i hne
    have hne : a = alg := by simpa using hne
    subst hne
    rw [Res.ofOption_eq_ok] at hp
    rcases algOfCurve_ok ha with ⟨rfl, rfl⟩ | ⟨rfl, rfl⟩
    · exact ⟨ho, hp⟩
    · exact ⟨ho, hp⟩
  split at h
  · rename_i ho
    split at h
    · cases h
    rename_i hne
    have hne : alg = .ed25519 := by simpa using hne
    subst hne; exact ho
  split at h
  · rename_i ho
    split at h
    · rename_i ha
      rcases ha with rfl | rfl <;> exact ho.2
    · cases h
  · cases h

theorem pkBytes_declares {rsa : Bool} {alg : Alg} {spki : Spki} {b : Bytes}
    (h : pkBytesOfSpki rsa alg spki = .ok b) : Declares alg spki.oid spki.paramsOid ∧ spki.publicKey = some b := by
  unfold pkBytesOfSpki at h
  split at h
  · rename_i ho
    obtain ⟨p, hp, h1⟩ := Res.bind_eq_ok.1 h
    obtain ⟨a, ha, h2⟩ := Res.bind_eq_ok.1 h1
    split at h2
    · cases h2
    rename_i hne
    have hne : a = alg := by simpa using hne
    subst hne
    rw [Res.ofOption_eq_ok] at hp h2
    rcases algOfCurve_ok ha with ⟨rfl, rfl⟩ | ⟨rfl, rfl⟩
    · exact ⟨⟨ho, hp⟩, h2⟩
    · exact ⟨⟨ho, hp⟩, h2⟩
  split at h
  · rename_i ho
    split at h
    · cases h
    rename_i hne
    have hne : alg = .ed25519 := by simpa using hne
    subst hne; exact ⟨ho, Res.ofOption_eq_ok.1 h⟩
  split at h
  · rename_i ho
    split at h
    · rename_i ha
      rcases ha with rfl | rfl <;> exact ⟨ho.2, Res.ofOption_eq_ok.1 h⟩
    · cases h
  · cases h

/-- C41: import of a private key from DER succeeds only if the encoded key declares the requested algorithm. -/
theorem C41_secret_from_der {P : Prims} (rsa : Bool) (alg : Alg) (der : Bytes) (k : SecretKey P)
    (h : SecretKey.fromDer rsa alg der = .ok k) :
    k.alg = alg ∧ alg.available rsa = true ∧ ∃ pki, P.pkiOfDer der = some pki ∧ Declares alg pki.oid pki.paramsOid := by
  obtain ⟨pki, hp, h1⟩ := Res.bind_eq_ok.1 h
  obtain ⟨b, hb, h2⟩ := Res.bind_eq_ok.1 h1
  exact ⟨(sk_fromBytes_alg h2).1, (sk_fromBytes_alg h2).2.2, pki, Res.ofOption_eq_ok.1 hp, skBytes_declares hb⟩

/-- C41: the same for PEM, which must also be labelled as a private key. -/
theorem C41_secret_from_pem {P : Prims} (rsa : Bool) (alg : Alg) (pem : Str) (k : SecretKey P)
    (h : SecretKey.fromPem rsa alg pem = .ok k) :
    k.alg = alg ∧ alg.available rsa = true ∧ ∃ der, P.pem pem = some (c! "PRIVATE KEY", der) ∧
      ∃ pki, P.pkiOfDer der = some pki ∧ Declares alg pki.oid pki.paramsOid := by
  obtain ⟨⟨l, der⟩, hp, h1⟩ := Res.bind_eq_ok.1 h
  split at h1
  · cases h1
  rename_i hl
  have hl : l = c! "PRIVATE KEY" := by simpa using hl
  subst hl
  obtain ⟨ha, hb, hc⟩ := C41_secret_from_der rsa alg der k h1
  exact ⟨ha, hb, der, Res.ofOption_eq_ok.1 hp, hc⟩

/-- C41: import of a public key from PEM: it must be labelled as a public key and declare the requested algorithm; the key is the one
in the encoding. -/
theorem C41_public_from_pem {P : Prims} (rsa : Bool) (alg : Alg) (pem : Str) (k : PublicKey P)
    (h : PublicKey.fromPem rsa alg pem = .ok k) :
    k.alg = alg ∧ alg.available rsa = true ∧ ∃ der, P.pem pem = some (c! "PUBLIC KEY", der) ∧
      ∃ spki, P.spkiOfDer der = some spki ∧ Declares alg spki.oid spki.paramsOid ∧
        ∃ b, spki.publicKey = some b ∧ PublicKey.fromBytes rsa alg b = .ok k := by
  obtain ⟨⟨l, der⟩, hp, h1⟩ := Res.bind_eq_ok.1 h
  split at h1
  · cases h1
  rename_i hl
  have hl : l = c! "PUBLIC KEY" := by simpa using hl
  subst hl
  obtain ⟨spki, hs, h2⟩ := Res.bind_eq_ok.1 h1
  obtain ⟨b, hb, h3⟩ := Res.bind_eq_ok.1 h2
  obtain ⟨hd, hk⟩ := pkBytes_declares hb
  exact ⟨(pk_fromBytes_alg h3).1, (pk_fromBytes_alg h3).2.2, der, Res.ofOption_eq_ok.1 hp, spki, Res.ofOption_eq_ok.1 hs, hd, b, hk, h3⟩

/-- C41: a declaration fits at most the algorithms of one key type: an EC key of one curve is not accepted for the other, an Ed25519
key only for Ed25519, an RSA key only for the two RSA algorithms. -/
theorem C41_declaration_unique {a b : Alg} {o : Str} {p : Option Str} (ha : Declares a o p) (hb : Declares b o p) :
    a = b ∨ (a = .rsaV15Sha256 ∧ b = .rsaPssSha512) ∨ (a = .rsaPssSha512 ∧ b = .rsaV15Sha256) := by
  cases a <;> cases b <;> simp_all [Declares]

/-- C41: a shared key is made for HMAC only, from the bytes given. -/
theorem C41_shared (alg : Alg) (s : Str) (k : SharedKey) (h : SharedKey.fromBase64 alg s = .ok k) :
    alg = .hmacSha256 ∧ k.alg = .hmacSha256 ∧ ∃ b, k = .hmacSha256 b ∧ Base64.decode true s = some b := by
  obtain ⟨b, hb, h1⟩ := Res.bind_eq_ok.1 h
  cases alg <;> simp only [reduceCtorEq] at h1
  injection h1 with h1; subst h1
  exact ⟨rfl, rfl, b, rfl, Res.ofOption_eq_ok.1 hb⟩

-- a key of each kind is imported, and refused for another algorithm
example : PublicKey.fromPem (P := toyPrims) false .ecdsaP256Sha256 (c! "pub") = .ok (.ecdsaP256Sha256 [5]) := rfl
example : PublicKey.fromPem (P := toyPrims) false .ecdsaP384Sha384 (c! "pub") = .err .parsePublicKey := rfl
example : SecretKey.fromDer (P := toyPrims) false .ed25519 (2 :: 4 :: 32 :: List.replicate 32 7) = .ok (.ed25519 (List.replicate 32 7)) := rfl
example : SecretKey.fromPem (P := toyPrims) false .ed25519 (c! "pub") = .err .parsePrivateKey := rfl
example : SharedKey.fromBase64 .ed25519 (c! "AQID") = .err .invalidAlgorithmName := by decide

/-! ### C42 -/

theorem getD_replicate (n i : Nat) : (List.replicate n (0 : UInt8)).getD i 0 = 0 := by
  simp [List.getD_eq_getElem?_getD, List.getElem?_replicate]
  split <;> rfl

theorem hmacKey_eq (k : Bytes) :
    hmacKey k = (List.range 64).map (fun i => (if k.length > 64 then sha256 k else k).getD i 0) := by
  have key : ∀ x : Bytes, x.length ≤ 64 → x ++ List.replicate (64 - x.length) 0 = (List.range 64).map (fun i => x.getD i 0) := by
    intro x hx
    apply List.ext_getElem
    · simp; omega
    · intro i h1 h2
      simp only [List.getElem_map, List.getElem_range]
      by_cases hi : i < x.length
      · rw [List.getElem_append_left hi, List.getD_eq_getElem?_getD, List.getElem?_eq_getElem hi]; rfl
      · rw [List.getElem_append_right (by omega), List.getElem_replicate, List.getD_eq_getElem?_getD,
          List.getElem?_eq_none (by omega)]; rfl
  unfold hmacKey
  apply key
  split
  · rw [sha256_length]; decide
  · omega

/-- C42: signing with a shared key is HMAC-SHA256 as in RFC 2104, never fails and gives 32 bytes; verification accepts exactly this tag. -/
theorem C42_hmac_exact (k data tag : Bytes) :
    (SharedKey.hmacSha256 k).sign data = .ok (hmacSpec sha256 k data) ∧ (hmacSpec sha256 k data).length = 32 ∧
    ((SharedKey.hmacSha256 k).verify data tag = .ok () ↔ tag = hmacSpec sha256 k data) ∧
    (tag ≠ hmacSpec sha256 k data → (SharedKey.hmacSha256 k).verify data tag = .err .invalidSignature) := by
  have e : hmac k data = hmacSpec sha256 k data := by
    simp only [hmac, hmacSpec, hmacKey_eq]
  refine ⟨by rw [SharedKey.sign, e], sha256_length _, ?_, ?_⟩
  · rw [SharedKey.verify, e]; split <;> simp_all
  · intro h; rw [SharedKey.verify, e, if_neg h]

/-- C42: a tag of another length, in particular a truncated or extended one, is refused. -/
theorem C42_wrong_length (k data tag : Bytes) (h : tag.length ≠ 32) :
    (SharedKey.hmacSha256 k).verify data tag = .err .invalidSignature :=
  (C42_hmac_exact k data tag).2.2.2 (fun e => h (by rw [e]; exact sha256_length _))

example : ∃ tag : Bytes, (SharedKey.hmacSha256 [1]).sign [2] = .ok tag ∧ (SharedKey.hmacSha256 [1]).verify [2] tag = .ok () ∧
    (SharedKey.hmacSha256 [1]).verify [2] (tag.take 16) = .err .invalidSignature :=
  ⟨hmacSpec sha256 [1] [2], (C42_hmac_exact [1] [2] []).1, (C42_hmac_exact [1] [2] _).2.2.1.2 rfl, C42_wrong_length _ _ _ (by
    rw [List.length_take, (C42_hmac_exact [1] [2] []).2.1]; decide)⟩

/-! ### C54 -/

/-- C54: keys of at most 64 bytes that differ only in trailing zero bytes give the same tags. -/
theorem C54_zero_padding (k : Bytes) (n : Nat) (h : k.length + n ≤ 64) (data : Bytes) :
    (SharedKey.hmacSha256 (k ++ List.replicate n 0)).sign data = (SharedKey.hmacSha256 k).sign data := by
  have : hmacKey (k ++ List.replicate n 0) = hmacKey k := by
    unfold hmacKey
    rw [if_neg (by simp; omega), if_neg (by omega), List.append_assoc, List.length_append, List.length_replicate]
    congr 1
    rw [← List.replicate_add]
    congr 1
    omega
  simp only [SharedKey.sign, hmac, this]

/-- C54: in general tags depend on the key only through its block of 64 bytes. -/
theorem C54_same_block (k k' : Bytes) (hk : k.length ≤ 64) (hk' : k'.length ≤ 64)
    (h : ∀ i < 64, k.getD i 0 = k'.getD i 0) (data : Bytes) :
    (SharedKey.hmacSha256 k).sign data = (SharedKey.hmacSha256 k').sign data := by
  have : hmacKey k = hmacKey k' := by
    rw [hmacKey_eq, hmacKey_eq, if_neg (by omega), if_neg (by omega)]
    apply List.map_congr_left
    intro i hi
    exact h i (List.mem_range.1 hi)
  simp only [SharedKey.sign, hmac, this]

/-! ### C43 -/

/-- C43: `set_expires_with_duration`. -/
theorem C43_duration (checked : Bool) (p : SigParams) (d : Option UInt64) :
    (p.created = none → p.setExpiresWithDuration checked d = .panic) ∧
    (∀ c, p.created = some c → c.toNat + (d.getD 300).toNat < 2 ^ 64 →
      ∃ e, p.setExpiresWithDuration checked d = .ok { p with expires := some e } ∧ e.toNat = c.toNat + (d.getD 300).toNat ∧
        ∀ now, ({ p with expires := some e } : SigParams).isExpired now = true ↔ c.toNat + (d.getD 300).toNat < now.toNat) ∧
    (∀ c, p.created = some c → 2 ^ 64 ≤ c.toNat + (d.getD 300).toNat →
      p.setExpiresWithDuration true d = .panic ∧
      ∃ e, p.setExpiresWithDuration false d = .ok { p with expires := some e } ∧ e.toNat = c.toNat + (d.getD 300).toNat - 2 ^ 64) := by
  refine ⟨?_, ?_, ?_⟩
  · intro h; unfold SigParams.setExpiresWithDuration; rw [h]
  · intro c h hlt
    have he : (c + d.getD 300).toNat = c.toNat + (d.getD 300).toNat := by
      rw [UInt64.toNat_add, Nat.mod_eq_of_lt hlt]
    refine ⟨c + d.getD 300, ?_, he, ?_⟩
    · unfold SigParams.setExpiresWithDuration
      rw [h]
      simp only
      rw [if_neg (by omega)]
    · intro now
      simp only [SigParams.isExpired, decide_eq_true_eq, UInt64.lt_iff_toNat_lt, he]
  · intro c h hge
    have h1 := c.toNat_lt
    have h2 := (d.getD 300).toNat_lt
    refine ⟨?_, c + d.getD 300, ?_, ?_⟩
    · unfold SigParams.setExpiresWithDuration
      rw [h]
      simp only
      rw [if_pos ⟨trivial, hge⟩]
    · unfold SigParams.setExpiresWithDuration
      rw [h]
      simp
    · rw [UInt64.toNat_add]; omega

example : SigParams.setExpiresWithDuration true { created := some 1000, covered := [] } none =
    .ok { created := some 1000, expires := some 1300, covered := [] } := by decide
/-- C43: with overflow unchecked the new signature can be expired from the start. -/
theorem C43_overflow_witness : ∃ (p q : SigParams) (d : UInt64), p.setExpiresWithDuration false (some d) = .ok q ∧
    ∃ c, p.created = some c ∧ q.isExpired c = true :=
  ⟨{ created := some 10, covered := [] }, { created := some 10, expires := some 5, covered := [] }, 18446744073709551611,
    by decide, 10, rfl, by decide⟩

end Verif
