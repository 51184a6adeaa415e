import Verif.Proofs.KeyText
import Verif.Props.C40
/-!
C112: what keys say. The exact message of every error of reading a key and of checking a signature with one, and what `Debug` of a shared key shows.
-/
namespace Verif
open Spec KeySays Sha2

section
variable {L : KeyErrLib} {P : Prims}

/-- C112: without the messages the functions are those of the other properties. -/
theorem C112_same (L : KeyErrLib) (P : Prims) (rsa : Bool) (alg : Alg) :
    (∀ b, (SecretKey.fromBytesT L rsa alg b : Res SigErrT (SecretKey P)).mapErr SigErrT.kind = SecretKey.fromBytes rsa alg b) ∧
    (∀ d, (SecretKey.fromDerT L rsa alg d : Res SigErrT (SecretKey P)).mapErr SigErrT.kind = SecretKey.fromDer rsa alg d) ∧
    (∀ s, (SecretKey.fromPemT L rsa alg s : Res SigErrT (SecretKey P)).mapErr SigErrT.kind = SecretKey.fromPem rsa alg s) ∧
    (∀ b, (PublicKey.fromBytesT L rsa alg b : Res SigErrT (PublicKey P)).mapErr SigErrT.kind = PublicKey.fromBytes rsa alg b) ∧
    (∀ s, (PublicKey.fromPemT L rsa alg s : Res SigErrT (PublicKey P)).mapErr SigErrT.kind = PublicKey.fromPem rsa alg s) ∧
    (∀ (k : PublicKey P) d s, (k.verifyT L d s).mapErr SigErrT.kind = k.verify d s) ∧
    (∀ s, (SharedKey.fromBase64T L alg s).mapErr SigErrT.kind = SharedKey.fromBase64 alg s) ∧
    (∀ (k : SharedKey) d s, (k.verifyT d s).mapErr SigErrT.kind = k.verify d s) ∧
    ∀ s, (Alg.ofStrT rsa s).mapErr SigErrT.kind = Alg.ofStr rsa s := by
  refine ⟨secretBytesT_kind rsa alg, secretDerT_kind rsa alg, secretPemT_kind rsa alg, publicBytesT_kind rsa alg, publicPemT_kind rsa alg,
    verifyT_kind, sharedT_kind alg, fun k d s => ?_, algOfStrT_kind rsa⟩
  cases k; simp only [SharedKey.verifyT, SharedKey.verify]; split <;> rfl

/-! ### The messages -/

/-- C112: bytes are no private key. -/
theorem C112_secret_bytes (rsa : Bool) (alg : Alg) (b : Bytes) (e : SigErr) (t : Str) :
    (SecretKey.fromBytesT L rsa alg b : Res SigErrT (SecretKey P)) = .err ⟨e, t⟩ ↔ e = .parsePrivateKey ∧ SecretBytes L P rsa alg b t :=
  secretBytesT_err

/-- C112: bytes are no public key. -/
theorem C112_public_bytes (rsa : Bool) (alg : Alg) (b : Bytes) (e : SigErr) (t : Str) :
    (PublicKey.fromBytesT L rsa alg b : Res SigErrT (PublicKey P)) = .err ⟨e, t⟩ ↔ e = .parsePublicKey ∧ PublicBytes L P rsa alg b t :=
  publicBytesT_err

/-- C112: bytes are no file with a private key. -/
theorem C112_secret_der (rsa : Bool) (alg : Alg) (der : Bytes) (e : SigErr) (t : Str) :
    (SecretKey.fromDerT L rsa alg der : Res SigErrT (SecretKey P)) = .err ⟨e, t⟩ ↔ e = .parsePrivateKey ∧ SecretDer L P rsa alg der t := by
  simp only [SecretKey.fromDerT, skBytesT_eq, bindT_err, ofOptionT_err, ofOptionT_ok]
  constructor
  · rintro (⟨h, he⟩ | ⟨pki, h, (h1 | ⟨u, h1, h2⟩) | ⟨b, h1, h2⟩⟩)
    · cases he; exact ⟨rfl, .der h⟩
    · obtain ⟨rfl, hd⟩ := declT_err.1 h1; exact ⟨rfl, .declared h hd⟩
    · obtain ⟨hd, -⟩ := declT_ok.1 h1
      obtain ⟨ha, hn, hx⟩ := skFieldT_err.1 h2
      cases hx; exact ⟨rfl, .sec1 h hd ha hn⟩
    · cases hc : declT L .parsePrivateKey rsa alg der pki.oid pki.paramsOid with
      | ok u =>
        rw [hc, Res.bind_ok] at h1
        obtain ⟨hd, ha⟩ := declT_ok.1 hc
        obtain ⟨rfl, hb⟩ := secretBytesT_err.1 h2
        exact ⟨rfl, .key h hd ha ((skFieldT_ok ha.1).1 h1) hb⟩
      | err x => rw [hc] at h1; cases h1
      | panic => rw [hc] at h1; cases h1
  · rintro ⟨rfl, h⟩
    cases h with
    | der h => exact .inl ⟨h, rfl⟩
    | declared h hd => exact .inr ⟨_, h, .inl (.inl (declT_err.2 ⟨rfl, hd⟩))⟩
    | sec1 h hd ha hn =>
      refine .inr ⟨_, h, .inl (.inr ⟨(), declT_ok.2 ⟨hd, ?_⟩, skFieldT_err.2 ⟨ha, hn, rfl⟩⟩)⟩
      rcases ha with rfl | rfl <;> simp [Asymmetric]
    | key h hd ha hf hb =>
      exact .inr ⟨_, h, .inr ⟨_, by rw [declT_ok.2 ⟨hd, ha⟩]; exact (skFieldT_ok ha.1).2 hf, secretBytesT_err.2 ⟨rfl, hb⟩⟩⟩

/-- C112: a text is no file with a private key. -/
theorem C112_secret_pem (rsa : Bool) (alg : Alg) (s : Str) (e : SigErr) (t : Str) :
    (SecretKey.fromPemT L rsa alg s : Res SigErrT (SecretKey P)) = .err ⟨e, t⟩ ↔ e = .parsePrivateKey ∧ SecretPem L P rsa alg s t := by
  simp only [SecretKey.fromPemT, bindT_err, ofOptionT_err, ofOptionT_ok]
  constructor
  · rintro (⟨h, he⟩ | ⟨⟨l, d⟩, h, h1⟩)
    · cases he; exact ⟨rfl, .pem h⟩
    · dsimp only at h1
      split at h1
      · rename_i hl; cases h1; exact ⟨rfl, .tag h hl⟩
      · rename_i hl
        have hl := not_not.1 hl
        subst hl
        obtain ⟨he, hd⟩ := (C112_secret_der ..).1 h1
        exact ⟨he, .der h hd⟩
  · rintro ⟨rfl, h⟩
    cases h with
    | pem h => exact .inl ⟨h, rfl⟩
    | tag h hl => exact .inr ⟨_, h, by rw [if_pos hl]⟩
    | der h hd => exact .inr ⟨_, h, by rw [if_neg (not_not.2 rfl)]; exact (C112_secret_der ..).2 ⟨rfl, hd⟩⟩

/-- C112: a text is no file with a public key. -/
theorem C112_public_pem (rsa : Bool) (alg : Alg) (s : Str) (e : SigErr) (t : Str) :
    (PublicKey.fromPemT L rsa alg s : Res SigErrT (PublicKey P)) = .err ⟨e, t⟩ ↔ e = .parsePublicKey ∧ PublicPem L P rsa alg s t := by
  simp only [PublicKey.fromPemT, bindT_err, ofOptionT_err, ofOptionT_ok]
  constructor
  · rintro (⟨h, he⟩ | ⟨⟨l, d⟩, h, h1⟩)
    · cases he; exact ⟨rfl, .pem h⟩
    · dsimp only at h1
      split at h1
      · rename_i hl; cases h1; exact ⟨rfl, .tag h hl⟩
      · rename_i hl
        have hl := not_not.1 hl
        subst hl
        simp only [pkBytesT_eq, bindT_err, ofOptionT_err, ofOptionT_ok] at h1
        rcases h1 with ⟨hn, he⟩ | ⟨spki, hs, (h1 | ⟨u, h1, hn, he⟩) | ⟨b, h1, h2⟩⟩
        · cases he; exact ⟨rfl, .der h hn⟩
        · obtain ⟨rfl, hd⟩ := declT_err.1 h1; exact ⟨rfl, .declared h hs hd⟩
        · obtain ⟨hd, ha⟩ := declT_ok.1 h1
          cases he; exact ⟨rfl, .bits h hs hd ha hn⟩
        · cases hc : declT L .parsePublicKey rsa alg d spki.oid spki.paramsOid with
          | ok u =>
            rw [hc, Res.bind_ok] at h1
            obtain ⟨hd, ha⟩ := declT_ok.1 hc
            obtain ⟨rfl, hb⟩ := publicBytesT_err.1 h2
            exact ⟨rfl, .key h hs hd ha (ofOptionT_ok.1 h1) hb⟩
          | err x => rw [hc] at h1; cases h1
          | panic => rw [hc] at h1; cases h1
  · rintro ⟨rfl, h⟩
    cases h with
    | pem h => exact .inl ⟨h, rfl⟩
    | tag h hl => exact .inr ⟨_, h, by rw [if_pos hl]⟩
    | der h hn => exact .inr ⟨_, h, by rw [if_neg (not_not.2 rfl), hn]; rfl⟩
    | declared h hs hd =>
      exact .inr ⟨_, h, by rw [if_neg (not_not.2 rfl), hs, Res.ofOption_some, Res.bind_ok, pkBytesT_eq, declT_err (x := ⟨.parsePublicKey, t⟩) |>.2 ⟨rfl, hd⟩]; rfl⟩
    | bits h hs hd ha hn =>
      exact .inr ⟨_, h, by rw [if_neg (not_not.2 rfl), hs, Res.ofOption_some, Res.bind_ok, pkBytesT_eq, declT_ok.2 ⟨hd, ha⟩, hn]; rfl⟩
    | key h hs hd ha hk hb =>
      exact .inr ⟨_, h, by
        rw [if_neg (not_not.2 rfl), hs, Res.ofOption_some, Res.bind_ok, pkBytesT_eq, declT_ok.2 ⟨hd, ha⟩, hk]
        exact publicBytesT_err.2 ⟨rfl, hb⟩⟩

/-- C112: a text is no shared key; that the text is not base64 is found before that the algorithm has no shared keys. -/
theorem C112_shared (alg : Alg) (s : Str) (e : SigErr) (t : Str) :
    SharedKey.fromBase64T L alg s = .err ⟨e, t⟩ ↔
      (Base64.decode true s = none ∧ e = .base64Decode ∧ t = L.base64 s) ∨
      ((Base64.decode true s).isSome ∧ alg ≠ .hmacSha256 ∧ e = .invalidAlgorithmName ∧ t = c! "Unsupported algorithm for SharedKey: " ++ alg.toStr) := by
  simp only [SharedKey.fromBase64T, bindT_err, ofOptionT_err, ofOptionT_ok]
  cases Base64.decode true s with
  | none => simp [eq_comm]
  | some k => cases alg <;> simp [eq_comm]

/-- C112: a text is no name of an algorithm; the error repeats the text. -/
theorem C112_name (rsa : Bool) (s : Str) (e : SigErr) (t : Str) :
    Alg.ofStrT rsa s = .err ⟨e, t⟩ ↔ (∀ a : Alg, a.available rsa = true → s ≠ a.toStr) ∧ e = .invalidAlgorithmName ∧ t = s := by
  have hk := algOfStrT_kind rsa s
  have hx := (C31_name_exact rsa s).1
  constructor
  · intro h
    have ht : e = .invalidAlgorithmName ∧ t = s := by
      unfold Alg.ofStrT at h
      (repeat' split at h) <;> first | (cases h; done) | (cases h; exact ⟨rfl, rfl⟩)
    refine ⟨fun a ha hs => ?_, ht⟩
    rw [h, (hx a).2 ⟨hs, ha⟩] at hk
    cases hk
  · rintro ⟨hn, rfl, rfl⟩
    cases hc : Alg.ofStrT rsa t with
    | ok a =>
      rw [hc] at hk
      obtain ⟨hs, ha⟩ := (hx a).1 hk.symm
      exact absurd hs (hn a ha)
    | err x =>
      unfold Alg.ofStrT at hc
      (repeat' split at hc) <;> first | (cases hc; done) | (cases hc; rfl)
    | panic => unfold Alg.ofStrT at hc; (repeat' split at hc) <;> cases hc

/-- C112: a MAC is wrong; the message is the same whatever the key, the data and the MAC are. -/
theorem C112_mac (k d s : Bytes) (x : SigErrT) :
    (SharedKey.hmacSha256 k).verifyT d s = .err x ↔ s ≠ hmac k d ∧ x = ⟨.invalidSignature, c! "Invalid MAC"⟩ := by
  simp only [SharedKey.verifyT]
  split <;> simp [*, eq_comm]

/-- C112: a signature is refused; what is said is what the crate of the algorithm says of the text or of the check. -/
theorem C112_verify (k : PublicKey P) (d s : Bytes) (e : SigErr) (t : Str) :
    k.verifyT L d s = .err ⟨e, t⟩ ↔ k.verify d s = .err e ∧
      ((e = .parseSignature ∧ t = L.signature k.alg s) ∨ (e = .invalidSignature ∧ t = L.wrong k.alg (keyBytes k) d s)) := by
  have hv : ∀ (a : Alg) (S : Scheme) (pk : S.PK), verifyResT L a S pk d s = .err ⟨e, t⟩ ↔ verifyRes S pk d s = .err e ∧
      ((e = .parseSignature ∧ t = L.signature a s) ∨ (e = .invalidSignature ∧ t = L.wrong a (S.enc pk) d s)) := by
    intro a S pk
    unfold verifyResT verifyRes
    cases S.sigOf s with
    | none =>
      simp only [Res.err.injEq, SigErrT.mk.injEq]
      constructor
      · rintro ⟨rfl, rfl⟩; exact ⟨rfl, .inl ⟨rfl, rfl⟩⟩
      · rintro ⟨rfl, ⟨-, rfl⟩ | ⟨h, -⟩⟩
        · exact ⟨rfl, rfl⟩
        · cases h
    | some g =>
      dsimp only
      split
      · simp
      · simp only [Res.err.injEq, SigErrT.mk.injEq]
        constructor
        · rintro ⟨rfl, rfl⟩; exact ⟨rfl, .inr ⟨rfl, rfl⟩⟩
        · rintro ⟨rfl, ⟨h, -⟩ | ⟨-, rfl⟩⟩
          · cases h
          · exact ⟨rfl, rfl⟩
  cases k with
  | ecdsaP256Sha256 k => simp only [PublicKey.verifyT, PublicKey.verify]; split; · simp
                         exact hv _ _ _
  | ecdsaP384Sha384 k => simp only [PublicKey.verifyT, PublicKey.verify]; split; · simp
                         exact hv _ _ _
  | ed25519 k => exact hv _ _ _
  | rsaV15Sha256 k => exact hv _ _ _
  | rsaPssSha512 k => exact hv _ _ _

/-! ### Whose words -/

/-- C112: in the errors of reading a private key the library's own words are four fixed texts and one fixed beginning; everything else is a message of
another crate. So the errors disclose of a private key at most what those crates' messages do. -/
theorem C112_own_words (rsa : Bool) (alg : Alg) (s : Str) (e : SigErr) (t : Str)
    (h : (SecretKey.fromPemT L rsa alg s : Res SigErrT (SecretKey P)) = .err ⟨e, t⟩) :
    t ∈ [c! "Invalid tag", c! "Unsupported curve", c! "Algorithm mismatch", c! "Unsupported algorithm"] ∨ t = L.pem s ∨
    ∃ b, t = L.pki b ∨ t = L.params b ∨ t = c! "Error decoding EcPrivateKey: " ++ L.sec1 b ∨ t = L.secretKey alg b := by
  have hb : ∀ {b}, SecretBytes L P rsa alg b t → t = c! "Unsupported algorithm" ∨ t = L.secretKey alg b := by
    rintro b (_ | _)
    · exact .inl rfl
    · exact .inr rfl
  rcases ((C112_secret_pem ..).1 h).2 with _ | _ | ⟨-, hd⟩
  · exact .inr (.inl rfl)
  · exact .inl (by simp)
  · rename_i d
    rcases hd with _ | ⟨-, hd⟩ | _ | ⟨-, -, -, -, hd⟩
    · exact .inr (.inr ⟨d, .inl rfl⟩)
    · rcases hd with _ | _ | _ | _
      · exact .inr (.inr ⟨d, .inr (.inl rfl)⟩)
      all_goals exact .inl (by simp)
    · exact .inr (.inr ⟨_, .inr (.inr (.inl rfl))⟩)
    · rcases hb hd with rfl | rfl
      · exact .inl (by simp)
      · exact .inr (.inr ⟨_, .inr (.inr (.inr rfl))⟩)

/-! ### `Debug` -/

/-- C112: `Debug` of a shared key shows the whole key: different keys have different texts. -/
theorem C112_debug {k k' : SharedKey} (h : k.debug = k'.debug) : k = k' := by
  obtain ⟨k⟩ := k; obtain ⟨k'⟩ := k'
  unfold SharedKey.debug at h
  simp only [List.append_assoc, List.append_cancel_left_eq] at h
  rw [decimals_inj h]

end

/-! ### Concrete cases -/

/-- Messages that name the step. -/
def toyErrLib : KeyErrLib where
  base64 _ := c! "b64"
  pem _ := c! "pem"
  pki _ := c! "pki"
  spki _ := c! "spki"
  params _ := c! "params"
  sec1 _ := c! "sec1"
  secretKey _ _ := c! "sk"
  publicKey _ _ := c! "pk"
  signature _ _ := c! "sig"
  wrong _ _ _ _ := c! "wrong"

/-- Files of every kind: an EC key without a curve, on an unknown curve, with a field that is no `EcPrivateKey`, an RSA key and an unknown algorithm. -/
def sayPrims : Prims := { toyPrims with
  p256 := { toyScheme 64 with skOf := fun _ => none, pkOf := fun _ => none, sigOf := fun s => if s.head? = some 9 then none else some s }
  pkiOfDer := fun b => match b with
    | 1 :: t => some ⟨c! "1.2.840.10045.2.1", some (c! "1.2.840.10045.3.1.7"), t⟩
    | 2 :: t => some ⟨c! "1.3.101.112", none, t⟩
    | 3 :: t => some ⟨c! "1.2.840.10045.2.1", none, t⟩
    | 4 :: t => some ⟨c! "1.2.840.10045.2.1", some (c! "1.3.132.0.35"), t⟩
    | 5 :: t => some ⟨c! "1.2.840.113549.1.1.1", none, t⟩
    | 6 :: t => some ⟨c! "1.2.3", none, t⟩
    | _ => none
  spkiOfDer := fun b => match b with
    | 1 :: t => some ⟨c! "1.2.840.10045.2.1", some (c! "1.2.840.10045.3.1.7"), some t⟩
    | 2 :: _ => some ⟨c! "1.3.101.112", none, none⟩
    | _ => none
  sec1 := fun b => if b = [] then none else some b
  pem := fun s => match s with
    | 'p' :: t => some (c! "PRIVATE KEY", t.map fun c => UInt8.ofNat (c.toNat - 48))
    | 'q' :: t => some (c! "PUBLIC KEY", t.map fun c => UInt8.ofNat (c.toNat - 48))
    | _ => none }

/-- What is said when a private key is read from a text. -/
def saysSecret (rsa : Bool) (alg : Alg) (s : Str) : Option Str :=
  match (SecretKey.fromPemT toyErrLib rsa alg s : Res SigErrT (SecretKey sayPrims)) with
  | .err x => some x.text
  | _ => none

/-- What is said when a public key is read from a text. -/
def saysPublic (rsa : Bool) (alg : Alg) (s : Str) : Option Str :=
  match (PublicKey.fromPemT toyErrLib rsa alg s : Res SigErrT (PublicKey sayPrims)) with
  | .err x => some x.text
  | _ => none

example : saysSecret false .ed25519 (c! "x") = some (c! "pem") := rfl
example : saysSecret false .ed25519 (c! "q1") = some (c! "Invalid tag") := rfl
example : saysSecret false .ed25519 (c! "p9") = some (c! "pki") := by decide +kernel
example : saysSecret false .ed25519 (c! "p3") = some (c! "params") := by decide +kernel
/-- The curve is looked at before the algorithm that was asked for. -/
example : saysSecret false .ed25519 (c! "p4") = some (c! "Unsupported curve") := by decide +kernel
example : saysSecret false .ed25519 (c! "p1") = some (c! "Algorithm mismatch") := by decide +kernel
example : saysSecret false .hmacSha256 (c! "p2") = some (c! "Algorithm mismatch") := by decide +kernel
example : saysSecret false .ecdsaP256Sha256 (c! "p1") = some (c! "Error decoding EcPrivateKey: sec1") := by decide +kernel
example : saysSecret false .ecdsaP256Sha256 (c! "p100000000000000000000000000000000") = some (c! "sk") := by decide +kernel
/-- An RSA key: unknown without the feature, another algorithm with it. -/
example : saysSecret false .ed25519 (c! "p5") = some (c! "Unsupported algorithm") ∧
    saysSecret true .ed25519 (c! "p5") = some (c! "Algorithm mismatch") ∧
    saysSecret true .ed25519 (c! "p6") = some (c! "Unsupported algorithm") := by decide +kernel
/-- Nothing is said when the read panics: the key field of an Ed25519 key is too short. -/
example : saysSecret false .ed25519 (c! "p20") = none := by decide +kernel

example : saysPublic false .ed25519 (c! "x") = some (c! "pem") := rfl
example : saysPublic false .ed25519 (c! "p2") = some (c! "Invalid tag") := rfl
example : saysPublic false .ed25519 (c! "q9") = some (c! "Error decoding SubjectPublicKeyInfo: spki") := by decide +kernel
example : saysPublic false .ed25519 (c! "q1") = some (c! "Algorithm mismatch") := by decide +kernel
example : saysPublic false .ed25519 (c! "q2") = some (c! "Invalid public key") := by decide +kernel
example : saysPublic false .ecdsaP256Sha256 (c! "q17") = some (c! "pk") := by decide +kernel

example : (SecretKey.fromBytesT toyErrLib true .hmacSha256 [] : Res SigErrT (SecretKey sayPrims)) =
    .err ⟨.parsePrivateKey, c! "Unsupported algorithm"⟩ := rfl
example : (PublicKey.fromBytesT toyErrLib false .rsaPssSha512 [] : Res SigErrT (PublicKey sayPrims)) =
    .err ⟨.parsePublicKey, c! "Unsupported algorithm"⟩ := rfl
example : SharedKey.fromBase64T toyErrLib .ed25519 (c! "!") = .err ⟨.base64Decode, c! "b64"⟩ := by decide +kernel
example : SharedKey.fromBase64T toyErrLib .ed25519 (c! "AAAA") =
    .err ⟨.invalidAlgorithmName, c! "Unsupported algorithm for SharedKey: ed25519"⟩ := by decide +kernel
example : Alg.ofStrT false (c! "rsa-pss-sha512") = .err ⟨.invalidAlgorithmName, c! "rsa-pss-sha512"⟩ ∧
    Alg.ofStrT true (c! "rsa-pss-sha512") = .ok .rsaPssSha512 := by decide +kernel

/-- A signature that cannot be read, and one that is wrong. -/
example : (PublicKey.ecdsaP256Sha256 [1] : PublicKey sayPrims).verifyT toyErrLib [] (List.replicate 64 9) = .err ⟨.parseSignature, c! "sig"⟩ ∧
    (PublicKey.ecdsaP256Sha256 [1] : PublicKey sayPrims).verifyT toyErrLib [] (List.replicate 64 8) = .err ⟨.invalidSignature, c! "wrong"⟩ :=
  ⟨rfl, rfl⟩
/-- An empty MAC is wrong for every key and all data. -/
example (k d : Bytes) : (SharedKey.hmacSha256 k).verifyT d [] = .err ⟨.invalidSignature, c! "Invalid MAC"⟩ :=
  (C112_mac ..).2 ⟨fun h => absurd (congrArg List.length h) (by rw [hmac_length]; decide), rfl⟩

example : (SharedKey.hmacSha256 [1, 0, 255]).debug = c! "HmacSha256([1, 0, 255])" := by decide +kernel
example : (SharedKey.hmacSha256 []).debug = c! "HmacSha256([])" := rfl

end Verif
