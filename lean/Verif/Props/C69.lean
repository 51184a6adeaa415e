import Verif.Proofs.RsaSpec
import Verif.Props.C68
/-!
C69: RSA keys and signatures against RFC 8017, written down in `Spec/Rsa.lean`. The theorems hold for every choice in `Rsa.Lib`: limits on
keys, the private operation, the lengths of signatures taken, the byte before the encoded message.
-/
namespace Verif
open Spec Spec.Sha Spec.Rsa Sha2

/-! ### Key files -/

/-- An RSAPublicKey in DER. -/
def RsaPublicFile (L : Der.Lib) (n e : Nat) (b : Bytes) : Prop :=
  ∃ c, Asn1.Elem 0x30 c b ∧ c.length ≤ L.maxLen ∧ c.length < 2 ^ 32 ∧ Asn1.RsaPublicKey n e c

/-- An RSAPrivateKey in DER. The last three numbers may be anything. -/
def RsaPrivateFile (L : Der.Lib) (n e d p q : Nat) (b : Bytes) : Prop :=
  ∃ c dp dq qi, Asn1.Elem 0x30 c b ∧ c.length ≤ L.maxLen ∧ c.length < 2 ^ 32 ∧ Asn1.RsaPrivateKey n e d p q dp dq qi c

theorem pubFile_iff {L : Der.Lib} {n e : Nat} {b : Bytes} : RsaPublicFile L n e b ↔ Rsa.pubOfDer L b = some ⟨n, e⟩ := by
  rw [Rsa.pubOfDer_iff]
  exact ⟨fun ⟨c, h1, h2, h3, h4⟩ => ⟨c, ⟨h1, h2, h3⟩, h4⟩, fun ⟨c, ⟨h1, h2, h3⟩, h4⟩ => ⟨c, h1, h2, h3, h4⟩⟩

theorem privFile_iff {L : Der.Lib} {n e d p q : Nat} {b : Bytes} : RsaPrivateFile L n e d p q b ↔ Rsa.privOfDer L b = some ⟨n, e, d, p, q⟩ := by
  rw [Rsa.privOfDer_iff]
  exact ⟨fun ⟨c, x, y, z, h1, h2, h3, h4⟩ => ⟨c, x, y, z, ⟨h1, h2, h3⟩, h4⟩,
    fun ⟨c, x, y, z, ⟨h1, h2, h3⟩, h4⟩ => ⟨c, x, y, z, h1, h2, h3, h4⟩⟩

/-- The numbers in a file are determined by it. -/
theorem pubFile_unique {L : Der.Lib} {n e n' e' : Nat} {b : Bytes} (h : RsaPublicFile L n e b) (h' : RsaPublicFile L n' e' b) :
    n = n' ∧ e = e' := by
  rw [pubFile_iff] at h h'
  rw [h] at h'
  simpa using h'

theorem tlv_le (tag : UInt8) (c : Bytes) (h : c.length < 2 ^ 32) : (Der.tlv tag c).length ≤ c.length + 6 := by
  unfold Der.tlv Der.lenBytes
  split
  · simp
  · rename_i h1
    have hl : Nat.log2 c.length < 32 := (Nat.log2_lt (by omega)).2 h
    simp only [List.length_append, List.length_cons, Verif.beBytes_length]
    omega

theorem bits_of_integer {n : Nat} {x : Bytes} (h : Asn1.Integer n x) (hx : x.length < 2 ^ 32) : Nat.log2 n ≤ 2 ^ 40 := by
  obtain ⟨c, ⟨hv, _⟩, he⟩ := h
  have hl := Der.elem_length he
  by_cases hn : n = 0
  · rw [hn]; decide
  · have hlt := beVal_lt c
    rw [hv, Der.pow256] at hlt
    have := (Nat.log2_lt hn).2 hlt
    omega

theorem pubFile_der {L : Der.Lib} {n e : Nat} {b : Bytes} (h : RsaPublicFile L n e b) :
    b = Rsa.pubDer ⟨n, e⟩ ∧ b.length < 2 ^ 33 ∧ Nat.log2 n ≤ 2 ^ 40 := by
  obtain ⟨c, h1, _, h3, x, y, hx, hy, rfl⟩ := h
  have hc := h3
  rw [List.length_append] at h3
  rw [Der.elem_iff hc] at h1
  have hx' := hx
  rw [Der.integer_iff (by omega)] at hx hy
  refine ⟨by rw [h1, hx, hy]; rfl, ?_, ?_⟩
  · rw [h1]
    have := tlv_le 0x30 _ hc
    omega
  · exact bits_of_integer hx' (by omega)

theorem privFile_bits {L : Der.Lib} {n e d p q : Nat} {b : Bytes} (h : RsaPrivateFile L n e d p q b) : Nat.log2 n ≤ 2 ^ 40 := by
  obtain ⟨c, _, _, _, _, _, hl, bs, hb, rfl⟩ := h
  obtain ⟨x0, bs0, _, hb0, rfl⟩ := List.forall₂_cons_left_iff.1 hb
  obtain ⟨x1, bs1, h1, _, rfl⟩ := List.forall₂_cons_left_iff.1 hb0
  simp only [List.flatten_cons, List.length_append] at hl
  exact bits_of_integer h1 (by omega)

theorem log_lt {n k : Nat} (hn : n ≠ 0) (h : n < 2 ^ k) : Nat.log2 n < k := (Nat.log2_lt hn).2 h
theorem le_log {n k : Nat} (hn : n ≠ 0) (h : 2 ^ k ≤ n) : k ≤ Nat.log2 n := (Nat.le_log2 hn).2 h

/-! ### Public keys -/

theorem pk_rsa15_iff {L : Libs} {rsa : Bool} {b : Bytes} {pk : PublicKey L.prims} :
    PublicKey.fromBytes rsa .rsaV15Sha256 b = .ok pk ↔ rsa = true ∧ ∃ n e, ∃ h : L.rsa.okPub ⟨n, e⟩ = true,
      RsaPublicFile L.rsa.der n e b ∧ pk = .rsaV15Sha256 (P := L.prims) ⟨⟨n, e⟩, h⟩ := by
  have e : PublicKey.fromBytes (P := L.prims) rsa .rsaV15Sha256 b =
      if rsa then Res.ofOption .parsePublicKey ((Rsa.rsa15 L.rsa).pkOf b) >>= fun k => .ok (.rsaV15Sha256 (P := L.prims) k)
      else .err .parsePublicKey := rfl
  rw [e]
  cases rsa
  · simp
  · simp only [if_true, Res.bind_eq_ok, Res.ofOption_eq_ok, Res.ok.injEq, Rsa.rsa15, Rsa.scheme, true_and, Option.bind_eq_some_iff]
    constructor
    · rintro ⟨k, ⟨k', h1, h2⟩, rfl⟩
      split at h2
      · rename_i ho
        rw [← Option.some.inj h2]
        exact ⟨k'.n, k'.e, ho, pubFile_iff.2 h1, rfl⟩
      · cases h2
    · rintro ⟨n, e, ho, h1, rfl⟩
      exact ⟨_, ⟨_, pubFile_iff.1 h1, dif_pos ho⟩, rfl⟩

theorem pk_rsaPss_iff {L : Libs} {rsa : Bool} {b : Bytes} {pk : PublicKey L.prims} :
    PublicKey.fromBytes rsa .rsaPssSha512 b = .ok pk ↔ rsa = true ∧ ∃ n e, ∃ h : L.rsa.okPub ⟨n, e⟩ = true,
      RsaPublicFile L.rsa.der n e b ∧ pk = .rsaPssSha512 (P := L.prims) ⟨⟨n, e⟩, h⟩ := by
  have e : PublicKey.fromBytes (P := L.prims) rsa .rsaPssSha512 b =
      if rsa then Res.ofOption .parsePublicKey ((Rsa.rsaPss L.rsa).pkOf b) >>= fun k => .ok (.rsaPssSha512 (P := L.prims) k)
      else .err .parsePublicKey := rfl
  rw [e]
  cases rsa
  · simp
  · simp only [if_true, Res.bind_eq_ok, Res.ofOption_eq_ok, Res.ok.injEq, Rsa.rsaPss, Rsa.scheme, true_and, Option.bind_eq_some_iff]
    constructor
    · rintro ⟨k, ⟨k', h1, h2⟩, rfl⟩
      split at h2
      · rename_i ho
        rw [← Option.some.inj h2]
        exact ⟨k'.n, k'.e, ho, pubFile_iff.2 h1, rfl⟩
      · cases h2
    · rintro ⟨n, e, ho, h1, rfl⟩
      exact ⟨_, ⟨_, pubFile_iff.1 h1, dif_pos ho⟩, rfl⟩

/-- The two algorithms. -/
def IsRsa (alg : Alg) : Prop := alg = .rsaV15Sha256 ∨ alg = .rsaPssSha512

/-- C69: with the feature, the public keys are the RSAPublicKey structures with numbers inside the limits of the library. All else is refused
with an error. -/
theorem C69_public_key (L : Libs) (rsa : Bool) {alg : Alg} (ha : IsRsa alg) (b : Bytes) :
    ((∃ pk, PublicKey.fromBytes (P := L.prims) rsa alg b = .ok pk) ↔
      rsa = true ∧ ∃ n e, RsaPublicFile L.rsa.der n e b ∧ L.rsa.okPub ⟨n, e⟩ = true) ∧
    ((¬∃ pk, PublicKey.fromBytes (P := L.prims) rsa alg b = .ok pk) → PublicKey.fromBytes (P := L.prims) rsa alg b = .err .parsePublicKey) := by
  constructor
  · rcases ha with rfl | rfl
    · constructor
      · rintro ⟨pk, h⟩
        obtain ⟨hr, n, e, ho, hf, _⟩ := pk_rsa15_iff.1 h
        exact ⟨hr, n, e, hf, ho⟩
      · rintro ⟨hr, n, e, hf, ho⟩
        exact ⟨_, pk_rsa15_iff.2 ⟨hr, n, e, ho, hf, rfl⟩⟩
    · constructor
      · rintro ⟨pk, h⟩
        obtain ⟨hr, n, e, ho, hf, _⟩ := pk_rsaPss_iff.1 h
        exact ⟨hr, n, e, hf, ho⟩
      · rintro ⟨hr, n, e, hf, ho⟩
        exact ⟨_, pk_rsaPss_iff.2 ⟨hr, n, e, ho, hf, rfl⟩⟩
  · intro hn
    have key : ∀ x : Option (Rsa.rsa15 L.rsa).PK, ∀ f : (Rsa.rsa15 L.rsa).PK → PublicKey L.prims,
        (¬∃ pk, (if rsa then (Res.ofOption .parsePublicKey x >>= fun k => .ok (f k) : Res SigErr (PublicKey L.prims)) else .err .parsePublicKey) = .ok pk) →
        (if rsa then (Res.ofOption .parsePublicKey x >>= fun k => .ok (f k) : Res SigErr (PublicKey L.prims)) else .err .parsePublicKey) = .err .parsePublicKey := by
      intro x f h
      cases rsa
      · rfl
      · cases x with
        | none => rfl
        | some k => exact absurd ⟨f k, rfl⟩ h
    rcases ha with rfl | rfl
    · exact key ((Rsa.rsa15 L.rsa).pkOf b) (fun k => .rsaV15Sha256 (P := L.prims) k) hn
    · exact key ((Rsa.rsaPss L.rsa).pkOf b) (fun k => .rsaPssSha512 (P := L.prims) k) hn

/-- C69: the key id is made from the RSAPublicKey structure, as documented. -/
theorem C69_key_id (V : Variant 32) (hV : IsSha256 V) (L : Libs) (rsa : Bool) {alg : Alg} (ha : IsRsa alg) {b d : Bytes}
    {pk : PublicKey L.prims} (h : PublicKey.fromBytes rsa alg b = .ok pk) (hd : Digest V b d) : pk.keyId = Base64.encode d := by
  have key : ∀ {n e}, RsaPublicFile L.rsa.der n e b → d = sha256 (Rsa.pubDer ⟨n, e⟩) := by
    intro n e hf
    obtain ⟨h1, h2, _⟩ := pubFile_der hf
    rw [C61_sha256 V hV b d (by omega)] at hd
    rw [hd, ← h1]
  rcases ha with rfl | rfl
  · obtain ⟨_, n, e, _, hf, rfl⟩ := pk_rsa15_iff.1 h
    rw [key hf]; rfl
  · obtain ⟨_, n, e, _, hf, rfl⟩ := pk_rsaPss_iff.1 h
    rw [key hf]; rfl

theorem verify_rsa15_eq {L : Libs} {k : Rsa.Pub} (ho : L.rsa.okPub k = true) (data sig : Bytes) :
    (PublicKey.rsaV15Sha256 (P := L.prims) ⟨k, ho⟩).verify data sig =
      if Rsa.verify15 L.rsa k data sig then .ok () else .err .invalidSignature := rfl

theorem verify_rsaPss_eq {L : Libs} {k : Rsa.Pub} (ho : L.rsa.okPub k = true) (data sig : Bytes) :
    (PublicKey.rsaPssSha512 (P := L.prims) ⟨k, ho⟩).verify data sig =
      if Rsa.verifyPss L.rsa k data sig then .ok () else .err .invalidSignature := rfl

theorem verdict_iff {b : Bool} : ((if b then .ok () else .err .invalidSignature : Res SigErr Unit) = .ok () ↔ b = true) ∧
    ((if b then .ok () else .err .invalidSignature : Res SigErr Unit) ≠ .ok () →
      (if b then .ok () else .err .invalidSignature : Res SigErr Unit) = .err .invalidSignature) := by
  cases b <;> simp

/-- C69: an imported key for rsa-v1_5-sha256 accepts exactly the signatures that RFC 8017 section 8.2.2 accepts for the numbers in the file, if of
a length the library takes. All else is refused with an error. -/
theorem C69_verify_v15 (V : Variant 32) (hV : IsSha256 V) (L : Libs) (rsa : Bool) {b : Bytes} {n e : Nat} {pk : PublicKey L.prims}
    (h : PublicKey.fromBytes rsa .rsaV15Sha256 b = .ok pk) (hf : RsaPublicFile L.rsa.der n e b) (data sig : Bytes)
    (hd : 8 * data.length < 2 ^ 64) :
    (pk.verify data sig = .ok () ↔ Verifies15 V L.rsa.sigLen n e data sig) ∧
    (pk.verify data sig ≠ .ok () → pk.verify data sig = .err .invalidSignature) := by
  obtain ⟨_, n', e', ho, hf', rfl⟩ := pk_rsa15_iff.1 h
  obtain ⟨rfl, rfl⟩ := pubFile_unique hf hf'
  rw [verify_rsa15_eq]
  exact ⟨verdict_iff.1.trans (Rsa.verify15_iff hV L.rsa ⟨n, e⟩ sig hd), verdict_iff.2⟩

/-- C69: the same for rsa-pss-sha512 and section 8.1.2. -/
theorem C69_verify_pss (V : Variant 64) (hV : IsSha512 V) (L : Libs) (rsa : Bool) {b : Bytes} {n e : Nat} {pk : PublicKey L.prims}
    (h : PublicKey.fromBytes rsa .rsaPssSha512 b = .ok pk) (hf : RsaPublicFile L.rsa.der n e b) (data sig : Bytes)
    (hd : 8 * data.length < 2 ^ 128) :
    (pk.verify data sig = .ok () ↔ VerifiesPss V L.rsa.sigLen L.rsa.topByte n e data sig) ∧
    (pk.verify data sig ≠ .ok () → pk.verify data sig = .err .invalidSignature) := by
  obtain ⟨_, n', e', ho, hf', rfl⟩ := pk_rsaPss_iff.1 h
  obtain ⟨rfl, rfl⟩ := pubFile_unique hf hf'
  rw [verify_rsaPss_eq]
  exact ⟨verdict_iff.1.trans (Rsa.verifyPss_iff hV L.rsa ⟨n, e⟩ sig hd (pubFile_der hf).2.2), verdict_iff.2⟩

/-! ### Private keys -/

theorem sk_rsa15_iff {L : Libs} {rsa : Bool} {b : Bytes} {sk : SecretKey L.prims} :
    SecretKey.fromBytes rsa .rsaV15Sha256 b = .ok sk ↔ rsa = true ∧ ∃ k, ∃ h : Rsa.Priv.Ok L.rsa k,
      RsaPrivateFile L.rsa.der k.n k.e k.d k.p k.q b ∧ sk = .rsaV15Sha256 (P := L.prims) ⟨k, h⟩ := by
  have e : SecretKey.fromBytes (P := L.prims) rsa .rsaV15Sha256 b =
      if rsa then Res.ofOption .parsePrivateKey ((Rsa.rsa15 L.rsa).skOf b) >>= fun k => .ok (.rsaV15Sha256 (P := L.prims) k)
      else .err .parsePrivateKey := rfl
  rw [e]
  cases rsa
  · simp
  · simp only [if_true, Res.bind_eq_ok, Res.ofOption_eq_ok, Res.ok.injEq, Rsa.rsa15, Rsa.scheme, true_and, Option.bind_eq_some_iff]
    constructor
    · rintro ⟨k, ⟨k', h1, h2⟩, rfl⟩
      split at h2
      · rename_i ho
        rw [← Option.some.inj h2]
        exact ⟨k', ho, privFile_iff.2 h1, rfl⟩
      · cases h2
    · rintro ⟨k, ho, h1, rfl⟩
      exact ⟨_, ⟨_, privFile_iff.1 h1, dif_pos ho⟩, rfl⟩

theorem sk_rsaPss_iff {L : Libs} {rsa : Bool} {b : Bytes} {sk : SecretKey L.prims} :
    SecretKey.fromBytes rsa .rsaPssSha512 b = .ok sk ↔ rsa = true ∧ ∃ k, ∃ h : Rsa.Priv.Ok L.rsa k,
      RsaPrivateFile L.rsa.der k.n k.e k.d k.p k.q b ∧ sk = .rsaPssSha512 (P := L.prims) ⟨k, h⟩ := by
  have e : SecretKey.fromBytes (P := L.prims) rsa .rsaPssSha512 b =
      if rsa then Res.ofOption .parsePrivateKey ((Rsa.rsaPss L.rsa).skOf b) >>= fun k => .ok (.rsaPssSha512 (P := L.prims) k)
      else .err .parsePrivateKey := rfl
  rw [e]
  cases rsa
  · simp
  · simp only [if_true, Res.bind_eq_ok, Res.ofOption_eq_ok, Res.ok.injEq, Rsa.rsaPss, Rsa.scheme, true_and, Option.bind_eq_some_iff]
    constructor
    · rintro ⟨k, ⟨k', h1, h2⟩, rfl⟩
      split at h2
      · rename_i ho
        rw [← Option.some.inj h2]
        exact ⟨k', ho, privFile_iff.2 h1, rfl⟩
      · cases h2
    · rintro ⟨k, ho, h1, rfl⟩
      exact ⟨_, ⟨_, privFile_iff.1 h1, dif_pos ho⟩, rfl⟩

/-- C69: with the feature, the private keys are the RSAPrivateKey structures whose numbers fit each other and are inside the limits of the
library. All else is refused with an error; there is no panic. -/
theorem C69_secret_key (L : Libs) (rsa : Bool) {alg : Alg} (ha : IsRsa alg) (b : Bytes) :
    ((∃ sk, SecretKey.fromBytes (P := L.prims) rsa alg b = .ok sk) ↔ rsa = true ∧ ∃ n e d p q, RsaPrivateFile L.rsa.der n e d p q b ∧
      Fits n e d p q ∧ L.rsa.okPub ⟨n, e⟩ = true ∧ L.rsa.okPriv ⟨n, e, d, p, q⟩ = true) ∧
    ((¬∃ sk, SecretKey.fromBytes (P := L.prims) rsa alg b = .ok sk) → SecretKey.fromBytes (P := L.prims) rsa alg b = .err .parsePrivateKey) := by
  have hk : (∃ k, ∃ _ : Rsa.Priv.Ok L.rsa k, RsaPrivateFile L.rsa.der k.n k.e k.d k.p k.q b) ↔ ∃ n e d p q, RsaPrivateFile L.rsa.der n e d p q b ∧
      Fits n e d p q ∧ L.rsa.okPub ⟨n, e⟩ = true ∧ L.rsa.okPriv ⟨n, e, d, p, q⟩ = true := by
    constructor
    · rintro ⟨k, ⟨h1, h2, h3⟩, hf⟩
      exact ⟨_, _, _, _, _, hf, h3, h1, h2⟩
    · rintro ⟨n, e, d, p, q, hf, h3, h1, h2⟩
      exact ⟨⟨n, e, d, p, q⟩, ⟨h1, h2, h3⟩, hf⟩
  constructor
  · rw [← hk]
    rcases ha with rfl | rfl
    · constructor
      · rintro ⟨sk, h⟩
        obtain ⟨hr, k, ho, hf, _⟩ := sk_rsa15_iff.1 h
        exact ⟨hr, k, ho, hf⟩
      · rintro ⟨hr, k, ho, hf⟩
        exact ⟨_, sk_rsa15_iff.2 ⟨hr, k, ho, hf, rfl⟩⟩
    · constructor
      · rintro ⟨sk, h⟩
        obtain ⟨hr, k, ho, hf, _⟩ := sk_rsaPss_iff.1 h
        exact ⟨hr, k, ho, hf⟩
      · rintro ⟨hr, k, ho, hf⟩
        exact ⟨_, sk_rsaPss_iff.2 ⟨hr, k, ho, hf, rfl⟩⟩
  · intro hn
    have key : ∀ x : Option (Rsa.rsa15 L.rsa).SK, ∀ f : (Rsa.rsa15 L.rsa).SK → SecretKey L.prims,
        (¬∃ sk, (if rsa then (Res.ofOption .parsePrivateKey x >>= fun k => .ok (f k) : Res SigErr (SecretKey L.prims)) else .err .parsePrivateKey) = .ok sk) →
        (if rsa then (Res.ofOption .parsePrivateKey x >>= fun k => .ok (f k) : Res SigErr (SecretKey L.prims)) else .err .parsePrivateKey) = .err .parsePrivateKey := by
      intro x f h
      cases rsa
      · rfl
      · cases x with
        | none => rfl
        | some k => exact absurd ⟨f k, rfl⟩ h
    rcases ha with rfl | rfl
    · exact key ((Rsa.rsa15 L.rsa).skOf b) (fun k => .rsaV15Sha256 (P := L.prims) k) hn
    · exact key ((Rsa.rsaPss L.rsa).skOf b) (fun k => .rsaPssSha512 (P := L.prims) k) hn

theorem privFile_unique {L : Der.Lib} {n e d p q : Nat} {b : Bytes} {k : Rsa.Priv} (h : RsaPrivateFile L n e d p q b)
    (h' : RsaPrivateFile L k.n k.e k.d k.p k.q b) : k = ⟨n, e, d, p, q⟩ := by
  rw [privFile_iff] at h h'
  rw [h] at h'
  exact (Option.some.inj h').symm

theorem pk_rsa15_inj {L : Libs} {k k' : Rsa.Pub} {h : L.rsa.okPub k = true} {h' : L.rsa.okPub k' = true} :
    PublicKey.rsaV15Sha256 (P := L.prims) ⟨k, h⟩ = PublicKey.rsaV15Sha256 (P := L.prims) ⟨k', h'⟩ ↔ k = k' :=
  ⟨fun e => by injection e with e; exact congrArg Subtype.val e, fun e => by subst e; rfl⟩

theorem pk_rsaPss_inj {L : Libs} {k k' : Rsa.Pub} {h : L.rsa.okPub k = true} {h' : L.rsa.okPub k' = true} :
    PublicKey.rsaPssSha512 (P := L.prims) ⟨k, h⟩ = PublicKey.rsaPssSha512 (P := L.prims) ⟨k', h'⟩ ↔ k = k' :=
  ⟨fun e => by injection e with e; exact congrArg Subtype.val e, fun e => by subst e; rfl⟩

/-- C69: a public key belongs to a private key exactly if it has the same modulus and the same public exponent. -/
theorem C69_pair (L : Libs) (rsa rsa' : Bool) {alg : Alg} (ha : IsRsa alg) {b b' : Bytes} {n e d p q n' e' : Nat} {sk : SecretKey L.prims}
    {pk : PublicKey L.prims} (hs : SecretKey.fromBytes rsa alg b = .ok sk) (hf : RsaPrivateFile L.rsa.der n e d p q b)
    (hp : PublicKey.fromBytes rsa' alg b' = .ok pk) (hf' : RsaPublicFile L.rsa.der n' e' b') :
    sk.publicKey = pk ↔ n' = n ∧ e' = e := by
  rcases ha with rfl | rfl
  · obtain ⟨_, k, ho, hk, rfl⟩ := sk_rsa15_iff.1 hs
    obtain ⟨_, n1, e1, ho', hk', rfl⟩ := pk_rsa15_iff.1 hp
    obtain ⟨rfl, rfl⟩ := pubFile_unique hf' hk'
    obtain rfl := privFile_unique hf hk
    refine Iff.trans (pk_rsa15_inj (L := L) (h := ho.1)) ?_
    rw [Rsa.Pub.mk.injEq]
    exact and_congr eq_comm eq_comm
  · obtain ⟨_, k, ho, hk, rfl⟩ := sk_rsaPss_iff.1 hs
    obtain ⟨_, n1, e1, ho', hk', rfl⟩ := pk_rsaPss_iff.1 hp
    obtain ⟨rfl, rfl⟩ := pubFile_unique hf' hk'
    obtain rfl := privFile_unique hf hk
    refine Iff.trans (pk_rsaPss_inj (L := L) (h := ho.1)) ?_
    rw [Rsa.Pub.mk.injEq]
    exact and_congr eq_comm eq_comm

/-! ### Signatures -/

theorem signRes_cases {x : Option Bytes} : (∃ s, x = some s ∧ signRes x = .ok s) ∨ (x = none ∧ signRes x = .panic) := by
  cases x with
  | none => exact Or.inr ⟨rfl, rfl⟩
  | some s => exact Or.inl ⟨s, rfl, rfl⟩

/-- The length of signatures in RFC 8017. -/
def rfcLen (k l : Nat) : Bool := l == k

/-- C69: signing with rsa-v1_5-sha256 gives a signature as long as the modulus that RFC 8017 section 8.2.2 accepts, or panics. It panics if
the modulus is shorter than 62 bytes. -/
theorem C69_sign_v15 (V : Variant 32) (hV : IsSha256 V) (L : Libs) (rsa : Bool) {b : Bytes} {n e d p q k : Nat} {sk : SecretKey L.prims}
    (hs : SecretKey.fromBytes rsa .rsaV15Sha256 b = .ok sk) (hf : RsaPrivateFile L.rsa.der n e d p q b) (hk : Octets n k)
    (rnd data : Bytes) (hd : 8 * data.length < 2 ^ 64) :
    ((∃ sig, sk.sign rnd data = .ok sig ∧ Verifies15 V rfcLen n e data sig) ∨ sk.sign rnd data = .panic) ∧
    (k < 62 → sk.sign rnd data = .panic) := by
  obtain ⟨_, x, ho, hx, rfl⟩ := sk_rsa15_iff.1 hs
  obtain rfl := privFile_unique hf hx
  obtain ⟨hn, rfl⟩ := Rsa.octets_iff.1 hk
  show ((∃ sig, signRes (Rsa.sign15 L.rsa rnd ⟨n, e, d, p, q⟩ data) = .ok sig ∧ _) ∨ signRes (Rsa.sign15 L.rsa rnd ⟨n, e, d, p, q⟩ data) = .panic) ∧
    (_ → signRes (Rsa.sign15 L.rsa rnd ⟨n, e, d, p, q⟩ data) = .panic)
  constructor
  · rcases signRes_cases (x := Rsa.sign15 L.rsa rnd ⟨n, e, d, p, q⟩ data) with ⟨s, h1, h2⟩ | ⟨_, h2⟩
    · refine Or.inl ⟨s, h2, ?_⟩
      simp only [Rsa.sign15, Option.bind_eq_bind, Option.bind_eq_some_iff] at h1
      obtain ⟨em, he, hp⟩ := h1
      obtain ⟨g1, _, g3, g4⟩ := Rsa.privOp_iff (Nat.pos_of_ne_zero hn) hp
      refine ⟨_, em, hk, ?_, g3, (Rsa.pkcs1_iff hV hd).2 he, ?_⟩
      · rw [g1]; simp [rfcLen]
      · rw [g4, beNat_eq]
    · exact Or.inr h2
  · intro hlt
    rw [Rsa.sign15, Rsa.em15, if_pos hlt]
    rfl

/-- C69: the same for rsa-pss-sha512 and section 8.1.2; the salt is the first 64 bytes drawn. It panics if the modulus is below `2 ^ 1033`, a
modulus of 1024 bits for one. -/
theorem C69_sign_pss (V : Variant 64) (hV : IsSha512 V) (L : Libs) (rsa : Bool) {b : Bytes} {n e d p q bits : Nat} {sk : SecretKey L.prims}
    (hs : SecretKey.fromBytes rsa .rsaPssSha512 b = .ok sk) (hf : RsaPrivateFile L.rsa.der n e d p q b) (hb : EmBits n bits)
    (rnd data : Bytes) (hr : 64 ≤ rnd.length) (hd : 8 * data.length < 2 ^ 128) :
    ((∃ sig em, sk.sign rnd data = .ok sig ∧ Octets n sig.length ∧ beVal sig < n ∧ Pss V bits data (rnd.take 64) em ∧
        beVal sig ^ e % n = beVal em) ∨ sk.sign rnd data = .panic) ∧
    (n < 2 ^ 1033 → sk.sign rnd data = .panic) := by
  obtain ⟨_, x, ho, hx, rfl⟩ := sk_rsaPss_iff.1 hs
  obtain rfl := privFile_unique hf hx
  obtain ⟨hn, rfl⟩ := Rsa.emBits_iff.1 hb
  have hsalt : Rsa.saltOf rnd = rnd.take 64 := by
    unfold Rsa.saltOf; rw [List.take_append_of_le_length hr]
  show ((∃ sig em, signRes (Rsa.signPss L.rsa rnd ⟨n, e, d, p, q⟩ data) = .ok sig ∧ _) ∨ signRes (Rsa.signPss L.rsa rnd ⟨n, e, d, p, q⟩ data) = .panic) ∧
    (_ → signRes (Rsa.signPss L.rsa rnd ⟨n, e, d, p, q⟩ data) = .panic)
  constructor
  · rcases signRes_cases (x := Rsa.signPss L.rsa rnd ⟨n, e, d, p, q⟩ data) with ⟨s, h1, h2⟩ | ⟨_, h2⟩
    · refine Or.inl ⟨s, ?_⟩
      simp only [Rsa.signPss, Option.bind_eq_bind, Option.bind_eq_some_iff] at h1
      obtain ⟨em, he, hp⟩ := h1
      obtain ⟨g1, _, g3, g4⟩ := Rsa.privOp_iff (Nat.pos_of_ne_zero hn) hp
      rw [hsalt] at he
      refine ⟨em, h2, Rsa.octets_iff.2 ⟨hn, g1⟩, g3, (Rsa.pss_iff hV hd (by rw [List.length_take]; omega) (privFile_bits hf)).2 he, ?_⟩
      rw [g4, beNat_eq]
    · exact Or.inr h2
  · intro hlt
    have hlog : Nat.log2 n < 1033 := log_lt hn hlt
    clear hlt
    rw [Rsa.signPss, Rsa.pssEncode, Rsa.saltOf_length, if_pos (by unfold Rsa.emLen; simp only; omega)]
    rfl

/-- C69: with two primes and a private operation of RFC 8017 section 5.1.2, signing with rsa-v1_5-sha256 succeeds from 62 bytes on and gives
the number `em ^ d mod n`. -/
theorem C69_signs_v15 (V : Variant 32) (hV : IsSha256 V) (L : Libs) (hL : L.rsa.Standard) (rsa : Bool) {b : Bytes} {n e d p q k : Nat}
    {sk : SecretKey L.prims} (hs : SecretKey.fromBytes rsa .rsaV15Sha256 b = .ok sk) (hf : RsaPrivateFile L.rsa.der n e d p q b)
    (hp : p.Prime) (hq : q.Prime) (hpq : p ≠ q) (hk : Octets n k) (h62 : 62 ≤ k) (rnd data : Bytes) (hd : 8 * data.length < 2 ^ 64) :
    ∃ sig em, sk.sign rnd data = .ok sig ∧ sig.length = k ∧ Pkcs1 V k data em ∧ beVal sig = beVal em ^ d % n := by
  obtain ⟨_, x, ho, hx, rfl⟩ := sk_rsa15_iff.1 hs
  obtain rfl := privFile_unique hf hx
  obtain ⟨hn, rfl⟩ := Rsa.octets_iff.1 hk
  have hS : Rsa.Priv.Sound ⟨n, e, d, p, q⟩ := ⟨hp, hq, hpq, ho.2.2.1, ho.2.2.2.2.2.1, ho.2.2.2.2.2.2⟩
  obtain ⟨s, h1⟩ := Rsa.sign15_sound hL rnd hS data h62
  have h2 : signRes (Rsa.sign15 L.rsa rnd ⟨n, e, d, p, q⟩ data) = .ok s := by rw [h1]; rfl
  simp only [Rsa.sign15, Option.bind_eq_bind, Option.bind_eq_some_iff] at h1
  obtain ⟨em, he, hpo⟩ := h1
  obtain ⟨g1, _, g3, g4⟩ := Rsa.privOp_iff (Nat.pos_of_ne_zero hn) hpo
  refine ⟨s, em, h2, g1, (Rsa.pkcs1_iff hV hd).2 he, ?_⟩
  have hlt := Rsa.em15_lt he
  have hu := Rsa.rawPow_undo hS hlt
  rw [ModArith.powMod_eq] at hu
  refine hS.inj g3 (Nat.mod_lt _ (Nat.pos_of_ne_zero hn)) ?_
  rw [g4, ← hu, Rsa.rawPow, ModArith.powMod_eq, Nat.mod_mod, beNat_eq]

/-- C69: with two primes and such an operation, signing with rsa-pss-sha512 succeeds from `2 ^ 1033` on and gives the number `em ^ d mod n`. -/
theorem C69_signs_pss (V : Variant 64) (hV : IsSha512 V) (L : Libs) (hL : L.rsa.Standard) (rsa : Bool) {b : Bytes} {n e d p q k bits : Nat}
    {sk : SecretKey L.prims} (hs : SecretKey.fromBytes rsa .rsaPssSha512 b = .ok sk) (hf : RsaPrivateFile L.rsa.der n e d p q b)
    (hp : p.Prime) (hq : q.Prime) (hpq : p ≠ q) (hk : Octets n k) (hb : EmBits n bits) (h1033 : 2 ^ 1033 ≤ n)
    (rnd data : Bytes) (hr : 64 ≤ rnd.length) (hd : 8 * data.length < 2 ^ 128) :
    ∃ sig em, sk.sign rnd data = .ok sig ∧ sig.length = k ∧ Pss V bits data (rnd.take 64) em ∧ beVal sig = beVal em ^ d % n := by
  obtain ⟨_, x, ho, hx, rfl⟩ := sk_rsaPss_iff.1 hs
  obtain rfl := privFile_unique hf hx
  obtain ⟨hn, rfl⟩ := Rsa.octets_iff.1 hk
  obtain ⟨_, rfl⟩ := Rsa.emBits_iff.1 hb
  have hsalt : Rsa.saltOf rnd = rnd.take 64 := by
    unfold Rsa.saltOf; rw [List.take_append_of_le_length hr]
  have hlog : 1033 ≤ Nat.log2 n := le_log hn h1033
  clear h1033
  have hS : Rsa.Priv.Sound ⟨n, e, d, p, q⟩ := ⟨hp, hq, hpq, ho.2.2.1, ho.2.2.2.2.2.1, ho.2.2.2.2.2.2⟩
  obtain ⟨s, h1⟩ := Rsa.signPss_sound hL rnd hS data (by unfold Rsa.emLen; simp only; omega)
  have h2 : signRes (Rsa.signPss L.rsa rnd ⟨n, e, d, p, q⟩ data) = .ok s := by rw [h1]; rfl
  simp only [Rsa.signPss, Option.bind_eq_bind, Option.bind_eq_some_iff] at h1
  obtain ⟨em, he, hpo⟩ := h1
  obtain ⟨g1, _, g3, g4⟩ := Rsa.privOp_iff (Nat.pos_of_ne_zero hn) hpo
  have hlt : beNat em < n := lt_of_lt_of_le (Rsa.pssEncode_lt he) (Nat.log2_self_le hn)
  rw [hsalt] at he
  refine ⟨s, em, h2, g1, (Rsa.pss_iff hV hd (by rw [List.length_take]; omega) (privFile_bits hf)).2 he, ?_⟩
  have hu := Rsa.rawPow_undo hS hlt
  rw [ModArith.powMod_eq] at hu
  refine hS.inj g3 (Nat.mod_lt _ (Nat.pos_of_ne_zero hn)) ?_
  rw [g4, ← hu, Rsa.rawPow, ModArith.powMod_eq, Nat.mod_mod, beNat_eq]

/-- C69: what a key signs, its public key accepts; for rsa-v1_5-sha256. -/
theorem C69_sign_verify_v15 (L : Libs) (k : L.prims.rsa15.SK) (rnd : Bytes) :
    KeyPair ((SecretKey.rsaV15Sha256 k).signing rnd) (SecretKey.rsaV15Sha256 k).publicKey.verifying := by
  intro data sig hs
  have hs : signRes (Rsa.sign15 L.rsa rnd k.1 data) = .ok sig := hs
  rcases signRes_cases (x := Rsa.sign15 L.rsa rnd k.1 data) with ⟨s, h1, h2⟩ | ⟨_, h2⟩
  · rw [h2] at hs
    obtain rfl := Res.ok.inj hs
    show (if Rsa.verify15 L.rsa ⟨k.1.n, k.1.e⟩ data s then Res.ok () else .err SigErr.invalidSignature) = _
    rw [Rsa.verify15_sign15 h1, if_pos rfl]
  · rw [h2] at hs; cases hs

/-- C69: what a key signs, its public key accepts; for rsa-pss-sha512. -/
theorem C69_sign_verify_pss (L : Libs) (k : L.prims.rsaPss.SK) (rnd : Bytes) :
    KeyPair ((SecretKey.rsaPssSha512 k).signing rnd) (SecretKey.rsaPssSha512 k).publicKey.verifying := by
  intro data sig hs
  have hs : signRes (Rsa.signPss L.rsa rnd k.1 data) = .ok sig := hs
  rcases signRes_cases (x := Rsa.signPss L.rsa rnd k.1 data) with ⟨s, h1, h2⟩ | ⟨_, h2⟩
  · rw [h2] at hs
    obtain rfl := Res.ok.inj hs
    show (if Rsa.verifyPss L.rsa ⟨k.1.n, k.1.e⟩ data s then Res.ok () else .err SigErr.invalidSignature) = _
    rw [Rsa.verifyPss_signPss h1, if_pos rfl]
  · rw [h2] at hs; cases hs

/-- C69: a public key with a modulus below `2 ^ 1033` for rsa-pss-sha512, or shorter than 62 bytes for rsa-v1_5-sha256, is imported
and accepts nothing. -/
theorem C69_short_key (L : Libs) (rsa : Bool) {alg : Alg} {b : Bytes} {n e : Nat} {pk : PublicKey L.prims}
    (h : PublicKey.fromBytes rsa alg b = .ok pk) (hf : RsaPublicFile L.rsa.der n e b)
    (hn : (alg = .rsaV15Sha256 ∧ n < 256 ^ 61) ∨ (alg = .rsaPssSha512 ∧ n < 2 ^ 1033)) (data sig : Bytes) :
    pk.verify data sig = .err .invalidSignature := by
  rcases hn with ⟨rfl, hn⟩ | ⟨rfl, hn⟩
  · obtain ⟨_, n', e', ho, hf', rfl⟩ := pk_rsa15_iff.1 h
    obtain ⟨rfl, rfl⟩ := pubFile_unique hf hf'
    rw [verify_rsa15_eq]
    have hl : Rsa.size n < 62 := by
      by_cases h0 : n = 0
      · rw [h0]; decide
      · have h2 := lt_of_le_of_lt (Rsa.size_ge h0) hn
        have h3 := (Nat.pow_lt_pow_iff_right (show 1 < 256 by omega)).1 h2
        omega
    have : Rsa.verify15 L.rsa ⟨n, e⟩ data sig = false := by
      unfold Rsa.verify15
      rw [show Rsa.em15 (Rsa.size (Rsa.Pub.n ⟨n, e⟩)) data = none from if_pos hl]
      split
      · rename_i hh; cases hh
      · rfl
    rw [this]; rfl
  · obtain ⟨_, n', e', ho, hf', rfl⟩ := pk_rsaPss_iff.1 h
    obtain ⟨rfl, rfl⟩ := pubFile_unique hf hf'
    rw [verify_rsaPss_eq]
    have hl : Rsa.emLen (Nat.log2 n) < 130 := by
      by_cases h0 : n = 0
      · rw [h0]; decide
      · have := log_lt h0 hn
        clear hn
        unfold Rsa.emLen; omega
    have : Rsa.verifyPss L.rsa ⟨n, e⟩ data sig = false := by
      unfold Rsa.verifyPss
      split
      · have : Rsa.pssVerify (Nat.log2 n) data (beBytes (Rsa.emLen (Nat.log2 n)) ‹Nat›) = false := by
          unfold Rsa.pssVerify
          simp only
          rw [if_pos (Or.inl hl)]
        simp only [this, Bool.and_false]
      · rfl
    rw [this]; rfl

/-- C69: with two primes, a message has at most one signature of the length of the modulus that rsa-v1_5-sha256 accepts. -/
theorem C69_no_second_signature (L : Libs) (rsa : Bool) {b : Bytes} {n e d p q : Nat} {pk : PublicKey L.prims}
    (h : PublicKey.fromBytes rsa .rsaV15Sha256 b = .ok pk) (hf : RsaPublicFile L.rsa.der n e b) (hk : Fits n e d p q) (hp : p.Prime) (hq : q.Prime)
    (hpq : p ≠ q) {data sig sig' : Bytes} (hd : 8 * data.length < 2 ^ 64) (hl : sig.length = sig'.length)
    (hv : pk.verify data sig = .ok ()) (hv' : pk.verify data sig' = .ok ()) : sig = sig' := by
  obtain ⟨V, hV⟩ := C61_exists.1
  obtain ⟨k, em, h1, h2, h3, h4, h5⟩ := ((C69_verify_v15 V hV L rsa h hf data sig hd).1).1 hv
  obtain ⟨k', em', h1', h2', h3', h4', h5'⟩ := ((C69_verify_v15 V hV L rsa h hf data sig' hd).1).1 hv'
  obtain ⟨_, rfl⟩ := Rsa.octets_iff.1 h1
  obtain ⟨_, rfl⟩ := Rsa.octets_iff.1 h1'
  rw [Rsa.pkcs1_iff hV hd] at h4 h4'
  rw [h4] at h4'
  obtain rfl := Option.some.inj h4'
  exact beVal_inj hl (Rsa.Priv.Sound.inj (k := ⟨n, e, d, p, q⟩) ⟨hp, hq, hpq, hk.1, hk.2.2.2.1, hk.2.2.2.2⟩ h3 h3' (h5.trans h5'.symm))

/-- C69: two messages with the same rsa-v1_5-sha256 signature have the same digest. -/
theorem C69_binds_v15 (V : Variant 32) (hV : IsSha256 V) (L : Libs) (rsa : Bool) {b : Bytes} {pk : PublicKey L.prims}
    (h : PublicKey.fromBytes rsa .rsaV15Sha256 b = .ok pk) {data data' sig : Bytes} (hd : 8 * data.length < 2 ^ 64)
    (hd' : 8 * data'.length < 2 ^ 64) (hv : pk.verify data sig = .ok ()) (hv' : pk.verify data' sig = .ok ()) :
    ∃ x, Digest V data x ∧ Digest V data' x := by
  obtain ⟨_, n, e, ho, hf, _⟩ := pk_rsa15_iff.1 h
  obtain ⟨k, em, h1, h2, h3, h4, h5⟩ := ((C69_verify_v15 V hV L rsa h hf data sig hd).1).1 hv
  obtain ⟨k', em', h1', h2', h3', h4', h5'⟩ := ((C69_verify_v15 V hV L rsa h hf data' sig hd').1).1 hv'
  obtain ⟨_, rfl⟩ := Rsa.octets_iff.1 h1
  obtain ⟨_, rfl⟩ := Rsa.octets_iff.1 h1'
  rw [Rsa.pkcs1_iff hV hd] at h4
  rw [Rsa.pkcs1_iff hV hd'] at h4'
  have he : em = em' := beVal_inj ((Rsa.em15_length h4).trans (Rsa.em15_length h4').symm) (h5.symm.trans h5')
  subst he
  unfold Rsa.em15 at h4 h4'
  split at h4
  · cases h4
  · rename_i hk
    rw [if_neg hk] at h4'
    have := Option.some.inj (h4.trans h4'.symm)
    exact ⟨sha256 data, (C61_sha256 V hV _ _ hd).2 rfl, (C61_sha256 V hV _ _ hd').2 (List.append_cancel_left this)⟩

/-- C69: two messages with the same rsa-pss-sha512 signature have digests that give, with salts, the same digest. -/
theorem C69_binds_pss (V : Variant 64) (hV : IsSha512 V) (L : Libs) (rsa : Bool) {b : Bytes} {pk : PublicKey L.prims}
    (h : PublicKey.fromBytes rsa .rsaPssSha512 b = .ok pk) {data data' sig : Bytes} (hd : 8 * data.length < 2 ^ 128)
    (hd' : 8 * data'.length < 2 ^ 128) (hv : pk.verify data sig = .ok ()) (hv' : pk.verify data' sig = .ok ()) :
    ∃ x x' salt salt' y, Digest V data x ∧ Digest V data' x' ∧ salt.length = 64 ∧ salt'.length = 64 ∧
      Digest V (List.replicate 8 0 ++ x ++ salt) y ∧ Digest V (List.replicate 8 0 ++ x' ++ salt') y := by
  obtain ⟨_, n, e, ho, hf, _⟩ := pk_rsaPss_iff.1 h
  obtain ⟨_, bits, em, salt, _, hb, _, _, hs, hp, hm⟩ := ((C69_verify_pss V hV L rsa h hf data sig hd).1).1 hv
  obtain ⟨_, bits', em', salt', _, hb', _, _, hs', hp', hm'⟩ := ((C69_verify_pss V hV L rsa h hf data' sig hd').1).1 hv'
  obtain ⟨_, rfl⟩ := Rsa.emBits_iff.1 hb
  obtain ⟨_, rfl⟩ := Rsa.emBits_iff.1 hb'
  obtain ⟨x, y, mask, masked, z, a1, a2, a3, a4, a5, a6, a7, a8, a9⟩ := hp
  obtain ⟨x', y', mask', masked', z', a1', a2', a3', a4', a5', a6', a7', a8', a9'⟩ := hp'
  have hl : em.length = em'.length := by omega
  have he : em = em' := by
    apply beVal_inj hl
    rw [← hm, ← hm', hl]
  have hy : y = y' := by
    have l1 : y.length = 64 := by obtain ⟨_, _, hl, _⟩ := a4; exact hl
    have l2 : y'.length = 64 := by obtain ⟨_, _, hl, _⟩ := a4'; exact hl
    rw [a9, a9', List.append_assoc, List.append_assoc] at he
    have hll := congrArg List.length he
    simp only [List.length_append, l1, l2] at hll
    exact (List.append_inj' (List.append_inj he (by omega)).2 rfl).1
  subst hy
  exact ⟨x, x', salt, salt', y, a3, a3', hs, hs', a4, a4'⟩

/-! ### Examples -/

/-- Two primes made with the prime of P-384. -/
def rsaP : Nat := (2 ^ 140 + 92) * Ec.p384.p + 1
def rsaQ : Nat := (2 ^ 150 + 250) * Ec.p384.p + 1

/-- A key of 1059 bits. -/
def rsaKey : Rsa.Priv := ⟨rsaP * rsaQ, 65537, 4015563902047887997815562561046371966293112414789933668212412817539223414968385624268537775546999832690324596423529783064882081890491644046890713503870130941509557603507118991511460434546418158425124253, rsaP, rsaQ⟩

/-- A key of 1024 bits. -/
def shortKey : Rsa.Priv :=
  let p := (3 * 2 ^ 126 + 120) * Ec.p384.p + 1
  let q := (3 * 2 ^ 126 + 1536) * Ec.p384.p + 1
  ⟨p * q, 65537, 71352856014029843985934379919291574281347346319397118580017831052334895445364898373570012207724649898352527760628538896812243713454099759951864834307540801828090934538057299172414166165767681, p, q⟩

/-- The file of a private key, with zeros for the numbers that are not used. -/
def privDer (k : Rsa.Priv) : Bytes :=
  Der.tlv 0x30 ([0, k.n, k.e, k.d, k.p, k.q, 0, 0, 0].flatMap fun x => Der.tlv 2 (Der.uintBytes x))

theorem rsaP_prime : rsaP.Prime := ModArith.pock_cert Ec.p384.p 2 Primes.prime_p384 (by decide +kernel)
theorem rsaQ_prime : rsaQ.Prime := ModArith.pock_cert Ec.p384.p 2 Primes.prime_p384 (by decide +kernel)

theorem rsaKey_file : Rsa.privOfDer Der.lib (privDer rsaKey) = some rsaKey := by decide +kernel
theorem shortKey_file : Rsa.privOfDer Der.lib (privDer shortKey) = some shortKey := by decide +kernel
theorem rsaKey_ok : rsaKey.Ok Rsa.lib := by decide +kernel
theorem shortKey_ok : shortKey.Ok Rsa.lib := by decide +kernel
theorem rsaKey_pub : Rsa.pubOfDer Der.lib (Rsa.pubDer ⟨rsaKey.n, rsaKey.e⟩) = some ⟨rsaKey.n, rsaKey.e⟩ := by decide +kernel
theorem shortKey_pub : Rsa.pubOfDer Der.lib (Rsa.pubDer ⟨shortKey.n, shortKey.e⟩) = some ⟨shortKey.n, shortKey.e⟩ := by decide +kernel

theorem rsaKey_file' : RsaPrivateFile Libs.std.rsa.der rsaKey.n rsaKey.e rsaKey.d rsaP rsaQ (privDer rsaKey) := privFile_iff.2 rsaKey_file
theorem shortKey_file' : RsaPrivateFile Libs.std.rsa.der shortKey.n shortKey.e shortKey.d shortKey.p shortKey.q (privDer shortKey) :=
  privFile_iff.2 shortKey_file

theorem rsaKey_v15 : SecretKey.fromBytes true .rsaV15Sha256 (privDer rsaKey) = .ok (.rsaV15Sha256 (P := Libs.std.prims) ⟨rsaKey, rsaKey_ok⟩) :=
  sk_rsa15_iff.2 ⟨rfl, rsaKey, rsaKey_ok, rsaKey_file', rfl⟩
theorem rsaKey_pss : SecretKey.fromBytes true .rsaPssSha512 (privDer rsaKey) = .ok (.rsaPssSha512 (P := Libs.std.prims) ⟨rsaKey, rsaKey_ok⟩) :=
  sk_rsaPss_iff.2 ⟨rfl, rsaKey, rsaKey_ok, rsaKey_file', rfl⟩

theorem rsaP_ne : rsaP ≠ rsaQ := by decide +kernel
theorem rsaKey_octets : Octets rsaKey.n 133 := ⟨by decide, by decide +kernel, by decide +kernel⟩
theorem rsaKey_bits : EmBits rsaKey.n 1058 := ⟨by decide +kernel, by decide +kernel⟩
theorem rsaKey_large : 2 ^ 1033 ≤ rsaKey.n := by decide +kernel
theorem shortKey_bits : EmBits shortKey.n 1023 := ⟨by decide +kernel, by decide +kernel⟩
theorem shortKey_1024 : 2 ^ 1023 ≤ shortKey.n ∧ shortKey.n < 2 ^ 1024 := by decide +kernel
theorem shortKey_small : shortKey.n < 2 ^ 1033 := by decide +kernel

/-- A key that signs with both algorithms. -/
example (V : Variant 32) (hV : IsSha256 V) (rnd : Bytes) : ∃ sig em,
    (SecretKey.rsaV15Sha256 (P := Libs.std.prims) ⟨rsaKey, rsaKey_ok⟩).sign rnd [1, 2, 3] = .ok sig ∧ sig.length = 133 ∧
      Pkcs1 V 133 [1, 2, 3] em ∧ beVal sig = beVal em ^ rsaKey.d % rsaKey.n :=
  C69_signs_v15 V hV Libs.std Rsa.lib_standard true rsaKey_v15 rsaKey_file' rsaP_prime rsaQ_prime rsaP_ne rsaKey_octets (by decide) rnd _ (by decide)

example (V : Variant 64) (hV : IsSha512 V) (rnd : Bytes) (hr : 64 ≤ rnd.length) : ∃ sig em,
    (SecretKey.rsaPssSha512 (P := Libs.std.prims) ⟨rsaKey, rsaKey_ok⟩).sign rnd [1, 2, 3] = .ok sig ∧ sig.length = 133 ∧
      Pss V 1058 [1, 2, 3] (rnd.take 64) em ∧ beVal sig = beVal em ^ rsaKey.d % rsaKey.n :=
  C69_signs_pss V hV Libs.std Rsa.lib_standard true rsaKey_pss rsaKey_file' rsaP_prime rsaQ_prime rsaP_ne rsaKey_octets rsaKey_bits rsaKey_large
    rnd _ hr (by decide)

/-- Its public key is imported, belongs to it and accepts what it signs. -/
theorem rsaKey_pk : PublicKey.fromBytes true .rsaV15Sha256 (Rsa.pubDer ⟨rsaKey.n, rsaKey.e⟩) =
    .ok (.rsaV15Sha256 (P := Libs.std.prims) ⟨⟨rsaKey.n, rsaKey.e⟩, rsaKey_ok.1⟩) :=
  pk_rsa15_iff.2 ⟨rfl, rsaKey.n, rsaKey.e, rsaKey_ok.1, pubFile_iff.2 rsaKey_pub, rfl⟩

example : (SecretKey.rsaV15Sha256 (P := Libs.std.prims) ⟨rsaKey, rsaKey_ok⟩).publicKey =
    .rsaV15Sha256 (P := Libs.std.prims) ⟨⟨rsaKey.n, rsaKey.e⟩, rsaKey_ok.1⟩ :=
  (C69_pair Libs.std true true (Or.inl rfl) rsaKey_v15 rsaKey_file' rsaKey_pk (pubFile_iff.2 rsaKey_pub)).2 ⟨rfl, rfl⟩

example : Fits rsaKey.n rsaKey.e rsaKey.d rsaP rsaQ := rsaKey_ok.2.2

/-- A key of 1024 bits is imported for rsa-pss-sha512; every attempt to sign with it is a panic, and its public key accepts nothing. -/
theorem C69_1024_bits : ∃ (b b' : Bytes) (sk : SecretKey Libs.std.prims) (pk : PublicKey Libs.std.prims),
    SecretKey.fromBytes true .rsaPssSha512 b = .ok sk ∧ PublicKey.fromBytes true .rsaPssSha512 b' = .ok pk ∧
    RsaPrivateFile Libs.std.rsa.der shortKey.n shortKey.e shortKey.d shortKey.p shortKey.q b ∧ 2 ^ 1023 ≤ shortKey.n ∧ shortKey.n < 2 ^ 1024 ∧
    (∀ rnd data, 64 ≤ rnd.length → 8 * data.length < 2 ^ 128 → sk.sign rnd data = .panic) ∧
    ∀ data sig, pk.verify data sig = .err .invalidSignature := by
  have hp : PublicKey.fromBytes true .rsaPssSha512 (Rsa.pubDer ⟨shortKey.n, shortKey.e⟩) =
      .ok (.rsaPssSha512 (P := Libs.std.prims) ⟨⟨shortKey.n, shortKey.e⟩, shortKey_ok.1⟩) :=
    pk_rsaPss_iff.2 ⟨rfl, shortKey.n, shortKey.e, shortKey_ok.1, pubFile_iff.2 shortKey_pub, rfl⟩
  have hs : SecretKey.fromBytes true .rsaPssSha512 (privDer shortKey) = .ok (.rsaPssSha512 (P := Libs.std.prims) ⟨shortKey, shortKey_ok⟩) :=
    sk_rsaPss_iff.2 ⟨rfl, shortKey, shortKey_ok, shortKey_file', rfl⟩
  obtain ⟨V, hV⟩ := C61_exists.2.2
  refine ⟨_, _, _, _, hs, hp, shortKey_file', shortKey_1024.1, shortKey_1024.2, fun rnd data hr hd => ?_, fun data sig => ?_⟩
  · exact (C69_sign_pss V hV Libs.std true hs shortKey_file' shortKey_bits rnd data hr hd).2 shortKey_small
  · exact C69_short_key Libs.std true hp (pubFile_iff.2 shortKey_pub) (Or.inr ⟨rfl, shortKey_small⟩) data sig

end Verif
