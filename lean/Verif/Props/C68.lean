import Verif.Proofs.Asn1Pem
import Verif.Proofs.Base64Spec
import Verif.Model.ConformanceKeys
import Verif.Props.C57
import Verif.Props.C67
/-!
C68: key files against X.690, RFC 5208, RFC 5280, RFC 5915, RFC 8017, RFC 8410 and RFC 7468, written down in `Spec/Asn1.lean`. The
theorems hold for every choice in `Der.Lib`: the limits on lengths and tags, what may follow the key, and the layout of lines.
-/
namespace Verif
open Spec Spec.Sha Sha2

/-! ### What the standards say -/

/-- The algorithm named in a key file: for curves the identifier is id-ecPublicKey and the parameters name the curve, for the others
nothing is said about parameters. -/
def FileAlg : Alg → Bytes → Option (UInt8 × Bytes) → Prop
  | .ecdsaP256Sha256, o, params => Asn1.Oid Asn1.ecPublicKey o ∧ ∃ p, params = some (6, p) ∧ Asn1.Oid Asn1.secp256r1 p
  | .ecdsaP384Sha384, o, params => Asn1.Oid Asn1.ecPublicKey o ∧ ∃ p, params = some (6, p) ∧ Asn1.Oid Asn1.secp384r1 p
  | .ed25519, o, _ => Asn1.Oid Asn1.ed25519 o
  | .rsaV15Sha256, o, _ => Asn1.Oid Asn1.rsaEncryption o
  | .rsaPssSha512, o, _ => Asn1.Oid Asn1.rsaEncryption o
  | .hmacSha256, _, _ => False

/-- Limits of the library on the algorithm: the tag of parameters is one it reads, and it takes the object identifiers. -/
def AlgLimits (L : Der.Lib) (o : Bytes) (params : Option (UInt8 × Bytes)) : Prop :=
  L.oidOk o = true ∧ (∀ t p, params = some (t, p) → L.anyTag t = true)

/-- The curve is named by an identifier that the library takes. -/
def CurveLimit (L : Der.Lib) : Alg → Option (UInt8 × Bytes) → Prop
  | .ecdsaP256Sha256, params => ∀ p, params = some (6, p) → L.oidOk p = true
  | .ecdsaP384Sha384, params => ∀ p, params = some (6, p) → L.oidOk p = true
  | _, _ => True

/-- A file with a private key. -/
def PrivateFile (L : Der.Lib) (alg : Alg) (key der : Bytes) : Prop :=
  ∃ c v o params rest, Asn1.Elem 0x30 c der ∧ c.length ≤ L.maxLen ∧ c.length < 2 ^ 32 ∧ Asn1.PrivateKeyInfo v o params key rest c ∧
    v ≤ 1 ∧ L.pkiRest v rest = true ∧ AlgLimits L o params ∧ CurveLimit L alg params ∧ FileAlg alg o params

/-- A file with a public key. -/
def PublicFile (L : Der.Lib) (alg : Alg) (key der : Bytes) : Prop :=
  ∃ c o params, Asn1.Elem 0x30 c der ∧ c.length ≤ L.maxLen ∧ c.length < 2 ^ 32 ∧ Asn1.SubjectPublicKeyInfo o params key c ∧
    AlgLimits L o params ∧ CurveLimit L alg params ∧ FileAlg alg o params

/-- The bytes of the key inside the private key field: a curve key is in an ECPrivateKey, an Ed25519 key after two bytes of any
value, an RSA key is the field. -/
def KeyField (L : Der.Lib) : Alg → Bytes → Bytes → Prop
  | .ecdsaP256Sha256, key, b => ∃ rest, Asn1.EcPrivateKey b rest key ∧ L.sec1Rest rest = true
  | .ecdsaP384Sha384, key, b => ∃ rest, Asn1.EcPrivateKey b rest key ∧ L.sec1Rest rest = true
  | .ed25519, key, b => ∃ x y, key = x :: y :: b
  | _, key, b => b = key

/-- A PEM text with a label and contents. -/
def PemText (L : Der.Lib) (label : Str) (der : Bytes) (s : Str) : Prop :=
  ∃ ls, Asn1.Pem label ls (L.preamble s) ∧ L.widths (ls.map List.length) = true ∧ ls.flatten = base64 der

/-! ### Names of algorithms -/

theorem oidEC_dotted : oidEC = Der.dotted Asn1.ecPublicKey := by decide +kernel
theorem oidEd_dotted : oidEd25519 = Der.dotted Asn1.ed25519 := by decide +kernel
theorem oidRsa_dotted : oidRsa = Der.dotted Asn1.rsaEncryption := by decide +kernel
theorem oidP256_dotted : oidP256 = Der.dotted Asn1.secp256r1 := by decide +kernel
theorem oidP384_dotted : oidP384 = Der.dotted Asn1.secp384r1 := by decide +kernel

theorem paramOid_eq {L : Der.Lib} {params : Option (UInt8 × Bytes)} {ns : List Nat} (hn : ns ≠ []) :
    Der.paramOid L params = some (Der.dotted ns) ↔ ∃ p, params = some (6, p) ∧ L.oidOk p = true ∧ Asn1.Oid ns p := by
  cases params with
  | none => simp [Der.paramOid]
  | some tp =>
    obtain ⟨t, p⟩ := tp
    rw [Der.paramOid]
    split
    · next h =>
      subst h
      rw [Der.oidText_eq hn]
      constructor
      · intro h; exact ⟨p, rfl, h⟩
      · rintro ⟨q, h, h'⟩
        simp only [Option.some.injEq, Prod.mk.injEq, true_and] at h
        rw [h]; exact h'
    · next h =>
      constructor
      · intro h'; cases h'
      · rintro ⟨q, h', _⟩
        simp only [Option.some.injEq, Prod.mk.injEq] at h'
        exact absurd h'.1 h

/-- The names found by the library against the identifiers. -/
theorem declares_iff {L : Der.Lib} {alg : Alg} {o : Bytes} {params : Option (UInt8 × Bytes)} :
    (∃ s, Der.oidText L o = some s ∧ Declares alg s (Der.paramOid L params)) ↔
      L.oidOk o = true ∧ CurveLimit L alg params ∧ FileAlg alg o params := by
  have h1 : ∀ (ns : List Nat), ns ≠ [] → ((∃ s, Der.oidText L o = some s ∧ s = Der.dotted ns) ↔ L.oidOk o = true ∧ Asn1.Oid ns o) := by
    intro ns hn
    rw [← Der.oidText_eq hn]
    constructor
    · rintro ⟨s, h, rfl⟩; exact h
    · intro h; exact ⟨_, h, rfl⟩
  have h2 : ∀ (ns : List Nat), ns ≠ [] →
      ((∃ s, Der.oidText L o = some s ∧ s = oidEC ∧ Der.paramOid L params = some (Der.dotted ns)) ↔
        L.oidOk o = true ∧ (∀ p, params = some (6, p) → L.oidOk p = true) ∧ Asn1.Oid Asn1.ecPublicKey o ∧
          ∃ p, params = some (6, p) ∧ Asn1.Oid ns p) := by
    intro ns hn
    rw [paramOid_eq hn, oidEC_dotted]
    constructor
    · rintro ⟨s, h, h', p, rfl, hp, hq⟩
      obtain ⟨a, b⟩ := (h1 _ (by decide)).1 ⟨s, h, h'⟩
      refine ⟨a, ?_, b, p, rfl, hq⟩
      intro q hh
      simp only [Option.some.injEq, Prod.mk.injEq, true_and] at hh
      rw [← hh]; exact hp
    · rintro ⟨a, hl, b, p, rfl, hq⟩
      obtain ⟨s, h, h'⟩ := (h1 Asn1.ecPublicKey (by decide)).2 ⟨a, b⟩
      exact ⟨s, h, h', p, rfl, hl p rfl, hq⟩
  cases alg <;> simp only [Declares, CurveLimit, FileAlg, and_false, exists_false, true_and]
  · have := h2 Asn1.secp256r1 (by decide); rw [← oidP256_dotted] at this; exact this
  · have := h2 Asn1.secp384r1 (by decide); rw [← oidP384_dotted] at this; exact this
  · have := h1 Asn1.ed25519 (by decide); rw [← oidEd_dotted] at this; exact this
  · have := h1 Asn1.rsaEncryption (by decide); rw [← oidRsa_dotted] at this; exact this
  · have := h1 Asn1.rsaEncryption (by decide); rw [← oidRsa_dotted] at this; exact this

/-! ### Private keys -/

theorem skBytes_rsa {P : Prims} {rsa : Bool} {alg : Alg} {pki : Pki} {b : Bytes} (ha : alg = .rsaV15Sha256 ∨ alg = .rsaPssSha512) :
    skBytesOfPki P rsa alg pki = .ok b ↔ Declares alg pki.oid pki.paramsOid ∧ rsa = true ∧ b = pki.privateKey := by
  have e1 : oidRsa ≠ oidEC := by decide
  have e2 : oidRsa ≠ oidEd25519 := by decide
  have hd : Declares alg pki.oid pki.paramsOid ↔ pki.oid = oidRsa := by rcases ha with rfl | rfl <;> rfl
  by_cases h : pki.oid = oidRsa
  · rw [hd, h]
    unfold skBytesOfPki
    rw [h, if_neg e1, if_neg e2]
    cases rsa
    · simp
    · simp [ha, eq_comm]
  · constructor
    · intro hk; exact absurd (hd.1 (skBytes_declares hk)) h
    · rintro ⟨h', _⟩; exact absurd (hd.1 h') h

/-- The file is read and names the algorithm. -/
theorem pki_declares {L : Libs} {alg : Alg} {key der : Bytes} :
    (∃ pki, L.prims.pkiOfDer der = some pki ∧ Declares alg pki.oid pki.paramsOid ∧ pki.privateKey = key) ↔
      PrivateFile L.rsa.der alg key der := by
  constructor
  · rintro ⟨pki, h, hd, rfl⟩
    obtain ⟨c, v, o, params, rest, ⟨he, hf⟩, hp, hv, hr, ht, ho, hq⟩ := Der.pki_iff.1 h
    rw [hq] at hd
    obtain ⟨h1, h2, h3⟩ := declares_iff.1 ⟨_, ho, hd⟩
    exact ⟨c, v, o, params, rest, he, hf.1, hf.2, hp, hv, hr, ⟨h1, ht⟩, h2, h3⟩
  · rintro ⟨c, v, o, params, rest, he, hf1, hf2, hp, hv, hr, ⟨h1, ht⟩, h2, h3⟩
    obtain ⟨s, ho, hd⟩ := declares_iff.2 ⟨h1, h2, h3⟩
    exact ⟨⟨s, Der.paramOid L.rsa.der params, key⟩, Der.pki_iff.2 ⟨c, v, o, params, rest, ⟨he, hf1, hf2⟩, hp, hv, hr, ht, ho, rfl⟩, hd, rfl⟩

/-- The private key field of a file is within the limits. -/
theorem pki_fits {L : Libs} {der : Bytes} {pki : Pki} (h : L.prims.pkiOfDer der = some pki) : Der.Fits L.rsa.der pki.privateKey := by
  obtain ⟨c, v, o, params, rest, ⟨he, hf⟩, ⟨x, a, y, z, _, _, _, hz, rfl⟩, _⟩ := Der.pki_iff.1 h
  exact Der.fits_elem (Der.fits_right (Der.fits_left hf)) hz

theorem skField_iff {L : Libs} {rsa : Bool} {alg : Alg} {pki : Pki} {b : Bytes} (hf : Der.Fits L.rsa.der pki.privateKey) :
    skBytesOfPki L.prims rsa alg pki = .ok b ↔
      Declares alg pki.oid pki.paramsOid ∧ alg.available rsa = true ∧ KeyField L.rsa.der alg pki.privateKey b := by
  have hs : ∀ k, L.prims.sec1 pki.privateKey = some k ↔ ∃ rest, Asn1.EcPrivateKey k rest pki.privateKey ∧ L.rsa.der.sec1Rest rest = true :=
    fun k => Der.sec1_iff hf
  cases alg
  · constructor
    · intro h; exact absurd (skBytes_declares h) (by simp [Declares])
    · rintro ⟨h, _⟩; exact absurd h (by simp [Declares])
  · rw [skBytes_ec (Or.inl rfl), hs]; simp [Alg.available, KeyField]
  · rw [skBytes_ec (Or.inr rfl), hs]; simp [Alg.available, KeyField]
  · rw [skBytes_ed]
    simp only [Alg.available, KeyField, true_and]
    refine and_congr_right fun _ => ?_
    constructor
    · rintro ⟨h, rfl⟩
      match hk : pki.privateKey, h with
      | x :: y :: t, _ => exact ⟨x, y, rfl⟩
    · rintro ⟨x, y, h⟩; rw [h]; simp
  · rw [skBytes_rsa (Or.inl rfl)]; simp [Alg.available, KeyField]
  · rw [skBytes_rsa (Or.inr rfl)]; simp [Alg.available, KeyField]

/-- C68: a private key is imported from a DER file exactly if the file is a PrivateKeyInfo that names the algorithm asked for and
the bytes in its key field are a key of that algorithm. -/
theorem C68_secret_der (L : Libs) (rsa : Bool) (alg : Alg) (der : Bytes) (sk : SecretKey L.prims) :
    SecretKey.fromDer rsa alg der = .ok sk ↔
      ∃ key b, PrivateFile L.rsa.der alg key der ∧ KeyField L.rsa.der alg key b ∧ SecretKey.fromBytes rsa alg b = .ok sk := by
  unfold SecretKey.fromDer
  simp only [Res.bind_eq_ok, Res.ofOption_eq_ok]
  constructor
  · rintro ⟨pki, h1, b, h2, h3⟩
    obtain ⟨hd, _, hk⟩ := (skField_iff (pki_fits h1)).1 h2
    exact ⟨_, b, pki_declares.1 ⟨pki, h1, hd, rfl⟩, hk, h3⟩
  · rintro ⟨key, b, hp, hk, h3⟩
    obtain ⟨pki, h1, hd, rfl⟩ := pki_declares.2 hp
    refine ⟨pki, h1, b, (skField_iff (pki_fits h1)).2 ⟨hd, ?_, hk⟩, h3⟩
    cases alg <;> cases rsa <;> simp_all [Alg.available, SecretKey.fromBytes]

/-- C68: a private key is imported from a text exactly if it is a PEM text with the label PRIVATE KEY around such a file. -/
theorem C68_secret_pem (L : Libs) (rsa : Bool) (alg : Alg) (s : Str) (sk : SecretKey L.prims) :
    SecretKey.fromPem rsa alg s = .ok sk ↔
      ∃ der, PemText L.rsa.der (c! "PRIVATE KEY") der s ∧ SecretKey.fromDer rsa alg der = .ok sk := by
  unfold SecretKey.fromPem
  simp only [Res.bind_eq_ok, Res.ofOption_eq_ok]
  constructor
  · rintro ⟨⟨label, der⟩, h1, h2⟩
    split at h2
    · cases h2
    · next hl =>
      rw [not_not] at hl
      simp only at hl h2
      subst hl
      obtain ⟨ls, c, hp, hw, hb, _⟩ := Der.pem_iff.1 h1
      exact ⟨der, ⟨ls, hp, hw, by rw [hb, Base64.encode_eq_spec]⟩, h2⟩
  · rintro ⟨der, ⟨ls, hp, hw, hb⟩, h2⟩
    obtain ⟨_, _, ⟨c, _, _, _, _, he, hf1, hf2, _⟩, _⟩ := (C68_secret_der L rsa alg der sk).1 h2
    refine ⟨(c! "PRIVATE KEY", der), Der.pem_iff.2 ⟨ls, c, hp, hw, by rw [hb, Base64.encode_eq_spec], he, hf1, hf2⟩, ?_⟩
    simp only [ne_eq, not_true, if_false]
    exact h2

/-! ### Public keys -/

theorem pkBytes_iff {rsa : Bool} {alg : Alg} {spki : Spki} {b : Bytes} :
    pkBytesOfSpki rsa alg spki = .ok b ↔ Declares alg spki.oid spki.paramsOid ∧ alg.available rsa = true ∧ spki.publicKey = some b := by
  have e1 : oidRsa ≠ oidEC := by decide
  have e2 : oidRsa ≠ oidEd25519 := by decide
  have e3 : oidEd25519 ≠ oidEC := by decide
  have e4 : oidP384 ≠ oidP256 := by decide
  constructor
  · intro h
    obtain ⟨hd, hk⟩ := pkBytes_declares h
    refine ⟨hd, ?_, hk⟩
    cases rsa
    · have : ∀ a : Alg, (a = .rsaV15Sha256 ∨ a = .rsaPssSha512) → alg ≠ a := by
        rintro a ha rfl
        have ho : spki.oid = oidRsa := by rcases ha with rfl | rfl <;> exact hd
        unfold pkBytesOfSpki at h
        rw [ho, if_neg e1, if_neg e2, if_neg (by simp)] at h
        cases h
      cases alg
      all_goals first | rfl | exact absurd rfl (this _ (Or.inl rfl)) | exact absurd rfl (this _ (Or.inr rfl))
    · cases alg <;> rfl
  · rintro ⟨hd, hr, hk⟩
    unfold pkBytesOfSpki
    rw [hk]
    cases alg
    · exact hd.elim
    · obtain ⟨ho, hp⟩ := hd
      have ho : spki.oid = oidEC := ho
      have hp : spki.paramsOid = some oidP256 := hp
      rw [if_pos ho, hp]; rfl
    · obtain ⟨ho, hp⟩ := hd
      have ho : spki.oid = oidEC := ho
      have hp : spki.paramsOid = some oidP384 := hp
      rw [if_pos ho, hp]; rfl
    · have ho : spki.oid = oidEd25519 := hd
      rw [ho, if_neg e3]; rfl
    · have ho : spki.oid = oidRsa := hd
      have hr : rsa = true := hr
      rw [ho, if_neg e1, if_neg e2, hr]; rfl
    · have ho : spki.oid = oidRsa := hd
      have hr : rsa = true := hr
      rw [ho, if_neg e1, if_neg e2, hr]; rfl

/-- C68: a public key is imported from a text exactly if it is a PEM text with the label PUBLIC KEY around a SubjectPublicKeyInfo that
names the algorithm asked for and the bytes in it are a key of that algorithm. -/
theorem C68_public_pem (L : Libs) (rsa : Bool) (alg : Alg) (s : Str) (pk : PublicKey L.prims) :
    PublicKey.fromPem rsa alg s = .ok pk ↔
      ∃ der b, PemText L.rsa.der (c! "PUBLIC KEY") der s ∧ PublicFile L.rsa.der alg b der ∧ PublicKey.fromBytes rsa alg b = .ok pk := by
  unfold PublicKey.fromPem
  simp only [Res.bind_eq_ok, Res.ofOption_eq_ok]
  constructor
  · rintro ⟨⟨label, der⟩, h1, h2⟩
    split at h2
    · cases h2
    · next hl =>
      rw [not_not] at hl
      simp only [Res.bind_eq_ok, Res.ofOption_eq_ok] at hl h2
      subst hl
      obtain ⟨spki, h3, b, h4, h5⟩ := h2
      obtain ⟨ls, c, hp, hw, hb, _⟩ := Der.pem_iff.1 h1
      obtain ⟨hd, _, hk⟩ := pkBytes_iff.1 h4
      obtain ⟨c, o, params, ⟨he, hf⟩, hq, ht, ho, hpo⟩ := (Der.spki_iff hk).1 h3
      rw [hpo] at hd
      obtain ⟨d1, d2, d3⟩ := declares_iff.1 ⟨_, ho, hd⟩
      exact ⟨der, b, ⟨ls, hp, hw, by rw [hb, Base64.encode_eq_spec]⟩, ⟨c, o, params, he, hf.1, hf.2, hq, ⟨d1, ht⟩, d2, d3⟩, h5⟩
  · rintro ⟨der, b, ⟨ls, hp, hw, hb⟩, ⟨c, o, params, he, hf1, hf2, hq, ⟨d1, ht⟩, d2, d3⟩, h5⟩
    obtain ⟨name, ho, hd⟩ := declares_iff.2 ⟨d1, d2, d3⟩
    refine ⟨(c! "PUBLIC KEY", der), Der.pem_iff.2 ⟨ls, c, hp, hw, by rw [hb, Base64.encode_eq_spec], he, hf1, hf2⟩, ?_⟩
    simp only [ne_eq, not_true, if_false, Res.bind_eq_ok, Res.ofOption_eq_ok]
    refine ⟨⟨name, Der.paramOid L.rsa.der params, some b⟩, (Der.spki_iff rfl).2 ⟨c, o, params, ⟨he, hf1, hf2⟩, hq, ht, ho, rfl⟩, b,
      pkBytes_iff.2 ⟨hd, ?_, rfl⟩, h5⟩
    cases alg <;> cases rsa <;> simp_all [Alg.available, PublicKey.fromBytes]

/-! ### One file, one key -/

theorem privateFile_unique {L : Libs} {alg alg' : Alg} {key key' der : Bytes} (h : PrivateFile L.rsa.der alg key der)
    (h' : PrivateFile L.rsa.der alg' key' der) :
    key = key' ∧ (alg = alg' ∨ (alg = .rsaV15Sha256 ∧ alg' = .rsaPssSha512) ∨ (alg = .rsaPssSha512 ∧ alg' = .rsaV15Sha256)) := by
  obtain ⟨p, h1, h2, rfl⟩ := pki_declares.2 h
  obtain ⟨q, h3, h4, rfl⟩ := pki_declares.2 h'
  rw [h1] at h3
  obtain rfl := Option.some.inj h3
  refine ⟨rfl, ?_⟩
  cases alg <;> cases alg' <;> simp_all [Declares]

theorem keyField_unique {L : Libs} {alg : Alg} {key b b' : Bytes} (hf : Der.Fits L.rsa.der key) (h : KeyField L.rsa.der alg key b)
    (h' : KeyField L.rsa.der alg key b') : b = b' := by
  cases alg
  · exact (h.trans h'.symm)
  · exact Option.some.inj (((Der.sec1_iff hf).2 h).symm.trans ((Der.sec1_iff hf).2 h'))
  · exact Option.some.inj (((Der.sec1_iff hf).2 h).symm.trans ((Der.sec1_iff hf).2 h'))
  · obtain ⟨x, y, rfl⟩ := h
    obtain ⟨x', y', h'⟩ := h'
    simp only [List.cons.injEq] at h'
    exact h'.2.2
  · exact (h.trans h'.symm)
  · exact (h.trans h'.symm)

/-- C68: a file is not imported under two algorithms, except that an RSA key serves both RSA algorithms. -/
theorem C68_one_algorithm (L : Libs) (rsa rsa' : Bool) {alg alg' : Alg} {der : Bytes} {sk sk' : SecretKey L.prims}
    (h : SecretKey.fromDer rsa alg der = .ok sk) (h' : SecretKey.fromDer rsa' alg' der = .ok sk') :
    alg = alg' ∨ (alg = .rsaV15Sha256 ∧ alg' = .rsaPssSha512) ∨ (alg = .rsaPssSha512 ∧ alg' = .rsaV15Sha256) := by
  obtain ⟨_, _, hp, _⟩ := (C68_secret_der ..).1 h
  obtain ⟨_, _, hp', _⟩ := (C68_secret_der ..).1 h'
  exact (privateFile_unique hp hp').2

/-- C68: no file yields two keys of different bytes: whatever bytes a reader of the standard finds, the import uses these. -/
theorem C68_key_bytes (L : Libs) (rsa : Bool) {alg : Alg} {der key b : Bytes} (hp : PrivateFile L.rsa.der alg key der)
    (hk : KeyField L.rsa.der alg key b) (ha : alg.available rsa = true) :
    SecretKey.fromDer (P := L.prims) rsa alg der = SecretKey.fromBytes rsa alg b := by
  obtain ⟨pki, h1, hd, rfl⟩ := pki_declares.2 hp
  have h2 := (skField_iff (rsa := rsa) (pki_fits h1)).2 ⟨hd, ha, hk⟩
  unfold SecretKey.fromDer
  rw [h1]
  show (skBytesOfPki L.prims rsa alg pki >>= _) = _
  rw [h2]
  rfl

/-- C68: what follows the key inside an ECPrivateKey, among it the public key, has no influence: two files with the same scalar give
the same key, whatever public keys they carry. -/
theorem C68_embedded_public_key_ignored (L : Libs) (rsa : Bool) {alg : Alg} (ha : alg = .ecdsaP256Sha256 ∨ alg = .ecdsaP384Sha384)
    {der der' key key' b rest rest' : Bytes} (hp : PrivateFile L.rsa.der alg key der) (hp' : PrivateFile L.rsa.der alg key' der')
    (hk : Asn1.EcPrivateKey b rest key) (hk' : Asn1.EcPrivateKey b rest' key') (hr : L.rsa.der.sec1Rest rest = true)
    (hr' : L.rsa.der.sec1Rest rest' = true) :
    SecretKey.fromDer (P := L.prims) rsa alg der = SecretKey.fromDer rsa alg der' := by
  rcases ha with rfl | rfl
  · rw [C68_key_bytes L rsa hp ⟨rest, hk, hr⟩ rfl, C68_key_bytes L rsa hp' ⟨rest', hk', hr'⟩ rfl]
  · rw [C68_key_bytes L rsa hp ⟨rest, hk, hr⟩ rfl, C68_key_bytes L rsa hp' ⟨rest', hk', hr'⟩ rfl]

/-- C68: the two bytes before an Ed25519 seed, which RFC 8410 section 7 fixes to 4 and 32, may have any values. -/
theorem C68_ed_prefix_ignored (L : Libs) (rsa : Bool) {x y : UInt8} {der seed : Bytes}
    (hp : PrivateFile L.rsa.der .ed25519 (x :: y :: seed) der) :
    SecretKey.fromDer (P := L.prims) rsa .ed25519 der = SecretKey.fromBytes rsa .ed25519 seed :=
  C68_key_bytes L rsa hp ⟨x, y, rfl⟩ rfl

/-- C68: import of a private key from a file panics exactly if the file names the algorithm and the key inside is an Ed25519 key that
is not 34 bytes long or has a seed of zeros, or a curve key of the wrong length. -/
theorem C68_secret_der_panic (L : Libs) (rsa : Bool) (alg : Alg) (der : Bytes) :
    SecretKey.fromDer (P := L.prims) rsa alg der = .panic ↔ ∃ key, PrivateFile L.rsa.der alg key der ∧
      ((alg = .ed25519 ∧ (key.length ≠ 34 ∨ ∀ x ∈ key.drop 2, x = 0)) ∨
       (alg = .ecdsaP256Sha256 ∧ ∃ b, KeyField L.rsa.der alg key b ∧ b.length ≠ 32) ∨
       (alg = .ecdsaP384Sha384 ∧ ∃ b, KeyField L.rsa.der alg key b ∧ b.length ≠ 48)) := by
  have hz : ∀ b : Bytes, b.length = 32 → (L.prims.ed25519.skOf b = none ↔ ∀ x ∈ b, x = 0) := by
    intro b hl
    have e : L.prims.ed25519.skOf b = if h : b.length = 32 ∧ b ≠ List.replicate 32 0 then some ⟨b, h⟩ else none := rfl
    rw [e]
    by_cases h : b = List.replicate 32 0
    · rw [dif_neg (fun hh => hh.2 h)]
      simp only [true_iff]
      rw [h]; intro x hx; exact List.eq_of_mem_replicate hx
    · rw [dif_pos ⟨hl, h⟩]
      simp only [reduceCtorEq, false_iff]
      intro hh; exact h (List.eq_replicate_iff.2 ⟨hl, hh⟩)
  have he : ∀ key : Bytes, (key.length ≠ 34 ∨ L.prims.ed25519.skOf (key.drop 2) = none) ↔ (key.length ≠ 34 ∨ ∀ x ∈ key.drop 2, x = 0) := by
    intro key
    by_cases hl : key.length = 34
    · rw [hz _ (by rw [List.length_drop, hl])]
    · simp [hl]
  rw [C57_from_der]
  constructor
  · rintro ⟨pki, h1, hd, hc⟩
    have hs : ∀ k, L.prims.sec1 pki.privateKey = some k ↔ _ := fun k => Der.sec1_iff (pki_fits h1)
    refine ⟨pki.privateKey, pki_declares.1 ⟨pki, h1, hd, rfl⟩, ?_⟩
    rcases hc with ⟨rfl, h⟩ | ⟨rfl, b, h, h'⟩ | ⟨rfl, b, h, h'⟩
    · exact Or.inl ⟨rfl, (he _).1 h⟩
    · exact Or.inr (Or.inl ⟨rfl, b, (hs b).1 h, h'⟩)
    · exact Or.inr (Or.inr ⟨rfl, b, (hs b).1 h, h'⟩)
  · rintro ⟨key, hp, hc⟩
    obtain ⟨pki, h1, hd, rfl⟩ := pki_declares.2 hp
    have hs : ∀ k, L.prims.sec1 pki.privateKey = some k ↔ _ := fun k => Der.sec1_iff (pki_fits h1)
    refine ⟨pki, h1, hd, ?_⟩
    rcases hc with ⟨rfl, h⟩ | ⟨rfl, b, h, h'⟩ | ⟨rfl, b, h, h'⟩
    · exact Or.inl ⟨rfl, (he _).2 h⟩
    · exact Or.inr (Or.inl ⟨rfl, b, (hs b).2 h, h'⟩)
    · exact Or.inr (Or.inr ⟨rfl, b, (hs b).2 h, h'⟩)

/-! ### Every key has a file -/

/-- Limits that leave room for ordinary files. -/
structure Usual (L : Der.Lib) : Prop where
  len : 2 ^ 20 ≤ L.maxLen
  oid : ∀ o : Bytes, 2 ≤ o.length → o.length ≤ 39 → L.oidOk o = true
  tag : L.anyTag 6 = true
  rest : L.pkiRest 0 [] = true
  ec : L.sec1Rest [] = true
  start : ∀ label ls s, Asn1.Pem label ls s → L.preamble s = s
  lines : ∀ k m, 0 < m → m ≤ 64 → L.widths (List.replicate k 64 ++ [m]) = true

theorem lib_usual : Usual Der.lib where
  len := by decide
  oid o h1 h2 := by simp [Der.lib, h1, h2]
  tag := by decide
  rest := by decide
  ec := by decide
  start label ls s h := by
    obtain ⟨e, _, h⟩ := h
    have hl := Der.lines_iff.1 h
    show Der.dropPreamble s = s
    unfold Der.dropPreamble
    cases hs : splitOn '\n' s with
    | nil => exact absurd hs (splitOn_ne_nil _ _)
    | cons a t =>
      rw [hs, List.map_cons] at hl
      have ha := (List.cons.inj hl).1
      have hb : Der.boundary (c! "BEGIN") (Der.chomp a) = some label := Der.boundary_iff.2 (by rw [← ha]; simp)
      rw [List.dropWhile_cons_of_neg (by rw [hb]; simp), ← hs, Der.join_splitOn]
  lines k m h1 h2 := by
    show Der.wrap64 _ = true
    induction k with
    | zero => simp [Der.wrap64, h2]
    | succ k ih =>
      cases k with
      | zero => simp [Der.wrap64, h2]
      | succ k => simpa [List.replicate_succ, Der.wrap64] using ih

/-- C68: with the reading of `Der.lib`, lines of text before the first line that begins with `-----BEGIN ` do not matter. RFC 7468 section 2 allows them. -/
theorem C68_preamble {ls : List Str} (h : ∀ l ∈ ls, '\n' ∉ l ∧ ¬ c! "-----BEGIN " <+: l) (s : Str) : Der.pem Der.lib (ls.flatMap (· ++ ['\n']) ++ s) = Der.pem Der.lib s := by
  have key : Der.dropPreamble (ls.flatMap (· ++ ['\n']) ++ s) = Der.dropPreamble s := by
    induction ls with
    | nil => rfl
    | cons l ls ih =>
      obtain ⟨h1, h2⟩ := h l (by simp)
      rw [← ih (fun x hx => h x (by simp [hx]))]
      unfold Der.dropPreamble
      have hb : Der.boundary (c! "BEGIN") (Der.chomp l) = none := by
        cases hb : Der.boundary (c! "BEGIN") (Der.chomp l) with
        | none => rfl
        | some label =>
          refine absurd ?_ h2
          have hp : c! "-----BEGIN " <+: Der.chomp l := by
            rw [Der.boundary_iff.1 hb]
            exact ⟨label ++ c! "-----", by simp⟩
          refine hp.trans ?_
          unfold Der.chomp
          split
          · exact List.dropLast_prefix l
          · exact List.prefix_rfl
      rw [List.flatMap_cons, List.append_assoc, List.append_assoc, List.singleton_append, splitOn_append '\n' _ h1, List.dropWhile_cons_of_pos (by rw [hb]; rfl)]
  replace key : Der.lib.preamble (ls.flatMap (· ++ ['\n']) ++ s) = Der.lib.preamble s := key
  unfold Der.pem
  rw [key]

-- the hypothesis: a name and an empty line
example : ∀ l ∈ [c! "Key of Alice", []], '\n' ∉ l ∧ ¬ c! "-----BEGIN " <+: l := by decide

theorem elem_exists (t : UInt8) {c : Bytes} (h : c.length < 2 ^ 32) : ∃ x, Asn1.Elem t c x ∧ x.length ≤ c.length + 6 := by
  refine ⟨_, (Der.elem_iff h).2 rfl, ?_⟩
  unfold Der.tlv Der.lenBytes
  have hlog : Nat.log2 c.length / 8 < 4 := by
    by_cases h0 : c.length = 0
    · rw [h0]; decide
    · have : Nat.log2 c.length < 32 := (Nat.log2_lt h0).2 h
      omega
  split <;> simp only [List.length_append, List.length_cons, List.length_nil, Verif.Sha2.beBytes_length] <;> omega

theorem ec_oid : Asn1.Oid Asn1.ecPublicKey [0x2a, 0x86, 0x48, 0xce, 0x3d, 2, 1] := Der.oid_iff.2 ⟨_, _, by rfl, by rfl⟩
theorem p256_oid : Asn1.Oid Asn1.secp256r1 [0x2a, 0x86, 0x48, 0xce, 0x3d, 3, 1, 7] := Der.oid_iff.2 ⟨_, _, by rfl, by rfl⟩
theorem p384_oid : Asn1.Oid Asn1.secp384r1 [0x2b, 0x81, 4, 0, 0x22] := Der.oid_iff.2 ⟨_, _, by rfl, by rfl⟩
theorem ed_oid : Asn1.Oid Asn1.ed25519 [0x2b, 0x65, 0x70] := Der.oid_iff.2 ⟨_, _, by rfl, by rfl⟩
theorem rsa_oid : Asn1.Oid Asn1.rsaEncryption [0x2a, 0x86, 0x48, 0x86, 0xf7, 0x0d, 1, 1, 1] := Der.oid_iff.2 ⟨_, _, by rfl, by rfl⟩

theorem alg_exists {L : Der.Lib} (hL : Usual L) {alg : Alg} (ha : alg ≠ .hmacSha256) : ∃ o params a, Asn1.AlgorithmIdentifier o params a ∧
    AlgLimits L o params ∧ CurveLimit L alg params ∧ FileAlg alg o params ∧ a.length ≤ 40 := by
  have one : ∀ o : Bytes, 2 ≤ o.length → o.length ≤ 9 → ∃ a, Asn1.AlgorithmIdentifier o none a ∧ AlgLimits L o none ∧ a.length ≤ 40 := by
    intro o h1 h2
    obtain ⟨x, hx, hl⟩ := elem_exists 6 (c := o) (by omega)
    exact ⟨x, ⟨x, hx, rfl⟩, ⟨hL.oid o h1 (by omega), fun _ _ h => by cases h⟩, by omega⟩
  have two : ∀ o p : Bytes, 2 ≤ o.length → o.length ≤ 9 → p.length ≤ 9 →
      ∃ a, Asn1.AlgorithmIdentifier o (some (6, p)) a ∧ AlgLimits L o (some (6, p)) ∧ a.length ≤ 40 := by
    intro o p h1 h2 h3
    obtain ⟨x, hx, hl⟩ := elem_exists 6 (c := o) (by omega)
    obtain ⟨y, hy, hl'⟩ := elem_exists 6 (c := p) (by omega)
    refine ⟨x ++ y, ⟨x, hx, y, hy, rfl⟩, ⟨hL.oid o h1 (by omega), ?_⟩, by rw [List.length_append]; omega⟩
    rintro t q h
    simp only [Option.some.injEq, Prod.mk.injEq] at h
    rw [← h.1]; exact hL.tag
  have cl : ∀ p : Bytes, 2 ≤ p.length → p.length ≤ 39 → ∀ q, some ((6 : UInt8), p) = some (6, q) → L.oidOk q = true := by
    intro p h1 h2 q h
    simp only [Option.some.injEq, Prod.mk.injEq, true_and] at h
    rw [← h]; exact hL.oid p h1 h2
  cases alg
  · exact absurd rfl ha
  · obtain ⟨a, h1, h2, h3⟩ := two [0x2a, 0x86, 0x48, 0xce, 0x3d, 2, 1] [0x2a, 0x86, 0x48, 0xce, 0x3d, 3, 1, 7] (by decide) (by decide) (by decide)
    exact ⟨_, _, a, h1, h2, cl _ (by decide) (by decide), ⟨ec_oid, _, rfl, p256_oid⟩, h3⟩
  · obtain ⟨a, h1, h2, h3⟩ := two [0x2a, 0x86, 0x48, 0xce, 0x3d, 2, 1] [0x2b, 0x81, 4, 0, 0x22] (by decide) (by decide) (by decide)
    exact ⟨_, _, a, h1, h2, cl _ (by decide) (by decide), ⟨ec_oid, _, rfl, p384_oid⟩, h3⟩
  · obtain ⟨a, h1, h2, h3⟩ := one [0x2b, 0x65, 0x70] (by decide) (by decide)
    exact ⟨_, _, a, h1, h2, trivial, ed_oid, h3⟩
  · obtain ⟨a, h1, h2, h3⟩ := one [0x2a, 0x86, 0x48, 0x86, 0xf7, 0x0d, 1, 1, 1] (by decide) (by decide)
    exact ⟨_, _, a, h1, h2, trivial, rsa_oid, h3⟩
  · obtain ⟨a, h1, h2, h3⟩ := one [0x2a, 0x86, 0x48, 0x86, 0xf7, 0x0d, 1, 1, 1] (by decide) (by decide)
    exact ⟨_, _, a, h1, h2, trivial, rsa_oid, h3⟩

theorem privateFile_exists {L : Der.Lib} (hL : Usual L) {alg : Alg} (ha : alg ≠ .hmacSha256) {key : Bytes} (hk : key.length ≤ 2 ^ 17) :
    ∃ der, PrivateFile L alg key der := by
  obtain ⟨o, params, a, h1, h2, h3, h4, h5⟩ := alg_exists hL ha
  obtain ⟨y, hy, ly⟩ := elem_exists 0x30 (c := a) (by omega)
  obtain ⟨z, hz, lz⟩ := elem_exists 4 (c := key) (by omega)
  have hx : Asn1.Integer 0 [2, 1, 0] := (Der.integer_iff (by decide)).2 (by decide +kernel)
  have hl : ([2, 1, 0] ++ y ++ z ++ [] : Bytes).length ≤ 2 ^ 20 := by
    simp only [List.length_append, List.length_cons, List.length_nil]; omega
  obtain ⟨der, hd, _⟩ := elem_exists 0x30 (c := [2, 1, 0] ++ y ++ z ++ []) (by omega)
  exact ⟨der, _, 0, o, params, [], hd, le_trans hl hL.len, by omega, ⟨_, a, y, z, hx, h1, hy, hz, rfl⟩, by decide, hL.rest, h2, h3, h4⟩

theorem publicFile_exists {L : Der.Lib} (hL : Usual L) {alg : Alg} (ha : alg ≠ .hmacSha256) {key : Bytes} (hk : key.length ≤ 2 ^ 17) :
    ∃ der, PublicFile L alg key der := by
  obtain ⟨o, params, a, h1, h2, h3, h4, h5⟩ := alg_exists hL ha
  obtain ⟨y, hy, ly⟩ := elem_exists 0x30 (c := a) (by omega)
  obtain ⟨z, hz, lz⟩ := elem_exists 3 (c := 0 :: key) (by rw [List.length_cons]; omega)
  rw [List.length_cons] at lz
  have hl : (y ++ z : Bytes).length ≤ 2 ^ 20 := by rw [List.length_append]; omega
  obtain ⟨der, hd, _⟩ := elem_exists 0x30 (c := y ++ z) (by omega)
  exact ⟨der, _, o, params, hd, le_trans hl hL.len, by omega, ⟨a, y, z, h1, hy, hz, rfl⟩, h2, h3, h4⟩

theorem keyField_exists {L : Der.Lib} (hL : Usual L) {alg : Alg} {b : Bytes} (hb : b.length ≤ 2 ^ 16) :
    ∃ key, KeyField L alg key b ∧ key.length ≤ 2 ^ 17 := by
  have ec : ∃ key, (∃ rest, Asn1.EcPrivateKey b rest key ∧ L.sec1Rest rest = true) ∧ key.length ≤ 2 ^ 17 := by
    obtain ⟨y, hy, ly⟩ := elem_exists 4 (c := b) (by omega)
    have hx : Asn1.Integer 1 [2, 1, 1] := (Der.integer_iff (by decide)).2 (by decide +kernel)
    have hl : ([2, 1, 1] ++ y ++ [] : Bytes).length = y.length + 3 := by simp
    obtain ⟨key, hk, lk⟩ := elem_exists 0x30 (c := [2, 1, 1] ++ y ++ []) (by omega)
    exact ⟨key, ⟨[], ⟨_, y, hx, hy, hk⟩, hL.ec⟩, by omega⟩
  cases alg
  · exact ⟨b, rfl, by omega⟩
  · exact ec
  · exact ec
  · exact ⟨4 :: 32 :: b, ⟨_, _, rfl⟩, by simp only [List.length_cons]; omega⟩
  · exact ⟨b, rfl, by omega⟩
  · exact ⟨b, rfl, by omega⟩

theorem wrap_exists (e : Str) (he : e ≠ []) : ∃ (ls : List Str) (k m : Nat), ls.flatten = e ∧ ls.map List.length = List.replicate k 64 ++ [m] ∧ 0 < m ∧ m ≤ 64 := by
  induction hn : e.length using Nat.strong_induction_on generalizing e with
  | _ n ih =>
    by_cases h : e.length ≤ 64
    · exact ⟨[e], 0, e.length, by simp, by simp, List.length_pos_iff.2 he, h⟩
    · obtain ⟨ls, k, m, h1, h2, h3⟩ := ih (e.drop 64).length (by rw [List.length_drop]; omega) (e.drop 64)
        (by rw [Ne, List.drop_eq_nil_iff]; omega) rfl
      refine ⟨e.take 64 :: ls, k + 1, m, by rw [List.flatten_cons, h1, List.take_append_drop], ?_, h3⟩
      rw [List.map_cons, h2, List.length_take, List.replicate_succ, List.cons_append, Nat.min_eq_left (by omega)]

theorem encode_plain (b : Bytes) : ∀ x ∈ Base64.encode b, x ≠ '\n' ∧ x ≠ '\r' := by
  have key : ∀ n, Base64.encChar n ≠ '\n' ∧ Base64.encChar n ≠ '\r' := by
    intro n
    by_cases h : n < 64
    · revert n; decide
    · unfold Base64.encChar
      rw [if_neg (by omega), if_neg (by omega), if_neg (by omega), if_neg (by omega)]
      decide
  match b with
  | [] => simp [Base64.encode]
  | [a] => simp [Base64.encode, key]
  | [a, b] => simp [Base64.encode, key]
  | a :: b :: c :: t =>
    have := encode_plain t
    simp only [Base64.encode, List.mem_cons]
    rintro x (rfl | rfl | rfl | rfl | h)
    · exact key _
    · exact key _
    · exact key _
    · exact key _
    · exact this x h

theorem pem_exists {L : Der.Lib} (hL : Usual L) (label : Str) (hl : ∀ x ∈ label, x ≠ '\n' ∧ x ≠ '\r') {der : Bytes} (hd : der ≠ []) :
    ∃ s, PemText L label der s := by
  obtain ⟨ls, k, m, h1, h2, h3, h4⟩ := wrap_exists (Base64.encode der) (fun h => hd (Base64.encode_eq_nil.1 h))
  have hpl : ∀ l ∈ ls, ∀ x ∈ l, x ≠ '\n' ∧ x ≠ '\r' := fun l h x hx => encode_plain der x (by rw [← h1]; exact List.mem_flatten.2 ⟨l, h, hx⟩)
  let raw : List Str := (c! "-----BEGIN " ++ label ++ c! "-----") :: ls ++ (c! "-----END " ++ label ++ c! "-----") :: []
  have hraw : ∀ l ∈ raw, ∀ x ∈ l, x ≠ '\n' ∧ x ≠ '\r' := by
    intro l h x hx
    simp only [raw, List.cons_append, List.mem_cons, List.mem_append, List.not_mem_nil, or_false] at h
    have bx : ∀ x ∈ c! "-----BEGIN ", x ≠ '\n' ∧ x ≠ '\r' := by decide
    have ex : ∀ x ∈ c! "-----END ", x ≠ '\n' ∧ x ≠ '\r' := by decide
    have dx : ∀ x ∈ c! "-----", x ≠ '\n' ∧ x ≠ '\r' := by decide
    rcases h with rfl | h | rfl
    · change x ∈ c! "-----BEGIN " ++ label ++ c! "-----" at hx
      rcases List.mem_append.1 hx with hx | hx
      · rcases List.mem_append.1 hx with hx | hx
        · exact bx x hx
        · exact hl x hx
      · exact dx x hx
    · exact hpl l h x hx
    · change x ∈ c! "-----END " ++ label ++ c! "-----" at hx
      rcases List.mem_append.1 hx with hx | hx
      · rcases List.mem_append.1 hx with hx | hx
        · exact ex x hx
        · exact hl x hx
      · exact dx x hx
  have hp : Asn1.Pem label ls (List.intercalate ['\n'] raw) := by
    refine ⟨[], Or.inl rfl, raw, by simp [raw], rfl, fun l h hx => (hraw l h _ hx).1 rfl, ?_⟩
    show List.Forall₂ _ raw raw
    rw [List.forall₂_same]
    exact fun l h => Or.inr ⟨rfl, fun hh => (hraw l h _ (List.mem_of_getLast? hh)).2 rfl⟩
  exact ⟨_, ls, by rw [hL.start _ _ _ hp]; exact hp, by rw [h2]; exact hL.lines k m h3 h4, by rw [h1, Base64.encode_eq_spec]⟩

theorem elem_ne_nil {t : UInt8} {c b : Bytes} (h : Asn1.Elem t c b) : b ≠ [] := by
  intro hb; have := Der.elem_length h; rw [hb] at this; simp at this

/-- C68: every private key that can be imported from bytes can be imported from a PEM text. -/
theorem C68_secret_has_pem (L : Libs) (hL : Usual L.rsa.der) (rsa : Bool) {alg : Alg} {b : Bytes} (hb : b.length ≤ 2 ^ 16)
    {sk : SecretKey L.prims} (h : SecretKey.fromBytes rsa alg b = .ok sk) : ∃ s, SecretKey.fromPem rsa alg s = .ok sk := by
  have ha : alg ≠ .hmacSha256 := by rintro rfl; cases h
  obtain ⟨key, hk, lk⟩ := keyField_exists hL (alg := alg) hb
  obtain ⟨der, hd⟩ := privateFile_exists hL ha lk
  have h1 := (C68_secret_der L rsa alg der sk).2 ⟨key, b, hd, hk, h⟩
  obtain ⟨_, _, _, _, _, he, _⟩ := hd
  obtain ⟨s, hs⟩ := pem_exists hL (c! "PRIVATE KEY") (by decide) (elem_ne_nil he)
  exact ⟨s, (C68_secret_pem ..).2 ⟨der, hs, h1⟩⟩

/-- C68: and every public key. -/
theorem C68_public_has_pem (L : Libs) (hL : Usual L.rsa.der) (rsa : Bool) {alg : Alg} {b : Bytes} (hb : b.length ≤ 2 ^ 16)
    {pk : PublicKey L.prims} (h : PublicKey.fromBytes rsa alg b = .ok pk) : ∃ s, PublicKey.fromPem rsa alg s = .ok pk := by
  have ha : alg ≠ .hmacSha256 := by rintro rfl; cases h
  obtain ⟨der, hd⟩ := publicFile_exists hL ha (key := b) (by omega)
  have he := hd
  obtain ⟨_, _, _, he, _⟩ := he
  obtain ⟨s, hs⟩ := pem_exists hL (c! "PUBLIC KEY") (by decide) (elem_ne_nil he)
  exact ⟨s, (C68_public_pem ..).2 ⟨der, b, hs, hd, h⟩⟩

/-! ### Cases -/

theorem pemText_of {L : Der.Lib} {label s : Str} {der : Bytes} (h : Der.pem L s = some (label, der)) : PemText L label der s := by
  obtain ⟨ls, c, hp, hw, hb, _⟩ := Der.pem_iff.1 h
  exact ⟨ls, hp, hw, by rw [hb, Base64.encode_eq_spec]⟩

def edFile (x y : UInt8) : Bytes :=
  [0x30, 0x2e, 2, 1, 0, 0x30, 5, 6, 3, 0x2b, 0x65, 0x70, 4, 0x22, x, y] ++ edSeed

/-- Any two bytes before the seed are taken: the file with the bytes 4 and 32, and one with others. -/
theorem edFile_ok (x y : UInt8) : PrivateFile Libs.std.rsa.der .ed25519 (x :: y :: edSeed) (edFile x y) := by
  have h1 : Asn1.Integer 0 [2, 1, 0] := (Der.integer_iff (by decide)).2 (by decide +kernel)
  have h2 : Asn1.Elem 6 [0x2b, 0x65, 0x70] [6, 3, 0x2b, 0x65, 0x70] := (Der.elem_iff (by decide)).2 (by decide +kernel)
  have h3 : Asn1.Elem 0x30 [6, 3, 0x2b, 0x65, 0x70] [0x30, 5, 6, 3, 0x2b, 0x65, 0x70] := (Der.elem_iff (by decide)).2 (by decide +kernel)
  have h4 : Asn1.Elem 4 (x :: y :: edSeed) (4 :: 0x22 :: x :: y :: edSeed) := (Der.elem_iff (by rw [List.length_cons, List.length_cons, edSeed_ok.1]; decide)).2 (by rfl)
  refine ⟨[2, 1, 0] ++ [0x30, 5, 6, 3, 0x2b, 0x65, 0x70] ++ (4 :: 0x22 :: x :: y :: edSeed) ++ [], 0, _, none, [], ?_, ?_, ?_,
    ⟨_, _, _, _, h1, ⟨_, h2, rfl⟩, h3, h4, rfl⟩, by decide, by decide, ⟨by decide, fun _ _ h => by cases h⟩, trivial, ed_oid⟩
  · refine (Der.elem_iff ?_).2 ?_
    · show 46 < 2 ^ 32; decide
    · rfl
  · show 46 ≤ Der.lib.maxLen; decide
  · show 46 < 2 ^ 32; decide

example : SecretKey.fromDer (P := Libs.std.prims) false .ed25519 (edFile 4 32) =
      .ok (.ed25519 (P := Libs.std.prims) ⟨edSeed, edSeed_ok⟩) ∧
    SecretKey.fromDer (P := Libs.std.prims) false .ed25519 (edFile 0 255) = .ok (.ed25519 (P := Libs.std.prims) ⟨edSeed, edSeed_ok⟩) :=
  ⟨(C68_ed_prefix_ignored _ _ (edFile_ok 4 32)).trans (sk_ed_iff.2 ⟨edSeed_ok, rfl⟩),
    (C68_ed_prefix_ignored _ _ (edFile_ok 0 255)).trans (sk_ed_iff.2 ⟨edSeed_ok, rfl⟩)⟩

theorem p256Sk_pem : ∃ der, Der.pem Der.lib KeyTests.p256Sk = some (c! "PRIVATE KEY", der) ∧
    ∃ pki, Der.pkiOfDer Der.lib der = some pki ∧ Declares .ecdsaP256Sha256 pki.oid pki.paramsOid ∧
      ∃ b, Der.sec1 Der.lib pki.privateKey = some b ∧ b.length = 32 := by
  have h : ((Der.pem Der.lib KeyTests.p256Sk).bind fun x => (Der.pkiOfDer Der.lib x.2).bind fun p => (Der.sec1 Der.lib p.privateKey).map fun b =>
      (x.1, p.oid, p.paramsOid, b.length)) = some (c! "PRIVATE KEY", oidEC, some oidP256, 32) := by decide +kernel
  simp only [Option.bind_eq_some_iff, Option.map_eq_some_iff, Prod.mk.injEq, Prod.exists] at h
  obtain ⟨l, der, h1, pki, h2, b, h3, h4, h5, h6, h7⟩ := h
  exact ⟨der, by rw [h1, h4], pki, h2, ⟨h5, h6⟩, b, h3, h7⟩

/-- The key of the tests, asymmetric.rs 455-459, meets the hypotheses of the theorems; it carries its public key. -/
example : ∃ der key b, PemText Libs.std.rsa.der (c! "PRIVATE KEY") der KeyTests.p256Sk ∧ PrivateFile Libs.std.rsa.der .ecdsaP256Sha256 key der ∧
    KeyField Libs.std.rsa.der .ecdsaP256Sha256 key b ∧ b.length = 32 := by
  obtain ⟨der, h1, pki, h2, hd, b, h3, h4⟩ := p256Sk_pem
  have h2' : Libs.std.prims.pkiOfDer der = some pki := h2
  exact ⟨der, pki.privateKey, b, pemText_of h1, pki_declares.1 ⟨pki, h2', hd, rfl⟩, (Der.sec1_iff (pki_fits h2')).1 h3, h4⟩

/-- A label that is not the expected one is refused although the file is right. -/
example : SecretKey.fromPem (P := Libs.std.prims) true .ed25519 KeyTests.edPk = .err .parsePrivateKey := by rfl

/-- A file of an Ed25519 key whose field has no room for a seed makes the import panic. -/
example : SecretKey.fromDer (P := Libs.std.prims) false .ed25519
    [0x30, 0x0d, 2, 1, 0, 0x30, 5, 6, 3, 0x2b, 0x65, 0x70, 4, 1, 7] = .panic := by rfl

example : Usual Libs.std.rsa.der := lib_usual

end Verif
