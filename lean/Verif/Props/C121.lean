import Verif.Spec.Builds
import Verif.Props.C10
import Verif.Props.C40
/-!
C121. Builds with and without the feature `rsa-signature`. The feature adds two algorithms. What the other build can do, it does in the same way; only one message
text differs, for RSA keys given as keys of another algorithm.
-/
namespace Verif
open Builds

theorem common_iff (a : Alg) : Common a ↔ a ≠ .rsaV15Sha256 ∧ a ≠ .rsaPssSha512 := by
  unfold Common
  cases a <;> decide

/-- C121: both builds read the same names, apart from two; the small build does not have their algorithms. -/
theorem C121_names (s : Str) :
    (s ∉ rsaNames → Alg.ofStr false s = Alg.ofStr true s) ∧
    (s ∈ rsaNames → Alg.ofStr false s = .err .invalidAlgorithmName ∧ ∃ a, Alg.ofStr true s = .ok a ∧ a.toStr = s) ∧
    ∀ a, Alg.ofStr false s = .ok a ↔ Alg.ofStr true s = .ok a ∧ Common a := by
  have h1 : s ∉ rsaNames → Alg.ofStr false s = Alg.ofStr true s := by
    intro h
    simp only [rsaNames, List.mem_cons, List.not_mem_nil, or_false, not_or] at h
    simp [Alg.ofStr, h.1, h.2]
  have h2 : s ∈ rsaNames → Alg.ofStr false s = .err .invalidAlgorithmName ∧ ∃ a, Alg.ofStr true s = .ok a ∧ a.toStr = s := by
    intro h
    simp only [rsaNames, List.mem_cons, List.not_mem_nil, or_false] at h
    rcases h with rfl | rfl
    · exact ⟨by decide, .rsaV15Sha256, by decide, rfl⟩
    · exact ⟨by decide, .rsaPssSha512, by decide, rfl⟩
  refine ⟨h1, h2, fun a => ?_⟩
  have hs : Alg.ofStr true s = .ok a → a.toStr = s := fun h => (((C31_name_exact true s).1 a).1 h).1.symm
  by_cases h : s ∈ rsaNames
  · obtain ⟨g, -⟩ := h2 h
    rw [g]
    constructor
    · intro h; cases h
    · rintro ⟨g, hc⟩
      exact absurd (hs g ▸ h) hc
  · rw [h1 h]
    exact ⟨fun g => ⟨g, fun hc => h (hs g ▸ hc)⟩, fun g => g.1⟩

variable {P : Prims} {a : Alg}

theorem sk_same (ha : Common a) (b : Bytes) : SecretKey.fromBytes (P := P) false a b = SecretKey.fromBytes true a b := by
  rw [common_iff] at ha
  cases a <;> first | rfl | exact absurd rfl ha.1 | exact absurd rfl ha.2

theorem pk_same (ha : Common a) (b : Bytes) : PublicKey.fromBytes (P := P) false a b = PublicKey.fromBytes true a b := by
  rw [common_iff] at ha
  cases a <;> first | rfl | exact absurd rfl ha.1 | exact absurd rfl ha.2

theorem sk_line (ha : Common a) : readSecretLine false a = readSecretLine true a := by
  rw [common_iff] at ha
  cases a <;> first | rfl | exact absurd rfl ha.1 | exact absurd rfl ha.2

theorem pk_line (ha : Common a) : readPublicLine false a = readPublicLine true a := by
  rw [common_iff] at ha
  cases a <;> first | rfl | exact absurd rfl ha.1 | exact absurd rfl ha.2

theorem pki_same (ha : Common a) (i : Pki) : skBytesOfPki P false a i = skBytesOfPki P true a i := by
  rw [common_iff] at ha
  unfold skBytesOfPki
  simp [ha.1, ha.2]

theorem spki_same (ha : Common a) (i : Spki) : pkBytesOfSpki false a i = pkBytesOfSpki true a i := by
  rw [common_iff] at ha
  unfold pkBytesOfSpki
  simp [ha.1, ha.2]

/-- C121: private keys of the common algorithms are read in the same way, with the same lines in the log. -/
theorem C121_secret (ha : Common a) :
    (∀ b, SecretKey.fromBytesL (P := P) false a b = SecretKey.fromBytesL true a b) ∧
    (∀ der, SecretKey.fromDerL (P := P) false a der = SecretKey.fromDerL true a der) ∧
    (∀ t, SecretKey.fromPemL (P := P) false a t = SecretKey.fromPemL true a t) ∧
    (∀ b, SecretKey.fromBytes (P := P) false a b = SecretKey.fromBytes true a b) ∧
    (∀ der, SecretKey.fromDer (P := P) false a der = SecretKey.fromDer true a der) ∧
    ∀ t, SecretKey.fromPem (P := P) false a t = SecretKey.fromPem true a t := by
  have l : ∀ b, SecretKey.fromBytesL (P := P) false a b = SecretKey.fromBytesL true a b := by
    intro b; unfold SecretKey.fromBytesL; rw [sk_same ha, sk_line ha]
  have d : ∀ der, SecretKey.fromDerL (P := P) false a der = SecretKey.fromDerL true a der := by
    intro der; unfold SecretKey.fromDerL; simp only [pki_same ha, l]
  have d' : ∀ der, SecretKey.fromDer (P := P) false a der = SecretKey.fromDer true a der := by
    intro der; unfold SecretKey.fromDer; simp only [pki_same ha, sk_same ha]
  exact ⟨l, d, fun t => by unfold SecretKey.fromPemL; simp only [d], sk_same ha, d', fun t => by unfold SecretKey.fromPem; simp only [d']⟩

/-- C121: and public keys. -/
theorem C121_public (ha : Common a) :
    (∀ b, PublicKey.fromBytesL (P := P) false a b = PublicKey.fromBytesL true a b) ∧
    (∀ t, PublicKey.fromPemL (P := P) false a t = PublicKey.fromPemL true a t) ∧
    (∀ b, PublicKey.fromBytes (P := P) false a b = PublicKey.fromBytes true a b) ∧
    ∀ t, PublicKey.fromPem (P := P) false a t = PublicKey.fromPem true a t := by
  have l : ∀ b, PublicKey.fromBytesL (P := P) false a b = PublicKey.fromBytesL true a b := by
    intro b; unfold PublicKey.fromBytesL; rw [pk_same ha, pk_line ha]
  exact ⟨l, fun t => by unfold PublicKey.fromPemL; simp only [spki_same ha, l], pk_same ha,
    fun t => by unfold PublicKey.fromPem; simp only [spki_same ha, pk_same ha]⟩

/-- C121: no key of the small build is an RSA key. -/
theorem C121_no_rsa :
    (∀ (a : Alg) (t : Str) (k : SecretKey P), SecretKey.fromPem false a t = .ok k → Common k.alg) ∧
    (∀ (a : Alg) (der : Bytes) (k : SecretKey P), SecretKey.fromDer false a der = .ok k → Common k.alg) ∧
    (∀ (a : Alg) (t : Str) (k : PublicKey P), PublicKey.fromPem false a t = .ok k → Common k.alg) := by
  have c : ∀ {a : Alg}, a.available false = true → Common a := by
    intro a h
    rw [common_iff]
    constructor <;> (rintro rfl; cases h)
  refine ⟨fun a t k h => ?_, fun a der k h => ?_, fun a t k h => ?_⟩
  · obtain ⟨e, g, -⟩ := C41_secret_from_pem _ _ _ _ h
    exact e ▸ c g
  · obtain ⟨e, g, -⟩ := C41_secret_from_der _ _ _ _ h
    exact e ▸ c g
  · obtain ⟨e, g, -⟩ := C41_public_from_pem _ _ _ _ h
    exact e ▸ c g

variable (L : KeyErrLib)

theorem skT_same (ha : Common a) (b : Bytes) : SecretKey.fromBytesT (P := P) L false a b = SecretKey.fromBytesT L true a b := by
  rw [common_iff] at ha
  cases a <;> first | rfl | exact absurd rfl ha.1 | exact absurd rfl ha.2

theorem pkT_same (ha : Common a) (b : Bytes) : PublicKey.fromBytesT (P := P) L false a b = PublicKey.fromBytesT L true a b := by
  rw [common_iff] at ha
  cases a <;> first | rfl | exact absurd rfl ha.1 | exact absurd rfl ha.2

theorem pkiT_same (ha : Common a) (der : Bytes) (i : Pki) :
    (i.oid ≠ oidRsa → skBytesOfPkiT L P false a der i = skBytesOfPkiT L P true a der i) ∧
    (i.oid = oidRsa → skBytesOfPkiT L P false a der i = unsupported .parsePrivateKey ∧ skBytesOfPkiT L P true a der i = mismatch .parsePrivateKey) := by
  rw [common_iff] at ha
  unfold skBytesOfPkiT
  constructor
  · intro h; simp [h]
  · intro h
    have e1 : oidRsa ≠ oidEC := by decide
    have e2 : oidRsa ≠ oidEd25519 := by decide
    simp [h, e1, e2, ha.1, ha.2, unsupported, mismatch]

theorem spkiT_same (ha : Common a) (der : Bytes) (i : Spki) :
    (i.oid ≠ oidRsa → pkBytesOfSpkiT L false a der i = pkBytesOfSpkiT L true a der i) ∧
    (i.oid = oidRsa → pkBytesOfSpkiT L false a der i = unsupported .parsePublicKey ∧ pkBytesOfSpkiT L true a der i = mismatch .parsePublicKey) := by
  rw [common_iff] at ha
  unfold pkBytesOfSpkiT
  constructor
  · intro h; simp [h]
  · intro h
    have e1 : oidRsa ≠ oidEC := by decide
    have e2 : oidRsa ≠ oidEd25519 := by decide
    simp [h, e1, e2, ha.1, ha.2, unsupported, mismatch]

/-- C121: with the texts of errors, reading DER differs exactly for RSA keys given as keys of another algorithm. -/
theorem C121_der_text (ha : Common a) (der : Bytes) :
    (¬ RsaSecretDer P der → SecretKey.fromDerT (P := P) L false a der = SecretKey.fromDerT L true a der) ∧
    (RsaSecretDer P der → SecretKey.fromDerT (P := P) L false a der = unsupported .parsePrivateKey ∧
      SecretKey.fromDerT (P := P) L true a der = mismatch .parsePrivateKey) := by
  unfold SecretKey.fromDerT RsaSecretDer
  cases h : P.pkiOfDer der with
  | none => simp [Res.ofOption]
  | some i =>
    obtain ⟨s1, s2⟩ := pkiT_same (P := P) L ha der i
    constructor
    · intro g
      have g : i.oid ≠ oidRsa := fun e => g ⟨i, rfl, e⟩
      simp [Res.ofOption, s1 g, skT_same L ha]
    · rintro ⟨j, e, g⟩
      injection e with e; subst e
      obtain ⟨t1, t2⟩ := s2 g
      simp [Res.ofOption, t1, t2, unsupported, mismatch]

/-- C121: the same for PEM. -/
theorem C121_pem_text (ha : Common a) (t : Str) :
    (¬ RsaSecretPem P t → SecretKey.fromPemT (P := P) L false a t = SecretKey.fromPemT L true a t) ∧
    (RsaSecretPem P t → SecretKey.fromPemT (P := P) L false a t = unsupported .parsePrivateKey ∧
      SecretKey.fromPemT (P := P) L true a t = mismatch .parsePrivateKey) ∧
    (¬ RsaPublicPem P t → PublicKey.fromPemT (P := P) L false a t = PublicKey.fromPemT L true a t) ∧
    (RsaPublicPem P t → PublicKey.fromPemT (P := P) L false a t = unsupported .parsePublicKey ∧
      PublicKey.fromPemT (P := P) L true a t = mismatch .parsePublicKey) := by
  have d := fun der => C121_der_text (P := P) L ha der
  unfold SecretKey.fromPemT PublicKey.fromPemT RsaSecretPem RsaPublicPem
  cases h : P.pem t with
  | none => simp [Res.ofOption]
  | some td =>
    obtain ⟨l, der⟩ := td
    refine ⟨fun g => ?_, ?_, fun g => ?_, ?_⟩
    · by_cases hl : l = c! "PRIVATE KEY"
      · subst hl
        have g : ¬ RsaSecretDer P der := fun e => g ⟨der, rfl, e⟩
        simpa [Res.ofOption] using (d der).1 g
      · simp [Res.ofOption, hl]
    · rintro ⟨der', e, g⟩
      cases e
      simpa [Res.ofOption] using (d der).2 g
    · by_cases hl : l = c! "PUBLIC KEY"
      · subst hl
        cases hs : P.spkiOfDer der with
        | none => simp [Res.ofOption, hs]
        | some i =>
          have g : i.oid ≠ oidRsa := fun e => g ⟨der, rfl, i, hs, e⟩
          simp [Res.ofOption, hs, (spkiT_same L ha der i).1 g, pkT_same L ha]
      · simp [Res.ofOption, hl]
    · rintro ⟨der', e, i, hs, g⟩
      cases e
      obtain ⟨t1, t2⟩ := (spkiT_same L ha der i).2 g
      simp [Res.ofOption, hs, t1, t2, unsupported, mismatch]

/-- C121: what `get_alg_key_ids` reports differs only in the algorithm, where the message says RSA. -/
theorem C121_reported (m : Msg) :
    getAlgKeyIds false m = (getAlgKeyIds true m >>= fun r => .ok (r.map fun x => (x.1, (x.2.1.filter fun a => decide (Common a), x.2.2)))) := by
  have f : ∀ s : Str, (match Alg.ofStr false s with | .ok x => some x | _ => none) =
      (match Alg.ofStr true s with | .ok x => some x | _ => none : Option Alg).filter (fun a => decide (Common a)) := by
    intro s
    have h := C121_names s
    by_cases hs : s ∈ rsaNames
    · obtain ⟨g, a, g1, g2⟩ := h.2.1 hs
      have : ¬ Common a := fun hc => hc (g2 ▸ hs)
      simp [g, g1, Option.filter, this]
    · have h3 := h.2.2
      rw [h.1 hs]
      rw [h.1 hs] at h3
      cases e : Alg.ofStr true s with
      | ok a => simp [Option.filter, ((h3 a).1 e).2]
      | err _ => rfl
      | panic => rfl
  unfold getAlgKeyIds
  cases e : extractSignatureHeaders m with
  | err _ => rfl
  | panic => rfl
  | ok l =>
    have n := extractSignatureHeaders_nodup e
    show Res.ok _ = Res.ok _
    rw [imOfList_map_nodup n, imOfList_map_nodup n, List.map_map]
    congr 1
    apply List.map_congr_left
    rintro ⟨k, v⟩ _
    simp only [Function.comp_apply, Prod.mk.injEq, true_and, and_true]
    cases v.params.alg with
    | none => rfl
    | some s => exact f s

/-! ### Cases -/

example : Common .ed25519 ∧ ¬ Common .rsaPssSha512 := by decide

/-- A key file that says rsaEncryption. -/
def c121Prims : Prims :=
  { toyPrims with
    pkiOfDer := fun _ => some ⟨c! "1.2.840.113549.1.1.1", none, [1]⟩
    spkiOfDer := fun _ => some ⟨c! "1.2.840.113549.1.1.1", none, some [1]⟩
    pem := fun t => some (t, [1]) }

example : RsaSecretPem c121Prims (c! "PRIVATE KEY") ∧ RsaPublicPem c121Prims (c! "PUBLIC KEY") :=
  ⟨⟨[1], rfl, _, rfl, rfl⟩, [1], rfl, _, rfl, rfl⟩

example : SecretKey.fromPemT (P := c121Prims) L false .ed25519 (c! "PRIVATE KEY") ≠ SecretKey.fromPemT L true .ed25519 (c! "PRIVATE KEY") := by
  obtain ⟨a, b⟩ := (C121_pem_text (P := c121Prims) L (a := .ed25519) (by decide) (c! "PRIVATE KEY")).2.1 ⟨[1], rfl, _, rfl, rfl⟩
  rw [a, b]
  intro h
  injection h with h
  injection h with _ h
  revert h
  decide

-- with the feature, an RSA key is read
example : ∃ k, SecretKey.fromPem (P := c121Prims) true .rsaPssSha512 (c! "PRIVATE KEY") = .ok k ∧ k.alg = .rsaPssSha512 := ⟨.rsaPssSha512 [1], rfl, rfl⟩

/-- A message that claims an RSA algorithm. -/
def c121Req : Request :=
  { exReq with headers :=
      [(c! "signature-input", utf8 (c! "s=(\"date\");alg=\"rsa-pss-sha512\";keyid=\"k\"")), (c! "signature", utf8 (c! "s=:AA==:"))] }

set_option maxRecDepth 20000 in
example : getAlgKeyIds true (.req c121Req) = .ok [(c! "s", (some .rsaPssSha512, some (c! "k")))] ∧
    getAlgKeyIds false (.req c121Req) = .ok [(c! "s", (none, some (c! "k")))] := ⟨by decide +kernel, by decide +kernel⟩

end Verif
