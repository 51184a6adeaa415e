import Verif.Props.C40
import Verif.Props.C14
import Verif.Props.C04
/-!
C57: when key import panics. Also concrete cases for remarks in DESIGN.md that no other theorem shows.
-/
namespace Verif
open Spec Sfv

/-- The lengths and the library failure that make `SecretKey::from_bytes` panic. -/
def BadKeyBytes (P : Prims) (alg : Alg) (b : Bytes) : Prop :=
  (alg = .ecdsaP256Sha256 ∧ b.length ≠ 32) ∨ (alg = .ecdsaP384Sha384 ∧ b.length ≠ 48) ∨
  (alg = .ed25519 ∧ (b.length ≠ 32 ∨ P.ed25519.skOf b = none))

/-- C57: import from raw bytes panics exactly on bytes of the wrong length, or when the Ed25519 library refuses the seed. -/
theorem C57_from_bytes {P : Prims} (rsa : Bool) (alg : Alg) (b : Bytes) :
    (SecretKey.fromBytes rsa alg b : Res SigErr (SecretKey P)) = .panic ↔ BadKeyBytes P alg b := by
  have hob : ∀ {α β : Type} (o : Option α) (f : α → β),
      (do let k ← Res.ofOption SigErr.parsePrivateKey o; Res.ok (f k) : Res SigErr β) ≠ .panic := by
    intro α β o f; cases o <;> simp [Res.ofOption, bind, Res.bind]
  unfold BadKeyBytes
  cases alg <;> simp only [SecretKey.fromBytes, reduceCtorEq, false_and, true_and, false_or, or_false]
  all_goals (repeat' split)
  all_goals simp_all

/-- C57: public key bytes never cause a panic. -/
theorem C57_public_from_bytes {P : Prims} (rsa : Bool) (alg : Alg) (b : Bytes) :
    (PublicKey.fromBytes rsa alg b : Res SigErr (PublicKey P)) ≠ .panic := by
  have hob : ∀ {α β : Type} (o : Option α) (f : α → β),
      (do let k ← Res.ofOption SigErr.parsePublicKey o; Res.ok (f k) : Res SigErr β) ≠ .panic := by
    intro α β o f; cases o <;> simp [Res.ofOption, bind, Res.bind]
  cases alg <;> simp only [PublicKey.fromBytes]
  all_goals (repeat' split)
  all_goals simp_all

theorem skBytes_panic {P : Prims} {rsa : Bool} {alg : Alg} {pki : Pki} :
    skBytesOfPki P rsa alg pki = .panic ↔ alg = .ed25519 ∧ pki.oid = oidEd25519 ∧ pki.privateKey.length < 2 := by
  have e1 : oidEC ≠ oidEd25519 := by decide
  unfold skBytesOfPki
  by_cases h1 : pki.oid = oidEC
  · rw [if_pos h1, h1]
    simp only [e1, false_and, and_false, iff_false]
    intro h
    rcases Res.bind_eq_panic.1 h with h | ⟨o, _, h⟩
    · cases hh : pki.paramsOid <;> rw [hh] at h <;> cases h
    rcases Res.bind_eq_panic.1 h with h | ⟨a, _, h⟩
    · unfold algOfCurve at h; split_ifs at h
    · split_ifs at h
      cases hh : P.sec1 pki.privateKey <;> rw [hh] at h <;> cases h
  · rw [if_neg h1]
    split_ifs <;> simp_all

theorem skBytes_ec {P : Prims} {rsa : Bool} {alg : Alg} {pki : Pki} {b : Bytes} (ha : alg = .ecdsaP256Sha256 ∨ alg = .ecdsaP384Sha384) :
    skBytesOfPki P rsa alg pki = .ok b ↔ Declares alg pki.oid pki.paramsOid ∧ P.sec1 pki.privateKey = some b := by
  have e2 : oidP256 ≠ oidP384 := by decide
  unfold skBytesOfPki
  by_cases h1 : pki.oid = oidEC
  · rw [if_pos h1, Res.bind_eq_ok]
    constructor
    · rintro ⟨o, ho, h⟩
      obtain ⟨a, h2, h'⟩ := Res.bind_eq_ok.1 h
      split_ifs at h' with h3
      rw [not_not] at h3
      subst h3
      have ho := Res.ofOption_eq_ok.1 ho
      refine ⟨?_, Res.ofOption_eq_ok.1 h'⟩
      unfold algOfCurve at h2
      split_ifs at h2 with c1 c2
      · cases h2; exact ⟨h1, by rw [ho, c1]; rfl⟩
      · cases h2; exact ⟨h1, by rw [ho, c2]; rfl⟩
    · rintro ⟨hd, hs⟩
      rcases ha with rfl | rfl
      · refine ⟨oidP256, Res.ofOption_eq_ok.2 hd.2, Res.bind_eq_ok.2 ⟨.ecdsaP256Sha256, by simp [algOfCurve], ?_⟩⟩
        simp [hs, Res.ofOption]
      · refine ⟨oidP384, Res.ofOption_eq_ok.2 hd.2, Res.bind_eq_ok.2 ⟨.ecdsaP384Sha384, by simp [algOfCurve, e2.symm], ?_⟩⟩
        simp [hs, Res.ofOption]
  · rw [if_neg h1]
    constructor
    · intro h
      rcases ha with rfl | rfl <;> simp at h
    · rintro ⟨hd, _⟩
      rcases ha with rfl | rfl <;> exact absurd hd.1 h1

theorem skBytes_ed {P : Prims} {rsa : Bool} {pki : Pki} {b : Bytes} :
    skBytesOfPki P rsa .ed25519 pki = .ok b ↔
      Declares .ed25519 pki.oid pki.paramsOid ∧ 2 ≤ pki.privateKey.length ∧ b = pki.privateKey.drop 2 := by
  have e1 : oidEC ≠ oidEd25519 := by decide
  show _ ↔ pki.oid = oidEd25519 ∧ _
  unfold skBytesOfPki
  by_cases h1 : pki.oid = oidEC
  · rw [if_pos h1, h1]
    simp only [e1, false_and, iff_false]
    intro h
    obtain ⟨o, _, h⟩ := Res.bind_eq_ok.1 h
    obtain ⟨a, h2, h⟩ := Res.bind_eq_ok.1 h
    split_ifs at h with h3
    rw [not_not] at h3
    subst h3
    unfold algOfCurve at h2
    split_ifs at h2 <;> cases h2
  · rw [if_neg h1]
    by_cases h2 : pki.oid = oidEd25519
    · rw [if_pos h2]
      by_cases h3 : pki.privateKey.length < 2
      · simp only [h3, h2, if_true, ne_eq, not_true_eq_false, if_false, reduceCtorEq, true_and, false_iff, not_and]
        intro h; omega
      · simp [h3, h2, eq_comm, Nat.le_of_not_lt h3]
    · rw [if_neg h2]; simp [h2]

/-- C57: import from DER panics exactly when the encoded key declares the requested algorithm and is an Ed25519 key that does not
have 34 bytes or whose seed the library refuses, or an EC key whose private scalar has the wrong length. -/
theorem C57_from_der {P : Prims} (rsa : Bool) (alg : Alg) (der : Bytes) :
    (SecretKey.fromDer rsa alg der : Res SigErr (SecretKey P)) = .panic ↔
      ∃ pki, P.pkiOfDer der = some pki ∧ Declares alg pki.oid pki.paramsOid ∧
        ((alg = .ed25519 ∧ (pki.privateKey.length ≠ 34 ∨ P.ed25519.skOf (pki.privateKey.drop 2) = none)) ∨
         (alg = .ecdsaP256Sha256 ∧ ∃ b, P.sec1 pki.privateKey = some b ∧ b.length ≠ 32) ∨
         (alg = .ecdsaP384Sha384 ∧ ∃ b, P.sec1 pki.privateKey = some b ∧ b.length ≠ 48)) := by
  unfold SecretKey.fromDer
  rw [Res.bind_eq_panic]
  constructor
  · rintro (h | ⟨pki, h, hr⟩)
    · cases hh : P.pkiOfDer der <;> rw [hh] at h <;> cases h
    refine ⟨pki, Res.ofOption_eq_ok.1 h, ?_⟩
    rcases Res.bind_eq_panic.1 hr with hr | ⟨b, hb, hr⟩
    · obtain ⟨rfl, h1, h2⟩ := skBytes_panic.1 hr
      exact ⟨h1, Or.inl ⟨rfl, Or.inl (by omega)⟩⟩
    · rcases (C57_from_bytes rsa alg b).1 hr with ⟨rfl, hl⟩ | ⟨rfl, hl⟩ | ⟨rfl, hl⟩
      · obtain ⟨h1, h2⟩ := (skBytes_ec (Or.inl rfl)).1 hb
        exact ⟨h1, Or.inr (Or.inl ⟨rfl, b, h2, hl⟩)⟩
      · obtain ⟨h1, h2⟩ := (skBytes_ec (Or.inr rfl)).1 hb
        exact ⟨h1, Or.inr (Or.inr ⟨rfl, b, h2, hl⟩)⟩
      · obtain ⟨h1, h2, rfl⟩ := skBytes_ed.1 hb
        rw [List.length_drop] at hl
        exact ⟨h1, Or.inl ⟨rfl, hl.imp (by omega) id⟩⟩
  · rintro ⟨pki, h, hd, hc⟩
    refine Or.inr ⟨pki, Res.ofOption_eq_ok.2 h, Res.bind_eq_panic.2 ?_⟩
    rcases hc with ⟨rfl, hl⟩ | ⟨rfl, b, hb, hl⟩ | ⟨rfl, b, hb, hl⟩
    · by_cases h2 : pki.privateKey.length < 2
      · exact Or.inl (skBytes_panic.2 ⟨rfl, hd, h2⟩)
      · refine Or.inr ⟨_, skBytes_ed.2 ⟨hd, by omega, rfl⟩, (C57_from_bytes rsa _ _).2 (Or.inr (Or.inr ⟨rfl, ?_⟩))⟩
        rw [List.length_drop]
        exact hl.imp (by omega) id
    · exact Or.inr ⟨b, (skBytes_ec (Or.inl rfl)).2 ⟨hd, hb⟩, (C57_from_bytes rsa _ _).2 (Or.inl ⟨rfl, hl⟩)⟩
    · exact Or.inr ⟨b, (skBytes_ec (Or.inr rfl)).2 ⟨hd, hb⟩, (C57_from_bytes rsa _ _).2 (Or.inr (Or.inl ⟨rfl, hl⟩))⟩

example : SecretKey.fromDer (P := toyPrims) false .ed25519 [2, 4] = .panic := rfl
example : SecretKey.fromDer (P := toyPrims) false .ecdsaP256Sha256 [1, 4] = .panic := rfl
example : SecretKey.fromDer (P := toyPrims) false .ecdsaP384Sha384 [1, 4] = .err .parsePrivateKey := rfl
example : SecretKey.fromBytes (P := toyPrims) false .ed25519 [1] = .panic := rfl
example : SecretKey.fromBytes (P := toyPrims) false .ecdsaP256Sha256 (List.replicate 33 1) = .panic := rfl

/-! ### Concrete cases -/

/-- A token, an integer or a boolean in the covered list is read as the string with the same characters. -/
theorem finding_conflated :
    SigParams.ofStr (c! "(date)") = SigParams.ofStr (c! "(\"date\")") ∧
    SigParams.ofStr (c! "(5)") = SigParams.ofStr (c! "(\"5\")") ∧
    SigParams.ofStr (c! "(?1)") = SigParams.ofStr (c! "(\"?1\")") ∧
    (SigParams.ofStr (c! "(date)")).isOk = true := by decide

/-- Two spellings of one header name are accepted side by side. -/
theorem finding_case : (SigParams.ofStr (c! "(\"date\" \"Date\")")).isOk = true := by decide

/-- The value of a flag parameter is ignored, even when it is false. -/
theorem finding_flag : CId.ofStr (c! "\"a\";sf=?0") = CId.ofStr (c! "\"a\";sf") ∧ (CId.ofStr (c! "\"a\";sf=?0")).isOk = true := by
  decide

set_option maxRecDepth 20000 in
/-- A nonce with a letter outside ASCII: signing succeeds, and the signed message can then not be read. -/
theorem finding_nonce : ∃ (r' : Request) (p : SigParams) (sk : SigningKey) (vk : VerifyingKey), KeyPair sk vk ∧
    exReq.setSignature p sk none = (r', .ok ()) ∧ ∃ e, r'.verifySignature 0 vk none = .err e :=
  ⟨_, (exParams [⟨.derived .method, []⟩]).setNonce (c! "\u00e9"), toySign 1, toyVerify 1, toy_pair 1, rfl, _, rfl⟩

end Verif
