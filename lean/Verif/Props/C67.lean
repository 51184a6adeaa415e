import Verif.Proofs.EdSpec
import Verif.Props.C66
import Verif.Model.Std
import Verif.Spec.Sign
/-!
C67: Ed25519 keys and signatures against RFC 8032 section 5.1, written down in `Spec/Eddsa.lean`. The theorems hold for every
choice in `Ed.Variant`: how strictly points are read, whether keys of small order are refused, whether both sides are multiplied by 8,
where the nonce comes from.
-/
namespace Verif
open Spec Spec.Sha Spec.Eddsa Sha2

instance factQ25519 : Fact q25519.Prime := ⟨Ed.p_prime⟩

/-! ### The group -/

/-- C67: there is one base point, and its order is `L`. -/
theorem C67_base : ∃ B : Pair q25519, IsBase B ∧ (∀ B', IsBase B' → B' = B) ∧ ∀ k, mul k B = zero ↔ L ∣ k := by
  refine ⟨Ed.pr Ed.B, (Ed.isBase_iff _).2 rfl, fun B' h => (Ed.isBase_iff B').1 h, fun k => ?_⟩
  show Spec.Eddsa.mul k (Ed.pr Ed.B) = Spec.Eddsa.zero ↔ _
  rw [Ed.mul_pr, ← Ed.pr_zero, Ed.pr_inj]
  exact Ed.smul_eq_zero

/-- C67: the addition formulas never divide by zero and give points of the curve; they are those of a commutative group. -/
theorem C67_group (P Q R : Pair q25519) (hP : On P) (hQ : On Q) (hR : On R) :
    1 + d q25519 * P.1 * Q.1 * P.2 * Q.2 ≠ 0 ∧ 1 - d q25519 * P.1 * Q.1 * P.2 * Q.2 ≠ 0 ∧ On (sum P Q) ∧
    sum P Q = sum Q P ∧ sum (sum P Q) R = sum P (sum Q R) ∧ sum P zero = P ∧ sum P (-P.1, P.2) = zero := by
  obtain ⟨P, rfl⟩ := Ed.pr_surj hP
  obtain ⟨Q, rfl⟩ := Ed.pr_surj hQ
  obtain ⟨R, rfl⟩ := Ed.pr_surj hR
  have h1 := Edwards.dplus P.on Q.on
  have h2 := Edwards.dminus P.on Q.on
  refine ⟨?_, ?_, ?_, ?_, ?_, ?_, ?_⟩
  · intro h
    have h : 1 + Spec.Eddsa.d Ed.p * P.x * Q.x * P.y * Q.y = 0 := h
    rw [← Ed.d_eq] at h
    apply h1; rw [← h]; ring
  · intro h
    have h : 1 - Spec.Eddsa.d Ed.p * P.x * Q.x * P.y * Q.y = 0 := h
    rw [← Ed.d_eq] at h
    apply h2; rw [← h]; ring
  · exact (Ed.sum_pr P Q) ▸ Ed.on_pr _
  · exact (Ed.sum_pr P Q).trans ((congrArg Ed.pr (add_comm P Q)).trans (Ed.sum_pr Q P).symm)
  · show Spec.Eddsa.sum (Spec.Eddsa.sum (Ed.pr P) (Ed.pr Q)) (Ed.pr R) = Spec.Eddsa.sum (Ed.pr P) (Spec.Eddsa.sum (Ed.pr Q) (Ed.pr R))
    rw [Ed.sum_pr, Ed.sum_pr, Ed.sum_pr, Ed.sum_pr, add_assoc]
  · exact (Ed.sum_pr P 0).trans (congrArg Ed.pr (add_zero P))
  · exact (Ed.sum_pr P (-P)).trans (congrArg Ed.pr (add_neg_cancel P))

/-! ### Public keys -/

theorem pk_ed_iff {L : Libs} {rsa : Bool} {b : Bytes} {pk : PublicKey L.prims} :
    PublicKey.fromBytes rsa .ed25519 b = .ok pk ↔ ∃ h : b.length = 32, pk = .ed25519 (P := L.prims) ⟨b, h⟩ := by
  have e : PublicKey.fromBytes (P := L.prims) rsa .ed25519 b =
      Res.ofOption .parsePublicKey ((Ed.ed25519 L.ed).pkOf b) >>= fun k => .ok (.ed25519 (P := L.prims) k) := rfl
  rw [e, Res.bind_eq_ok]
  simp only [Res.ofOption_eq_ok, Res.ok.injEq, Ed.ed25519]
  constructor
  · rintro ⟨k, h, rfl⟩
    split at h
    · rename_i hl; exact ⟨hl, by rw [← Option.some.inj h]⟩
    · exact absurd h (by simp)
  · rintro ⟨hl, rfl⟩
    exact ⟨_, dif_pos hl, rfl⟩

/-- C67: any 32 bytes are taken as a public key, whether they are the encoding of a point or not; other lengths are refused. -/
theorem C67_public_key (L : Libs) (rsa : Bool) (b : Bytes) :
    ((∃ pk, PublicKey.fromBytes (P := L.prims) rsa .ed25519 b = .ok pk) ↔ b.length = 32) ∧
    (b.length ≠ 32 → PublicKey.fromBytes (P := L.prims) rsa .ed25519 b = .err .parsePublicKey) := by
  constructor
  · constructor
    · rintro ⟨pk, h⟩; exact (pk_ed_iff.1 h).1
    · intro h; exact ⟨_, pk_ed_iff.2 ⟨h, rfl⟩⟩
  · intro h
    have e : PublicKey.fromBytes (P := L.prims) rsa .ed25519 b =
        Res.ofOption .parsePublicKey ((Ed.ed25519 L.ed).pkOf b) >>= fun k => .ok (.ed25519 (P := L.prims) k) := rfl
    rw [e, show (Ed.ed25519 L.ed).pkOf b = none from dif_neg h]
    rfl

theorem pk_ed_inj {L : Libs} {b b' : Bytes} {h : b.length = 32} {h' : b'.length = 32} :
    PublicKey.ed25519 (P := L.prims) ⟨b, h⟩ = PublicKey.ed25519 (P := L.prims) ⟨b', h'⟩ ↔ b = b' :=
  ⟨fun e => by injection e with e; exact congrArg Subtype.val e, fun e => by subst e; rfl⟩

/-- C67: the key id is made from the 32 bytes, as documented. -/
theorem C67_key_id (V : Variant 32) (hV : IsSha256 V) (L : Libs) (rsa : Bool) {b d : Bytes} {pk : PublicKey L.prims}
    (h : PublicKey.fromBytes rsa .ed25519 b = .ok pk) (hd : Digest V b d) : pk.keyId = Base64.encode d := by
  obtain ⟨hl, rfl⟩ := pk_ed_iff.1 h
  rw [C61_sha256 V hV b d (by rw [hl]; decide)] at hd
  rw [hd]
  rfl

theorem verify_ed_eq {L : Libs} {b : Bytes} (hl : b.length = 32) (data sig : Bytes) :
    (PublicKey.ed25519 (P := L.prims) ⟨b, hl⟩).verify data sig =
      if sig.length = 64 then (if Ed.verify L.ed b data sig then .ok () else .err .invalidSignature) else .err .parseSignature := by
  have e : (PublicKey.ed25519 (P := L.prims) ⟨b, hl⟩).verify data sig = verifyRes (Ed.ed25519 L.ed) ⟨b, hl⟩ data sig := rfl
  rw [e]
  unfold verifyRes
  by_cases hs : sig.length = 64
  · rw [show (Ed.ed25519 L.ed).sigOf sig = some ⟨sig, hs⟩ from dif_pos hs, if_pos hs]
    rfl
  · rw [show (Ed.ed25519 L.ed).sigOf sig = none from dif_neg hs, if_neg hs]

theorem verify_ed_iff {L : Libs} {b : Bytes} (hl : b.length = 32) (data sig : Bytes) :
    (PublicKey.ed25519 (P := L.prims) ⟨b, hl⟩).verify data sig = .ok () ↔ sig.length = 64 ∧ Ed.verify L.ed b data sig = true := by
  rw [verify_ed_eq]
  by_cases hs : sig.length = 64
  · rw [if_pos hs]
    cases Ed.verify L.ed b data sig <;> simp [hs]
  · rw [if_neg hs]; simp [hs]

theorem accepts_length {sy sx w c : Bool} {W : Variant 64} {pk m sig : Bytes} (h : Accepts (q := q25519) sy sx w c W pk m sig) :
    sig.length = 64 := by
  obtain ⟨r, s, _, _, _, _, rfl, h1, h2, _⟩ := h
  rw [List.length_append, h1, h2]

/-- C67: an imported public key accepts exactly the signatures that RFC 8032 section 5.1.7 accepts for its bytes. All else is refused with
an error. -/
theorem C67_verify (V : Variant 64) (hV : IsSha512 V) (L : Libs) (rsa : Bool) {b : Bytes} {pk : PublicKey L.prims}
    (h : PublicKey.fromBytes rsa .ed25519 b = .ok pk) (data sig : Bytes) (hd : 8 * (64 + data.length) < 2 ^ 128) :
    (pk.verify data sig = .ok () ↔
      Accepts (q := q25519) L.ed.canonicalY L.ed.canonicalX L.ed.rejectWeak L.ed.cofactored V b data sig) ∧
    (pk.verify data sig ≠ .ok () → pk.verify data sig = .err (if sig.length = 64 then .invalidSignature else .parseSignature)) := by
  obtain ⟨hl, rfl⟩ := pk_ed_iff.1 h
  constructor
  · rw [verify_ed_iff]
    constructor
    · rintro ⟨h1, h2⟩; exact (Ed.verify_iff L.ed hV hl h1 hd).1 h2
    · intro h1; exact ⟨accepts_length h1, (Ed.verify_iff L.ed hV hl (accepts_length h1) hd).2 h1⟩
  · rw [verify_ed_eq]
    by_cases hs : sig.length = 64
    · rw [if_pos hs, if_pos hs]
      cases Ed.verify L.ed b data sig <;> simp
    · rw [if_neg hs, if_neg hs]; simp

/-- C67: a key that is not the encoding of a point accepts nothing; the import does not tell. -/
theorem C67_dead_key (L : Libs) (rsa : Bool) {b : Bytes} {pk : PublicKey L.prims} (h : PublicKey.fromBytes rsa .ed25519 b = .ok pk)
    (hb : ∀ A : Pair q25519, ¬Encodes L.ed.canonicalY L.ed.canonicalX b A) (data sig : Bytes) : pk.verify data sig ≠ .ok () := by
  obtain ⟨hl, rfl⟩ := pk_ed_iff.1 h
  rw [Ne, verify_ed_iff]
  rintro ⟨_, hv⟩
  unfold Ed.verify at hv
  simp only at hv
  split at hv
  · exact absurd hv (by simp)
  · split at hv
    · exact absurd hv (by simp)
    · rename_i A hA
      obtain ⟨Q, hQ⟩ := Ed.decode_rep hA
      exact hb _ ((Ed.decode_iff L.ed b Q).1 ⟨A, hQ, hA⟩)

/-! ### Private keys and signatures -/

theorem sk_ed_eq {L : Libs} {rsa : Bool} (b : Bytes) : SecretKey.fromBytes (P := L.prims) rsa .ed25519 b =
    if h : b.length = 32 ∧ b ≠ List.replicate 32 0 then .ok (.ed25519 (P := L.prims) ⟨b, h⟩) else .panic := by
  by_cases h : b.length = 32 ∧ b ≠ List.replicate 32 0
  · have hk : L.prims.ed25519.skOf b = some ⟨b, h⟩ := dif_pos h
    rw [dif_pos h, SecretKey.fromBytes]
    simp only [hk, h.1, ne_eq, not_true, if_false]
  · have hk : L.prims.ed25519.skOf b = none := dif_neg h
    rw [dif_neg h, SecretKey.fromBytes]
    simp only [hk, ite_self]

theorem sk_ed_iff {L : Libs} {rsa : Bool} {b : Bytes} {sk : SecretKey L.prims} :
    SecretKey.fromBytes rsa .ed25519 b = .ok sk ↔
      ∃ h : b.length = 32 ∧ b ≠ List.replicate 32 0, sk = .ed25519 (P := L.prims) ⟨b, h⟩ := by
  rw [sk_ed_eq]
  split
  · rename_i h
    constructor
    · intro hk; exact ⟨h, (Res.ok.inj hk).symm⟩
    · rintro ⟨_, rfl⟩; rfl
  · rename_i h
    constructor
    · intro hk; exact absurd hk (by simp)
    · rintro ⟨h', _⟩; exact absurd h' h

/-- C67: private keys are all strings of 32 bytes but the one of zeros; any other argument is a panic, never an error. -/
theorem C67_secret_key (L : Libs) (rsa : Bool) (b : Bytes) :
    ((∃ sk, SecretKey.fromBytes (P := L.prims) rsa .ed25519 b = .ok sk) ↔ b.length = 32 ∧ ∃ x ∈ b, x ≠ 0) ∧
    ((¬∃ sk, SecretKey.fromBytes (P := L.prims) rsa .ed25519 b = .ok sk) → SecretKey.fromBytes (P := L.prims) rsa .ed25519 b = .panic) := by
  have hz : b.length = 32 → (b ≠ List.replicate 32 0 ↔ ∃ x ∈ b, x ≠ 0) := by
    intro hl
    rw [Ne, List.eq_replicate_iff]
    simp [hl]
  constructor
  · constructor
    · rintro ⟨sk, h⟩
      obtain ⟨⟨h1, h2⟩, _⟩ := sk_ed_iff.1 h
      exact ⟨h1, (hz h1).1 h2⟩
    · rintro ⟨h1, h2⟩
      exact ⟨_, sk_ed_iff.2 ⟨⟨h1, (hz h1).2 h2⟩, rfl⟩⟩
  · intro hn
    rw [sk_ed_eq] at hn ⊢
    split
    · rename_i h; rw [dif_pos h] at hn; exact absurd ⟨_, rfl⟩ hn
    · rfl

/-- C67: a public key belongs to a private key exactly if it is the (strict) encoding of the base point times the secret scalar. -/
theorem C67_pair (V : Variant 64) (hV : IsSha512 V) (L : Libs) (rsa rsa' : Bool) {b b' h : Bytes} {a : Nat} {B : Pair q25519}
    {sk : SecretKey L.prims} {pk : PublicKey L.prims} (hs : SecretKey.fromBytes rsa .ed25519 b = .ok sk)
    (hp : PublicKey.fromBytes rsa' .ed25519 b' = .ok pk) (hh : Digest V b h) (ha : Scalar h a) (hB : IsBase B) :
    sk.publicKey = pk ↔ Encodes true true b' (mul a B) := by
  obtain ⟨⟨hl, hz⟩, rfl⟩ := sk_ed_iff.1 hs
  obtain ⟨hl', rfl⟩ := pk_ed_iff.1 hp
  rw [C61_sha512 V hV b h (by rw [hl]; decide)] at hh
  subst hh
  rw [Ed.clamp_scalar] at ha
  subst ha
  obtain rfl := (Ed.isBase_iff B).1 hB
  show _ ↔ Encodes true true b' (Spec.Eddsa.mul _ (Ed.pr Ed.B))
  rw [Ed.mul_pr]
  refine Iff.trans ?_ (Ed.encodes_strict (Ed.pub_rep b) b').symm
  exact (pk_ed_inj (L := L)).trans eq_comm

/-- C67: signing succeeds, and what is signed solves the equations of RFC 8032 section 5.1.6 with the scalar of the key and the bytes of the
public key and the nonce that the library makes. -/
theorem C67_sign (V : Variant 64) (hV : IsSha512 V) (L : Libs) (rsa : Bool) {b h pk : Bytes} {a : Nat} {B : Pair q25519}
    {sk : SecretKey L.prims} (hs : SecretKey.fromBytes rsa .ed25519 b = .ok sk) (hh : Digest V b h) (ha : Scalar h a) (hB : IsBase B)
    (hpk : Encodes true true pk (mul a B)) (rnd data : Bytes) (hd : 8 * (64 + data.length) < 2 ^ 128) :
    ∃ sig, sk.sign rnd data = .ok sig ∧ Signs (q := q25519) V a (L.ed.nonce rnd h data) pk data sig := by
  obtain ⟨⟨hl, hz⟩, rfl⟩ := sk_ed_iff.1 hs
  rw [C61_sha512 V hV b h (by rw [hl]; decide)] at hh
  subst hh
  rw [Ed.clamp_scalar] at ha
  subst ha
  obtain rfl := (Ed.isBase_iff B).1 hB
  have hpk : Encodes true true pk (Spec.Eddsa.mul _ (Ed.pr Ed.B)) := hpk
  rw [Ed.mul_pr] at hpk
  have hpk := (Ed.encodes_strict (Ed.pub_rep b) pk).1 hpk
  refine ⟨_, rfl, _, _, _, Ed.pr Ed.B, rfl, Ed.leBytes_length _ _, (Ed.isBase_iff _).2 rfl, ?_,
    (C61_sha512 V hV _ _ ?_).2 rfl, ?_, ?_⟩
  · show Encodes true true _ (Spec.Eddsa.mul _ (Ed.pr Ed.B))
    rw [Ed.mul_pr]
    exact (Ed.encodes_strict (Ed.smul_rep _ Ed.base_rep) _).2 rfl
  · simp only [List.length_append, Ed.encode_length, hpk]; omega
  all_goals
    have hlt : ∀ x : Nat, x % Ed.l < 256 ^ 32 := fun x => lt_trans (Nat.mod_lt _ Ed.l_prime.pos) (by decide +kernel)
    rw [Ed.leVal_eq, Ed.leNat_leBytes (hlt _)]
  · exact Nat.mod_lt _ Ed.l_prime.pos
  · rw [hpk, Ed.leVal_eq]
    show _ = _ % Ed.l
    rw [Nat.add_mod, Nat.mul_mod, Nat.mod_mod, ← Nat.mul_mod, ← Nat.add_mod]
    rfl

theorem pub_ed_eq {L : Libs} (k : L.prims.ed25519.SK) :
    (SecretKey.ed25519 k).publicKey = PublicKey.ed25519 (P := L.prims) ⟨Ed.pub k.1, Ed.encode_length _⟩ := rfl

/-- C67: what a key signs, its public key accepts. -/
theorem C67_sign_verify (L : Libs) (k : L.prims.ed25519.SK) (rnd : Bytes) :
    KeyPair ((SecretKey.ed25519 k).signing rnd) (SecretKey.ed25519 k).publicKey.verifying := by
  intro data sig hs
  have hs : signRes (some (Ed.sign L.ed rnd k.1 data)) = .ok sig := hs
  have hs := Res.ok.inj hs
  simp only [PublicKey.verifying]
  rw [pub_ed_eq]
  refine (verify_ed_iff (L := L) (Ed.encode_length _) data sig).2 ?_
  rw [← hs]
  exact ⟨Ed.sign_length _ _ _ _, Ed.verify_sign _ _ _ _⟩

/-- C67: the second half of an accepted signature is determined by the first half, the message and the key. (Compare
`C66_p256_second_signature`.) -/
theorem C67_no_second_signature (L : Libs) (rsa : Bool) {b : Bytes} {pk : PublicKey L.prims}
    (h : PublicKey.fromBytes rsa .ed25519 b = .ok pk) {data sig sig' : Bytes} (hd : 8 * (64 + data.length) < 2 ^ 128)
    (hv : pk.verify data sig = .ok ()) (hv' : pk.verify data sig' = .ok ()) (ht : sig.take 32 = sig'.take 32) : sig = sig' := by
  obtain ⟨V, hV⟩ := C61_exists.2.2
  have h1 := ((C67_verify V hV L rsa h data sig hd).1).1 hv
  have h2 := ((C67_verify V hV L rsa h data sig' hd).1).1 hv'
  obtain ⟨r, s, e, A, B, R, rfl, hr, hs, hlt, hB, hA, -, he, hc⟩ := h1
  obtain ⟨r', s', e', A', B', R', rfl, hr', hs', hlt', hB', hA', -, he', hc'⟩ := h2
  rw [List.take_left' hr, List.take_left' hr'] at ht
  subst ht
  have hbl := (pk_ed_iff.1 h).1
  have hlen : 8 * (r ++ b ++ data).length < 2 ^ 128 := by simp only [List.length_append]; omega
  rw [C61_sha512 V hV _ _ hlen] at he he'
  subst he he'
  obtain rfl := (Ed.isBase_iff B).1 hB
  obtain rfl := (Ed.isBase_iff B').1 hB'
  obtain ⟨A, rfl⟩ := Ed.pr_surj hA.1
  obtain ⟨A', rfl⟩ := Ed.pr_surj hA'.1
  have hAA : A' = A := by
    obtain ⟨P, hP, hdec⟩ := (Ed.decode_iff L.ed b A).2 hA
    exact Ed.decode_unique hdec hP hA'
  subst hAA
  suffices hss : leVal s = leVal s' by
    rw [Ed.leVal_eq, Ed.leVal_eq] at hss
    rw [Ed.leNat_inj (hs.trans hs'.symm) hss]
  -- both sides agree up to multiplication by 8
  have key : ∀ x y : Nat, x ≤ y → y < Ed.l → 8 • (x • Ed.B) = 8 • (y • Ed.B) → x = y := by
    intro x y hxy hy he
    have h0 : 8 • ((y - x) • Ed.B) = 0 := by
      have : y • Ed.B = x • Ed.B + (y - x) • Ed.B := by rw [← add_nsmul]; congr 1; omega
      rw [this, nsmul_add] at he
      exact (left_eq_add.1 he)
    rw [← mul_nsmul', Ed.smul_eq_zero] at h0
    rcases (Nat.Prime.dvd_mul Ed.l_prime).1 h0 with h | h
    · exact absurd (Nat.le_of_dvd (by omega) h) (by decide +kernel)
    · by_contra hne
      have := Nat.le_of_dvd (by omega) h
      omega
  have key' : 8 • (leVal s • Ed.B) = 8 • (leVal s' • Ed.B) := by
    have onR : On R := by split at hc <;> exact hc.1.1
    have onR' : On R' := by split at hc' <;> exact hc'.1.1
    obtain ⟨R, rfl⟩ := Ed.pr_surj onR
    obtain ⟨R', rfl⟩ := Ed.pr_surj onR'
    cases hco : L.ed.cofactored
    · rw [hco] at hc hc'
      simp only [Bool.false_eq_true, if_false] at hc hc'
      have hRR : R' = R := by
        obtain ⟨P, hP, hdec⟩ := (Ed.decode_iff Ed.rfc8032 r R).2 hc.1
        exact Ed.decode_unique (V := Ed.rfc8032) hdec hP hc'.1
      subst hRR
      have e1 := hc.2.trans hc'.2.symm
      have e1 : Spec.Eddsa.mul (leVal s) (Ed.pr Ed.B) = Spec.Eddsa.mul (leVal s') (Ed.pr Ed.B) := e1
      rw [Ed.mul_pr, Ed.mul_pr, Ed.pr_inj] at e1
      rw [e1]
    · rw [hco] at hc hc'
      simp only [if_true] at hc hc'
      have hRR : R' = R := by
        obtain ⟨P, hP, hdec⟩ := (Ed.decode_iff L.ed r R).2 hc.1
        exact Ed.decode_unique hdec hP hc'.1
      subst hRR
      have e1 := hc.2.trans hc'.2.symm
      have e1 : Spec.Eddsa.mul 8 (Spec.Eddsa.mul (leVal s) (Ed.pr Ed.B)) = Spec.Eddsa.mul 8 (Spec.Eddsa.mul (leVal s') (Ed.pr Ed.B)) := e1
      rw [Ed.mul_pr, Ed.mul_pr, Ed.mul_pr, Ed.mul_pr, Ed.pr_inj] at e1
      exact e1
  rcases le_total (leVal s) (leVal s') with hle | hle
  · exact key _ _ hle hlt' key'
  · exact (key _ _ hle hlt key'.symm).symm

/-! ### A key that accepts one signature for all messages -/

/-- The encoding of the neutral element. -/
def zeroKey : Bytes := 1 :: List.replicate 31 0

theorem zeroKey_encodes (sy sx : Bool) : Encodes (q := q25519) sy sx zeroKey zero := by
  refine ⟨?_, rfl, 1, 0, by norm_num, by norm_num, rfl, ?_, fun _ => by decide +kernel, Or.inl ?_⟩
  · show -(0 : ZMod q25519) ^ 2 + 1 ^ 2 = 1 + d q25519 * 0 ^ 2 * 1 ^ 2
    ring
  · show ((1 : Nat) : ZMod q25519) = 1
    exact Nat.cast_one
  · show (0 : ZMod q25519).val % 2 = 0
    rw [ZMod.val_zero]

/-- C67: the encoding of the neutral element can be imported as a public key. If the library does not refuse such keys it accepts, with
this key, one and the same signature for every message. If it does, the key accepts nothing. The code does not check. -/
theorem C67_small_order_key (L : Libs) (rsa : Bool) : ∃ pk, PublicKey.fromBytes (P := L.prims) rsa .ed25519 zeroKey = .ok pk ∧
    ∀ data, 8 * (64 + data.length) < 2 ^ 128 →
      (L.ed.rejectWeak = false → pk.verify data (zeroKey ++ List.replicate 32 0) = .ok ()) ∧
      (L.ed.rejectWeak = true → ∀ sig, pk.verify data sig ≠ .ok ()) := by
  obtain ⟨pk, hpk⟩ := (C67_public_key L rsa zeroKey).1.2 rfl
  obtain ⟨V, hV⟩ := C61_exists.2.2
  refine ⟨pk, hpk, fun data hd => ⟨fun hw => ?_, fun hw sig => ?_⟩⟩
  · rw [(C67_verify V hV L rsa hpk data _ hd).1]
    have h0 : ∀ n, leVal (List.replicate n 0) = 0 := by
      intro n; induction n with
      | zero => rfl
      | succ n ih => rw [List.replicate_succ, leVal, ih]; rfl
    have hm : ∀ k, Spec.Eddsa.mul k (Spec.Eddsa.zero (q := Ed.p)) = Spec.Eddsa.zero := fun k => by
      rw [← Ed.pr_zero, Ed.mul_pr, nsmul_zero]
    have hs : Spec.Eddsa.sum (Spec.Eddsa.zero (q := Ed.p)) Spec.Eddsa.zero = Spec.Eddsa.zero := by
      rw [← Ed.pr_zero, Ed.sum_pr, zero_add]
    refine ⟨zeroKey, List.replicate 32 0, _, zero, Ed.pr Ed.B, zero, rfl, rfl, rfl, ?_, (Ed.isBase_iff _).2 rfl, zeroKey_encodes _ _,
      fun h => absurd (hw.symm.trans h) (by simp), (C61_sha512 V hV _ _ ?_).2 rfl, ?_⟩
    · rw [h0]; decide +kernel
    · simp only [List.length_append, show zeroKey.length = 32 from rfl]; omega
    · rw [h0]
      split
      · refine ⟨zeroKey_encodes _ _, ?_⟩
        show Spec.Eddsa.mul 8 (Spec.Eddsa.zero (q := Ed.p)) = Spec.Eddsa.sum (Spec.Eddsa.mul 8 Spec.Eddsa.zero)
          (Spec.Eddsa.mul 8 (Spec.Eddsa.mul _ Spec.Eddsa.zero))
        rw [hm, hm, hm, hs]
      · refine ⟨zeroKey_encodes _ _, ?_⟩
        show Spec.Eddsa.zero (q := Ed.p) = Spec.Eddsa.sum Spec.Eddsa.zero (Spec.Eddsa.mul _ Spec.Eddsa.zero)
        rw [hm, hs]
  · rw [Ne, (C67_verify V hV L rsa hpk data _ hd).1]
    rintro ⟨r, s, h, A, B, R, _, _, _, _, _, hA, hn, _⟩
    have hn := hn hw
    obtain ⟨A, rfl⟩ := Ed.pr_surj hA.1
    have hz := zeroKey_encodes L.ed.canonicalY L.ed.canonicalX
    obtain ⟨P, hP, hdec⟩ := (Ed.decode_iff L.ed zeroKey 0).2 hz
    have := Ed.decode_unique hdec hP hA
    subst this
    apply hn
    show Spec.Eddsa.mul 8 (Ed.pr 0) = Spec.Eddsa.zero
    rw [Ed.mul_pr, nsmul_zero, Ed.pr_zero]

/-! ### Examples -/

/-- The libraries with a chosen Ed25519. -/
def libsEd (v : Ed.Variant) : Libs := { libsOne with ed := v }

/-- RFC 8032 section 7.1, test 1. -/
def edSeed : Bytes := [157, 97, 177, 157, 239, 253, 90, 96, 186, 132, 74, 244, 146, 236, 44, 196, 68, 73, 197, 105, 123, 50, 105, 25, 112,
  59, 172, 3, 28, 174, 127, 96]
def edPub : Bytes := [215, 90, 152, 1, 130, 177, 10, 183, 213, 75, 254, 211, 201, 100, 7, 58, 14, 225, 114, 243, 218, 166, 35, 37, 175, 2,
  26, 104, 247, 7, 81, 26]
def edSig : Bytes := [229, 86, 67, 0, 195, 96, 172, 114, 144, 134, 226, 204, 128, 110, 130, 138, 132, 135, 127, 30, 184, 229, 217, 116, 216,
  115, 224, 101, 34, 73, 1, 85, 95, 184, 130, 21, 144, 163, 59, 172, 198, 30, 57, 112, 28, 249, 180, 107, 210, 91, 245, 240, 89, 91, 190,
  36, 101, 81, 65, 67, 142, 122, 16, 11]

theorem ed_smul_fast (k : Nat) : Ed.smul k Ed.base = Ed.smulI (Ec.inv' Ed.p) (Nat.log2 k + 1) k Ed.base ⟨0, 1⟩ := by
  rw [Ed.smul, ← Ed.smulI_eq, ← Ec.inv'_eq Ed.p_prime (by decide +kernel)]

set_option maxRecDepth 100000 in
theorem edPub_eq : Ed.pub edSeed = edPub := by
  rw [Ed.pub, ed_smul_fast]
  decide +kernel

set_option maxRecDepth 100000 in
theorem edSig_eq : Ed.sign Ed.rfc8032 [] edSeed [] = edSig := by
  have hR : Ed.encode (Ed.smul (Ed.rfc8032.nonce [] (sha512 edSeed) []) Ed.base) = edSig.take 32 := by
    rw [ed_smul_fast]
    decide +kernel
  unfold Ed.sign
  simp only
  rw [hR, edPub_eq]
  decide +kernel

-- the key and the signature of the RFC
theorem edSeed_ok : edSeed.length = 32 ∧ edSeed ≠ List.replicate 32 0 := by decide +kernel

theorem edPub_length : edPub.length = 32 := rfl

example : SecretKey.fromBytes true .ed25519 edSeed = .ok (.ed25519 (P := (libsEd Ed.rfc8032).prims) ⟨edSeed, edSeed_ok⟩) :=
  sk_ed_iff.2 ⟨edSeed_ok, rfl⟩

theorem edSeed_public : (SecretKey.ed25519 (P := (libsEd Ed.rfc8032).prims) ⟨edSeed, edSeed_ok⟩).publicKey =
    .ed25519 (P := (libsEd Ed.rfc8032).prims) ⟨edPub, edPub_length⟩ :=
  (pk_ed_inj (L := libsEd Ed.rfc8032) (h := Ed.encode_length _)).2 edPub_eq

theorem edSeed_sign : (SecretKey.ed25519 (P := (libsEd Ed.rfc8032).prims) ⟨edSeed, edSeed_ok⟩).sign [] [] = .ok edSig :=
  congrArg (fun s => signRes (some s)) edSig_eq

example : (PublicKey.ed25519 (P := (libsEd Ed.rfc8032).prims) ⟨edPub, edPub_length⟩).verify [] edSig = .ok () := by
  have hk := C67_sign_verify (libsEd Ed.rfc8032) ⟨edSeed, edSeed_ok⟩ [] [] edSig (by simp only [SecretKey.signing]; exact edSeed_sign)
  simp only [PublicKey.verifying] at hk
  rwa [edSeed_public] at hk

-- 32 bytes that are no point: the ordinate 2
theorem no_point (V : Ed.Variant) : Ed.decode V (2 :: List.replicate 31 0) = none := by
  have h1 : Ed.leNat (2 :: List.replicate 31 0) = 2 := by decide +kernel
  have h2 : Ed.sqrt (ModArith.sub Ed.p (2 * 2 % Ed.p) 1 * ModArith.inv Ed.p (Ed.d * (2 * 2 % Ed.p) + 1) % Ed.p) = none := by decide +kernel
  have h3 : ¬Ed.p ≤ 2 := by decide +kernel
  have h4 : 2 % Ed.p = 2 := by decide +kernel
  unfold Ed.decode
  simp only [h1, show (2 : Nat) % 2 ^ 255 = 2 by norm_num, h3, and_false, if_false, h4, h2]
  simp

example (L : Libs) : ∃ pk, PublicKey.fromBytes (P := L.prims) false .ed25519 (2 :: List.replicate 31 0) = .ok pk ∧
    ∀ data sig, pk.verify data sig ≠ .ok () := by
  obtain ⟨pk, h⟩ := (C67_public_key L false (2 :: List.replicate 31 0)).1.2 rfl
  refine ⟨pk, h, fun data sig => C67_dead_key L false h (fun A hA => ?_) data sig⟩
  obtain ⟨A, rfl⟩ := Ed.pr_surj hA.1
  exact Ed.decode_none (no_point L.ed) A hA

-- encodings that only a lenient reader takes: the ordinate p + 1 and a negative zero stand for the neutral element
example : Encodes (q := q25519) false false (0xee :: List.replicate 30 0xff ++ [0x7f]) zero ∧
    ¬Encodes (q := q25519) true false (0xee :: List.replicate 30 0xff ++ [0x7f]) zero := by
  have hv : leVal (0xee :: List.replicate 30 0xff ++ [0x7f]) = q25519 + 1 := by decide +kernel
  constructor
  · refine ⟨(zeroKey_encodes true true).1, rfl, q25519 + 1, 0, by decide +kernel, by norm_num, ?_, ?_, fun h => absurd h (by simp), Or.inl ?_⟩
    · rw [hv]; rfl
    · show ((q25519 + 1 : Nat) : ZMod q25519) = 1
      push_cast; rw [ZMod.natCast_self]; ring
    · show (0 : ZMod q25519).val % 2 = 0
      rw [ZMod.val_zero]
  · rintro ⟨_, _, y, s, hy, hs, h, _, hc, _⟩
    have := hc rfl
    rw [hv] at h
    have hq : q25519 + 1 < 2 ^ 255 := by decide +kernel
    omega

example : Encodes (q := q25519) true false (1 :: List.replicate 30 0 ++ [0x80]) zero := by
  have hv : leVal (1 :: List.replicate 30 0 ++ [0x80]) = 1 + 2 ^ 255 * 1 := by decide +kernel
  refine ⟨(zeroKey_encodes true true).1, rfl, 1, 1, by norm_num, by norm_num, hv, ?_, fun _ => by decide +kernel, Or.inr ⟨rfl, rfl⟩⟩
  exact Nat.cast_one

-- private keys that are refused
example (L : Libs) : SecretKey.fromBytes (P := L.prims) true .ed25519 (List.replicate 32 0) = .panic ∧
    SecretKey.fromBytes (P := L.prims) true .ed25519 (1 :: List.replicate 32 0) = .panic := by
  rw [sk_ed_eq, sk_ed_eq, dif_neg (by simp), dif_neg (by simp)]
  exact ⟨rfl, rfl⟩

end Verif
