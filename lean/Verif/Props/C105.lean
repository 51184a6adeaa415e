import Verif.Proofs.Tests
/-!
C105: the tests of /repo that sign pass whenever they are run: for every reading of the clock, all random bytes and every choice of the
libraries. Where a test depends on the clock, exactly when it passes.
-/
namespace Verif
open Spec Ex

theorem disp_prefix (n : Str) (p : SigParams) : (n ++ c! "=(" ++ joinIds p.covered ++ c! ")").isPrefixOf (n ++ c! "=" ++ p.disp) = true := by
  rw [List.isPrefixOf_iff_prefix]
  unfold SigParams.disp
  refine ⟨dispNum (c! "created") p.created ++ dispNum (c! "expires") p.expires ++ dispText (c! "nonce") p.nonce ++ dispText (c! "alg") p.alg ++
    dispText (c! "keyid") p.keyid ++ dispText (c! "tag") p.tag, by simp⟩

theorem exJoined : joinIds exReqIds = c! "\"@method\" \"date\" \"content-type\" \"content-digest\"" ∧
    joinIds exResIds = c! "\"@status\" \"@method\";req \"date\" \"content-type\" \"content-digest\";req" := by decide +kernel

theorem exUnique : hasUnique exReqIds = true ∧ hasUnique exResIds = true := by decide

theorem prefix_head {a b s : Str} (h : (a ++ b).isPrefixOf s = true) : a.isPrefixOf s = true := by
  rw [List.isPrefixOf_iff_prefix] at h ⊢
  exact (List.prefix_append a b).trans h

section
variable (R : Run) (U : UriLib)

/-- The request of the tests after it is signed. -/
theorem test_request (hU : ∃ u, Uri.parse U target = some u) (b : Bytes) {k : SigningKey} (hid : SafeText k.keyId)
    (hk : ∀ d, ∃ s, k.sign d = .ok s) {label : Option Str} (hn : LegalKey (label.getD (c! "sig"))) (h1 : R.t1.toNat < 10 ^ 15)
    (f : SigParams → SigParams) (hfc : ∀ p, (f p).covered = p.covered) (hfs : ∀ p, SafeParams p → p.created = some R.t1 → SafeParams (f p)) :
    ∃ r m sh, Tests.request U b = .ok r ∧ Tests.made R.t1 requestCovered k = .ok (testParams R.t1 k.alg k.keyId exReqIds) ∧
      Tests.sign (.req r) (f (testParams R.t1 k.alg k.keyId exReqIds)) k label none = .ok m ∧
      setSignature (.req r) (f (testParams R.t1 k.alg k.keyId exReqIds)) k label none = (m.headers, .ok ()) ∧
      Once (.req r) none (f (testParams R.t1 k.alg k.keyId exReqIds)) k (label.getD (c! "sig")) m sh ∧
      WfHeaders r.headers ∧ fieldLines r.headers (c! "signature-input") = [] ∧ fieldLines r.headers (c! "signature") = [] ∧
      (∃ t, BaseOf m none (f (testParams R.t1 k.alg k.keyId exReqIds)) t) ∧
      ∀ vk, KeyPair k vk → ∀ now id, (id = none ∨ id = (f (testParams R.t1 k.alg k.keyId exReqIds)).keyid) →
        (∀ e, (f (testParams R.t1 k.alg k.keyId exReqIds)).expires = some e → now ≤ e) →
        verifySignature now m vk id none = .ok (label.getD (c! "sig")) := by
  obtain ⟨r, hr, _, _, hw, hi, hs, hv, _, _⟩ := ex_request U hU b
  have hp : SafeParams (f (testParams R.t1 k.alg k.keyId exReqIds)) :=
    hfs _ (test_safe h1 hid (fun i hi => exIds_safe i (by simp [hi])) exIds_distinct.1) rfl
  have hself : NotSelf (f (testParams R.t1 k.alg k.keyId exReqIds)) := by
    refine test_notSelf fun i hi => ?_
    rw [hfc] at hi
    exact List.mem_append_left _ hi
  have hvals : ∀ i ∈ (f (testParams R.t1 k.alg k.keyId exReqIds)).covered, ∃ v, HasValue (.req r) none i v := by
    rw [hfc]; exact ex_request_values hv
  obtain ⟨m, sh, g1, g2, g3⟩ := sign_once (m := .req r) (rf := none) hw (by simp) hi hs hp hself hn hk hvals
  refine ⟨r, m, sh, hr, test_made exReqIds_eq exUnique.1, g2, g1, g3, hw, hi, hs, ?_, ?_⟩
  · obtain ⟨vs, hvs⟩ := forall₂_of_all hvals
    exact ⟨_, (g3.base _).2 ⟨vs, hvs, rfl⟩⟩
  · intro vk hkp now id hid he
    rw [g3.message]
    exact sign_then_verify (m := .req r) hw (by simp) hi hs hp hself hn hkp g1 he hid

/-- The response of the tests after it is signed. -/
theorem test_response (hU : ∃ u, Uri.parse U target = some u) (b b' : Bytes) {k : SigningKey} (hid : SafeText k.keyId)
    (hk : ∀ d, ∃ s, k.sign d = .ok s) {label : Option Str} (hn : LegalKey (label.getD (c! "sig"))) (h1 : R.t1.toNat < 10 ^ 15) :
    ∃ r s m sh, Tests.request U b = .ok r ∧ Tests.response b' = .ok s ∧
      Tests.made R.t1 responseCovered k = .ok (testParams R.t1 k.alg k.keyId exResIds) ∧
      Tests.sign (.res s) (testParams R.t1 k.alg k.keyId exResIds) k label (some r) = .ok m ∧
      setSignature (.res s) (testParams R.t1 k.alg k.keyId exResIds) k label (some r) = (m.headers, .ok ()) ∧
      Once (.res s) (some r) (testParams R.t1 k.alg k.keyId exResIds) k (label.getD (c! "sig")) m sh ∧ WfHeaders r.headers ∧
      fieldLines s.headers (c! "signature-input") = [] ∧ fieldLines s.headers (c! "signature") = [] ∧
      ∀ vk, KeyPair k vk → ∀ now id, (id = none ∨ id = some k.keyId) → verifySignature now m vk id (some r) = .ok (label.getD (c! "sig")) := by
  obtain ⟨r, hr, _, _, hwr, _, _, hvr, _, _⟩ := ex_request U hU b
  obtain ⟨s, hs, _, _, hw, hi, hi', hv, _⟩ := ex_response b'
  have hf : ∀ q, some r = some q → WfHeaders q.headers := by rintro _ ⟨⟩; exact hwr
  have hp : SafeParams (testParams R.t1 k.alg k.keyId exResIds) :=
    test_safe h1 hid (fun i hi => exIds_safe i (by simp [hi])) exIds_distinct.2
  have hself : NotSelf (testParams R.t1 k.alg k.keyId exResIds) := test_notSelf fun i hi => List.mem_append_right _ hi
  obtain ⟨m, sh, g1, g2, g3⟩ := sign_once (m := .res s) (rf := some r) hw hf hi hi' hp hself hn hk (ex_response_values hvr hv)
  refine ⟨r, s, m, sh, hr, hs, test_made exResIds_eq exUnique.2, g2, g1, g3, hwr, hi, hi', ?_⟩
  intro vk hkp now id hid
  rw [g3.message]
  exact sign_then_verify (m := .res s) hw hf hi hi' hp hself hn hkp g1 (by intro e h; cases h) hid

/-- C105: the tests that sign a request with the Ed25519 key and no expiry pass. -/
theorem C105_request (hL : R.L.rsa.der = Der.lib) (hU : ∃ u, Uri.parse U target = some u) (b : Bytes) (h1 : R.t1.toNat < 10 ^ 15) :
    Tests.signRequest R U b = .ok () ∧ Tests.signatureName R U b = .ok () ∧ Tests.keyId R U b = .ok () ∧ Tests.algKeyIds R U b = .ok () ∧
      Tests.usageRequest R U b = .ok () := by
  obtain ⟨sk, pk, e1, e2, e3, e4, e5, e6, e7⟩ := test_keys R hL
  have hid : SafeText (sk.signing R.noise).keyId := by rw [e5]; exact exEdId_safe
  have run : ∀ label : Option Str, LegalKey (label.getD (c! "sig")) → _ := fun label hn =>
    test_request R U hU b hid e4 hn h1 (fun p => p) (fun _ => rfl) (fun _ h _ => h)
  have nf : ∀ (r : Request) (m : Msg) (sh : SigHeaders) (n : Str) (now : UInt64),
      Once (.req r) none (testParams R.t1 (sk.signing R.noise).alg (sk.signing R.noise).keyId exReqIds) (sk.signing R.noise) n m sh →
      verifySignature now m pk.verifying (some (c! "NotFoundKeyId")) none = .err .noSignatureHeaders := by
    intro r m sh n now ho
    refine ho.other (by simp) ?_ now _
    rintro ⟨_, h⟩
    have := h _ rfl
    rw [show (testParams _ _ _ _).keyid = some (sk.signing R.noise).keyId from rfl, e5] at this
    revert this; decide
  obtain ⟨r, m, sh, a1, a2, a3, a4, a5, a6, a7, a8, a9, a10⟩ := run none (by decide)
  obtain ⟨r', m', sh', b1, b2, b3, b4, b5, b6, b7, b8, b9, b10⟩ := run (some (c! "custom_sig_name")) (by decide)
  have ha : (testParams R.t1 (sk.signing R.noise).alg (sk.signing R.noise).keyId exReqIds).alg = some (Alg.toStr .ed25519) := by rw [e7]; rfl
  refine ⟨?_, ?_, ?_, ?_, ?_⟩
  · unfold Tests.signRequest
    rw [a1, e1]
    simp only [Res.bind_ok, a2, a3, (a5.input a7).2]
    have := disp_prefix (c! "sig") (testParams R.t1 (sk.signing R.noise).alg (sk.signing R.noise).keyId exReqIds)
    rw [show (testParams R.t1 (sk.signing R.noise).alg (sk.signing R.noise).keyId exReqIds).covered = exReqIds from rfl, exJoined.1] at this
    have this : (c! "sig=(\"@method\" \"date\" \"content-type\" \"content-digest\")").isPrefixOf
      (c! "sig" ++ c! "=" ++ (testParams R.t1 (sk.signing R.noise).alg (sk.signing R.noise).keyId exReqIds).disp) = true := this
    rw [show (Option.getD none (c! "sig") : Str) = c! "sig" from rfl, this]
    simp only [assert, if_true, Res.bind_ok, e2]
    rw [a10 _ e3 _ none (.inl rfl) (by intro e h; cases h)]
    rfl
  · unfold Tests.signatureName
    rw [b1, e1]
    simp only [Res.bind_ok, b2, b3, b5.extract, unwrap]
    rw [show (([(Option.getD (some (c! "custom_sig_name")) (c! "sig"), sh')] : List (Str × SigHeaders)).head?.map (fun kv => kv.2.name) ==
      some (c! "custom_sig_name")) = true by rw [List.head?_cons, Option.map_some, b5.name]; rfl]
    simp only [List.length_singleton, beq_self_eq_true, assert, if_true, Res.bind_ok, e2]
    rw [b10 _ e3 _ none (.inl rfl) (by intro e h; cases h)]
    rfl
  · unfold Tests.keyId
    rw [a1, e1]
    simp only [Res.bind_ok, a2, a3, e2]
    rw [a10 _ e3 _ (some pk.keyId) (.inr (by rw [e6, ← e5]; rfl)) (by intro e h; cases h), nf _ _ _ _ _ a5]
    rfl
  · unfold Tests.algKeyIds Tests.firstKey
    rw [a1, e1]
    simp only [Res.bind_ok, a2, a3, a5.keys R.rsa ha rfl, unwrap]
    simp only [List.length_singleton, beq_self_eq_true, assert, if_true, Res.bind_ok, List.head?_cons, Res.ofOption_some]
    rw [show (testParams R.t1 (sk.signing R.noise).alg (sk.signing R.noise).keyId exReqIds).keyid = some exEdId by rw [← e5]; rfl]
    rw [if_pos (by decide)]
  · unfold Tests.usageRequest Tests.firstKey
    rw [b1, e1]
    simp only [Res.bind_ok, b2, b3, (b5.input b7).2, (b5.sig b8).2, b5.keys R.rsa ha rfl, unwrap]
    have p1 := prefix_head (prefix_head (disp_prefix (c! "custom_sig_name") (testParams R.t1 (sk.signing R.noise).alg (sk.signing R.noise).keyId exReqIds)))
    have p2 : (c! "custom_sig_name" ++ c! "=:").isPrefixOf (c! "custom_sig_name" ++ c! "=:" ++ Base64.encode sh'.signature ++ c! ":") = true := by
      rw [List.isPrefixOf_iff_prefix, List.append_assoc]; exact List.prefix_append _ _
    rw [show (Option.getD (some (c! "custom_sig_name")) (c! "sig") : Str) = c! "custom_sig_name" from rfl,
      show (c! "custom_sig_name=(").isPrefixOf _ = true from p1, show (c! "custom_sig_name=:").isPrefixOf _ = true from p2]
    simp only [assert, if_true, Res.bind_ok, List.head?_cons, Res.ofOption_some, e2]
    rw [b10 _ e3 _ none (.inl rfl) (by intro e h; cases h)]
    rw [b10 _ e3 _ (some pk.keyId) (.inr (by rw [e6, ← e5]; rfl)) (by intro e h; cases h), nf _ _ _ _ _ b5]
    rfl

/-- C105: the test that signs with the HMAC key and a random nonce passes. -/
theorem C105_hmac (hU : ∃ u, Uri.parse U target = some u) (b : Bytes) (h1 : R.t1.toNat < 10 ^ 15) : Tests.keyIdHmac R U b = .ok () := by
  have hid : SafeText (SharedKey.hmacSha256 exHmacKey).signing.keyId := base64_safe _
  obtain ⟨r, m, sh, a1, a2, a3, a4, a5, a6, a7, a8, a9, a10⟩ := test_request R U hU b hid (fun d => ⟨_, rfl⟩) (label := none) (by decide) h1
    (fun p => p.setRandomNonce R.nonce) (fun _ => rfl) (fun p hp _ => { hp with nonce := by intro s e; injection e with e; subst e; exact base64_safe _ })
  unfold Tests.keyIdHmac Tests.firstKey
  rw [a1, exHs_import]
  have hk := a5.keys (a := .hmacSha256) R.rsa rfl rfl
  simp only [Res.bind_ok, unwrap, a2, a3, hk, List.head?_cons, Res.ofOption_some]
  rw [show ((testParams R.t1 (SharedKey.hmacSha256 exHmacKey).signing.alg (SharedKey.hmacSha256 exHmacKey).signing.keyId exReqIds).setRandomNonce
    R.nonce).keyid = some (SharedKey.hmacSha256 exHmacKey).keyId from rfl]
  simp only [Res.bind_ok, Res.ofOption_some, beq_self_eq_true, assert, if_true, exHs_import]
  rw [a10 _ (shared_pair _) _ (some (SharedKey.hmacSha256 exHmacKey).keyId) (.inr rfl) (by intro e h; cases h)]
  rw [a5.other (by simp) (id := some (c! "NotFoundKeyId"))]
  · rfl
  · rintro ⟨_, h⟩
    have := h _ rfl
    revert this
    rw [show ((testParams R.t1 (SharedKey.hmacSha256 exHmacKey).signing.alg (SharedKey.hmacSha256 exHmacKey).signing.keyId exReqIds).setRandomNonce
      R.nonce).keyid = some exHsId from rfl]
    decide +kernel

/-- C105: the tests that sign a response pass. -/
theorem C105_response (hL : R.L.rsa.der = Der.lib) (hU : ∃ u, Uri.parse U target = some u) (b b' : Bytes) (h1 : R.t1.toNat < 10 ^ 15) :
    Tests.signResponse R U b b' = .ok () ∧ Tests.usageResponse R U b b' = .ok () := by
  obtain ⟨sk, pk, e1, e2, e3, e4, e5, e6, e7⟩ := test_keys R hL
  have hid : SafeText (sk.signing R.noise).keyId := by rw [e5]; exact exEdId_safe
  have ha : (testParams R.t1 (sk.signing R.noise).alg (sk.signing R.noise).keyId exResIds).alg = some (Alg.toStr .ed25519) := by rw [e7]; rfl
  constructor
  · obtain ⟨r, s, m, sh, a1, a2, a3, a4, a5, a6, a7, a8, a9, a10⟩ := test_response R U hU b b' hid e4 (label := none) (by decide) h1
    unfold Tests.signResponse
    rw [a1, a2, e1]
    simp only [Res.bind_ok, a3, a4, (a6.input a8).2]
    have := disp_prefix (c! "sig") (testParams R.t1 (sk.signing R.noise).alg (sk.signing R.noise).keyId exResIds)
    rw [show (testParams R.t1 (sk.signing R.noise).alg (sk.signing R.noise).keyId exResIds).covered = exResIds from rfl, exJoined.2] at this
    have this : (c! "sig=(\"@status\" \"@method\";req \"date\" \"content-type\" \"content-digest\";req)").isPrefixOf
      (c! "sig" ++ c! "=" ++ (testParams R.t1 (sk.signing R.noise).alg (sk.signing R.noise).keyId exResIds).disp) = true := this
    rw [show (Option.getD none (c! "sig") : Str) = c! "sig" from rfl, this]
    simp only [assert, if_true, Res.bind_ok, e2]
    rw [a10 _ e3 _ none (.inl rfl)]
    rfl
  · obtain ⟨r, s, m, sh, a1, a2, a3, a4, a5, a6, a7, a8, a9, a10⟩ :=
      test_response R U hU b b' hid e4 (label := some (c! "custom_sig_name")) (by decide) h1
    have hr : ∀ q, some r = some q → WfHeaders q.headers := by rintro _ ⟨⟩; exact a7
    unfold Tests.usageResponse Tests.firstKey
    rw [a1, a2, e1]
    simp only [Res.bind_ok, a3, a4, (a6.input a8).2, (a6.sig a9).2, a6.keys R.rsa ha rfl, unwrap]
    have p1 := prefix_head (prefix_head (disp_prefix (c! "custom_sig_name") (testParams R.t1 (sk.signing R.noise).alg (sk.signing R.noise).keyId exResIds)))
    have p2 : (c! "custom_sig_name" ++ c! "=:").isPrefixOf (c! "custom_sig_name" ++ c! "=:" ++ Base64.encode sh.signature ++ c! ":") = true := by
      rw [List.isPrefixOf_iff_prefix, List.append_assoc]; exact List.prefix_append _ _
    rw [show (Option.getD (some (c! "custom_sig_name")) (c! "sig") : Str) = c! "custom_sig_name" from rfl,
      show (c! "custom_sig_name=(").isPrefixOf _ = true from p1, show (c! "custom_sig_name=:").isPrefixOf _ = true from p2]
    simp only [assert, if_true, Res.bind_ok, List.head?_cons, Res.ofOption_some, e2]
    rw [a10 _ e3 _ none (.inl rfl), a10 _ e3 _ (some pk.keyId) (.inr (by rw [e6, e5])),
      a6.other hr (id := some (c! "NotFoundKeyId")), a6.other (rf' := none) (by simp)]
    · rfl
    · rintro ⟨⟨t, vs, h, _⟩, _⟩
      cases h with
      | cons _ h =>
        cases h with
        | cons h _ => simp [HasValue] at h
    · rintro ⟨_, h⟩
      have := h _ rfl
      rw [show (testParams _ _ _ _).keyid = some (sk.signing R.noise).keyId from rfl, e5] at this
      revert this; decide

/-- C105: the test of an expired signature passes exactly when the clock is not at zero and is not set back between `created` and the two
checks. The signature expires one second before it is made. -/
theorem C105_expired (hL : R.L.rsa.der = Der.lib) (hU : ∃ u, Uri.parse U target = some u) (b : Bytes) (h1 : R.t1.toNat < 10 ^ 15) :
    Tests.expired R U b = .ok () ↔ R.t1 ≠ 0 ∧ R.t1 ≤ R.t2 ∧ R.t1 ≤ R.t1' := by
  obtain ⟨sk, pk, e1, e2, e3, e4, e5, e6, e7⟩ := test_keys R hL
  have hid : SafeText (sk.signing R.noise).keyId := by rw [e5]; exact exEdId_safe
  unfold Tests.expired Tests.before
  by_cases h0 : R.t1 = 0
  · obtain ⟨r, m, sh, a1, a2, _⟩ := test_request R U hU b hid e4 (label := none) (by decide) h1 (fun p => p) (fun _ => rfl) (fun _ h _ => h)
    rw [a1, e1]
    simp only [Res.bind_ok, a2, unwrap]
    rw [show (testParams R.t1 (sk.signing R.noise).alg (sk.signing R.noise).keyId exReqIds).created = some R.t1 from rfl]
    simp only [Res.ofOption_some, Res.bind_ok, if_pos h0, Res.bind_panic]
    simp [h0]
  have hz : R.t1.toNat ≠ 0 := fun h => h0 (UInt64.toNat_inj.1 h)
  have e : (R.t1 - 1).toNat = R.t1.toNat - 1 := UInt64.toNat_sub_of_le _ _ (by rw [UInt64.le_iff_toNat_le]; show 1 ≤ _; omega)
  have le : ∀ t, R.t1 - 1 < t ↔ R.t1 ≤ t := by
    intro t
    rw [UInt64.lt_iff_toNat_lt, UInt64.le_iff_toNat_le, e]; omega
  obtain ⟨r, m, sh, a1, a2, a3, a4, a5, a6, a7, a8, a9, a10⟩ := test_request R U hU b hid e4 (label := none) (by decide) h1
    (fun p => p.setExpires (R.t1 - 1)) (fun _ => rfl) (fun p hp _ =>
      { hp with expires := (by intro t h; injection h with h; subst h; rw [e]; exact Nat.lt_of_le_of_lt (Nat.sub_le _ _) h1) })
  rw [a1, e1]
  simp only [Res.bind_ok, a2, unwrap]
  rw [show (testParams R.t1 (sk.signing R.noise).alg (sk.signing R.noise).keyId exReqIds).created = some R.t1 from rfl]
  simp only [Res.ofOption_some, Res.bind_ok, if_neg h0, a3, e2]
  rw [show ((testParams R.t1 (sk.signing R.noise).alg (sk.signing R.noise).keyId exReqIds).setExpires (R.t1 - 1)).isExpired R.t2 =
    decide (R.t1 - 1 < R.t2) from rfl]
  by_cases h2 : R.t1 ≤ R.t2
  · rw [decide_eq_true ((le _).2 h2)]
    simp only [assert, if_true, Res.bind_ok]
    by_cases h3 : R.t1 ≤ R.t1'
    · rw [a5.late (by simp) a9 rfl ((le _).2 h3)]
      exact ⟨fun _ => ⟨h0, h2, h3⟩, fun _ => rfl⟩
    · have h4 : R.t1' ≤ R.t1 - 1 := UInt64.not_lt.1 (fun h => h3 ((le _).1 h))
      rw [a10 _ e3 _ none (.inl rfl) (by intro x h; injection h with h; subst h; exact h4)]
      exact ⟨fun h => (by cases h), fun h => (h3 h.2.2).elim⟩
  · rw [decide_eq_false (fun h => h2 ((le _).1 h))]
    exact ⟨fun h => (by cases h), fun h => (h2 h.2.1).elim⟩

/-- The components of signature_params.rs. -/
def sevenParsed : List CId := [⟨.derived .method, []⟩, ⟨.derived .path, []⟩, ⟨.derived .scheme, []⟩, ⟨.derived .authority, []⟩,
  ⟨.field (c! "content-type"), []⟩, ⟨.field (c! "date"), []⟩, ⟨.field (c! "content-length"), []⟩]

theorem sevenParsed_eq : Res.collect CId.ofStr Tests.sevenIds = .ok sevenParsed ∧ hasUnique sevenParsed = true := by decide +kernel

/-- C105: the test of fresh parameters passes on every clock, the test of the key information as well. -/
theorem C105_params (hL : R.L.rsa.der = Der.lib) : (∀ t, Tests.tryNew t = .ok ()) ∧ Tests.keyInfo R = .ok () := by
  constructor
  · intro t
    unfold Tests.tryNew
    rw [sevenParsed_eq.1]
    simp only [unwrap, Res.bind_ok, SigParams.tryNew, sevenParsed_eq.2]
    rfl
  · obtain ⟨sk, pk, e1, e2, e3, e4, e5, e6, e7⟩ := test_keys R hL
    unfold Tests.keyInfo
    rw [e1]
    simp only [Res.bind_ok, test_made sevenParsed_eq.1 sevenParsed_eq.2]
    rw [e5, e7]
    show (do assert (some exEdId == some (c! "gjrE7ACMxgzYfFHgabgf4kLTg1eKIdsJ94AiFTFj1is=")); assert _) = _
    rw [show (some exEdId == some (c! "gjrE7ACMxgzYfFHgabgf4kLTg1eKIdsJ94AiFTFj1is=")) = true by decide]
    rfl

/-- C105: the test of the duration passes exactly when the clock is not at zero, leaves room for 100 seconds, is at most 100 seconds later in
the first check and is not set back in the second. -/
theorem C105_duration (t t' t'' : UInt64) :
    Tests.duration t t' t'' = .ok () ↔ t ≠ 0 ∧ t.toNat + 100 < 2 ^ 64 ∧ t'.toNat ≤ t.toNat + 100 ∧ t ≤ t'' := by
  unfold Tests.duration Tests.before
  rw [sevenParsed_eq.1]
  have new : SigParams.tryNew t sevenParsed = .ok { created := some t, covered := sevenParsed } := by
    unfold SigParams.tryNew; rw [sevenParsed_eq.2]; rfl
  simp only [unwrap, Res.bind_ok, new, SigParams.setExpiresWithDuration, Option.getD_some, show (100 : UInt64).toNat = 100 from rfl, true_and]
  by_cases h1 : 2 ^ 64 ≤ t.toNat + 100
  · simp only [if_pos h1]
    exact ⟨fun h => (by cases h), fun h => (by omega)⟩
  have e1 : (t + 100).toNat = t.toNat + 100 := by
    rw [UInt64.toNat_add]; exact Nat.mod_eq_of_lt (Nat.not_le.1 h1)
  simp only [if_neg h1, Res.ofOption_some, Res.bind_ok, Option.isSome_some, beq_self_eq_true, assert, if_true, SigParams.isExpired]
  by_cases h2 : t + 100 < t'
  · simp only [decide_eq_true h2]
    refine ⟨fun h => (by cases h), fun h => ?_⟩
    rw [UInt64.lt_iff_toNat_lt, e1] at h2; omega
  simp only [decide_eq_false h2]
  rw [UInt64.lt_iff_toNat_lt, e1] at h2
  simp only [Bool.not_false, if_true, Res.bind_ok]
  by_cases h0 : t = 0
  · simp [h0]
  have hz : t.toNat ≠ 0 := fun h => h0 (UInt64.toNat_inj.1 h)
  have e : (t - 1).toNat = t.toNat - 1 := UInt64.toNat_sub_of_le _ _ (by rw [UInt64.le_iff_toNat_le]; show 1 ≤ _; omega)
  have le : t - 1 < t'' ↔ t ≤ t'' := by rw [UInt64.lt_iff_toNat_lt, UInt64.le_iff_toNat_le, e]; omega
  simp only [if_neg h0, Res.bind_ok, SigParams.setExpires, le]
  by_cases h3 : t ≤ t''
  · simp [h3, h0]; omega
  · simp [h3]

/-! ### The tests with a query -/

def exDate : Headers := [(c! "date", utf8 (c! "Sun, 09 May 2021 18:30:00 GMT"))]
def exQueryIds : List CId := [⟨.derived .method, []⟩, ⟨.derived .queryParam, [.name (c! "id")]⟩, ⟨.field (c! "date"), []⟩]
def exQueryReqIds : List CId := [⟨.derived .status, []⟩, ⟨.derived .queryParam, [.name (c! "id"), .req]⟩]

theorem exQueryIds_eq : Res.collect CId.ofStr [c! "@method", c! "\"@query-param\";name=\"id\"", c! "date"] = .ok exQueryIds ∧
    Res.collect CId.ofStr [c! "@status", c! "\"@query-param\";name=\"id\";req"] = .ok exQueryReqIds := by decide +kernel

theorem exQueryIds_safe : ∀ i ∈ exQueryIds ++ exQueryReqIds, SafeId i := by
  intro i hi
  simp only [exQueryIds, exQueryReqIds, List.cons_append, List.nil_append, List.mem_cons, List.not_mem_nil, or_false] at hi
  rcases hi with rfl | rfl | rfl | rfl | rfl
  all_goals
    refine ⟨⟨by decide, ?_, ?_, ?_⟩, ?_, ?_, ?_⟩ <;> simp [SafeText] <;> decide

theorem exQueryIds_distinct : exQueryIds.Pairwise (fun a b => ¬ SameId a b) ∧ exQueryReqIds.Pairwise (fun a b => ¬ SameId a b) := by
  constructor
  · exact (hasUnique_iff (fun i hi => labels_nodup (exQueryIds_safe i (by simp [hi])).distinct)).1 (by decide)
  · exact (hasUnique_iff (fun i hi => labels_nodup (exQueryIds_safe i (by simp [hi])).distinct)).1 (by decide)

theorem exQueryIds_notSelf {p : SigParams} (h : ∀ i ∈ p.covered, i ∈ exQueryIds ++ exQueryReqIds) : NotSelf p := by
  intro i hi _
  have := h i hi
  simp only [exQueryIds, exQueryReqIds, List.cons_append, List.nil_append, List.mem_cons, List.not_mem_nil, or_false] at this
  rcases this with rfl | rfl | rfl | rfl | rfl <;> refine ⟨by simp, fun f hf => ?_⟩ <;> cases hf
  decide

theorem exDate_facts : WfHeaders exDate ∧ fieldLines exDate (c! "signature-input") = [] ∧ fieldLines exDate (c! "signature") = [] ∧
    ∃ v, FieldValue exDate (c! "date") [] v := by
  refine ⟨?_, by decide +kernel, by decide +kernel, field_has_value (by simp) ?_⟩
  · intro kv hkv
    rw [List.mem_singleton.1 hkv]; exact ⟨by decide, by decide, by decide⟩
  · rw [show fieldLines exDate (c! "date") = [utf8 (c! "Sun, 09 May 2021 18:30:00 GMT")] by decide +kernel]
    intro l hl
    rw [List.mem_singleton.1 hl]
    exact ⟨c! "Sun, 09 May 2021 18:30:00 GMT", by decide +kernel⟩

/-- C105: the tests that cover a query parameter pass, those that cover a component the message does not have get their error. What `http::Uri`
does with the text of the two targets is a hypothesis. -/
theorem C105_query (hL : R.L.rsa.der = Der.lib) (hq : ∃ u, Uri.parse U Tests.queryTarget = some u ∧ u.query = some (c! "foo=bar&id=123&x=y"))
    (hU : ∃ u, Uri.parse U (c! "https://example.com/") = some u) (h1 : R.t1.toNat < 10 ^ 15) :
    Tests.queryParam R U = .ok () ∧ Tests.queryOfRequest R U = .ok () ∧ Tests.statusOfRequest R U = .ok () ∧ Tests.methodOfResponse R = .ok () := by
  obtain ⟨u, hu, huq⟩ := hq
  obtain ⟨u', hu'⟩ := hU
  obtain ⟨sk, pk, e1, e2, e3, e4, e5, e6, e7⟩ := test_keys R hL
  have hid : SafeText (sk.signing R.noise).keyId := by rw [e5]; exact exEdId_safe
  have hr : Tests.queryRequest U = .ok ⟨c! "GET", u, exDate, .data []⟩ := by
    unfold Tests.queryRequest Request.ofText
    rw [hu, show methodOfText (c! "GET") = some (c! "GET") by decide, show headersOfText _ = some exDate by decide +kernel]
    rfl
  have hr' : Request.ofText U (c! "GET") (c! "https://example.com/") [] (.data []) = some ⟨c! "GET", u', [], .data []⟩ := by
    unfold Request.ofText
    rw [hu', show methodOfText (c! "GET") = some (c! "GET") by decide]; rfl
  have hs : Response.ofText 200 [] (.data []) = some ⟨200, [], .data []⟩ := rfl
  have hqv : ∀ ps : List CParam, ps.findSome? CParam.nameOf = some (c! "id") →
      ∃ v, RequestValue ⟨c! "GET", u, exDate, .data []⟩ .queryParam ps v := by
    intro ps h
    refine ⟨_, _, h, ?_, rfl⟩
    show pieces (u.query.getD []) ≠ []
    rw [huq]; decide
  refine ⟨?_, ?_, ?_, ?_⟩
  · have hp : SafeParams (testParams R.t1 (sk.signing R.noise).alg (sk.signing R.noise).keyId exQueryIds) :=
      test_safe h1 hid (fun i hi => exQueryIds_safe i (by simp [hi])) exQueryIds_distinct.1
    have hself : NotSelf (testParams R.t1 (sk.signing R.noise).alg (sk.signing R.noise).keyId exQueryIds) :=
      exQueryIds_notSelf fun i hi => List.mem_append_left _ hi
    have hv : ∀ i ∈ exQueryIds, ∃ v, HasValue (.req ⟨c! "GET", u, exDate, .data []⟩) none i v := by
      intro i hi
      simp only [exQueryIds, List.mem_cons, List.not_mem_nil, or_false] at hi
      rcases hi with rfl | rfl | rfl
      · exact ⟨_, by simp only [HasValue, List.not_mem_nil, if_false]; exact ⟨by simp [DerivedParams], rfl⟩⟩
      · obtain ⟨v, hv⟩ := hqv [.name (c! "id")] rfl
        exact ⟨v, by rw [HasValue, if_neg (by decide)]; exact ⟨by simp [DerivedParams], hv⟩⟩
      · obtain ⟨v, hv⟩ := exDate_facts.2.2.2
        exact ⟨v, by simp only [HasValue, List.not_mem_nil, if_false]; exact hv⟩
    obtain ⟨m, sh, g1, g2, g3⟩ := sign_once (m := .req ⟨c! "GET", u, exDate, .data []⟩) (rf := none) exDate_facts.1 (by simp) exDate_facts.2.1
      exDate_facts.2.2.1 hp hself (label := some (c! "qp")) (by decide) e4 hv
    unfold Tests.queryParam
    rw [hr, e1]
    simp only [Res.bind_ok, test_made exQueryIds_eq.1 (by decide : hasUnique exQueryIds = true), g2, (g3.input exDate_facts.2.1).1,
      (g3.sig exDate_facts.2.2.1).1, Option.isSome_some, assert, if_true, e2]
    rw [g3.message, sign_then_verify (m := .req ⟨c! "GET", u, exDate, .data []⟩) exDate_facts.1 (by simp) exDate_facts.2.1 exDate_facts.2.2.1 hp hself
      (name := some (c! "qp")) (by decide) e3 g1 (by intro e h; cases h) (.inl rfl)]
    rfl
  · have hp : SafeParams (testParams R.t1 (sk.signing R.noise).alg (sk.signing R.noise).keyId exQueryReqIds) :=
      test_safe h1 hid (fun i hi => exQueryIds_safe i (by simp [hi])) exQueryIds_distinct.2
    have hself : NotSelf (testParams R.t1 (sk.signing R.noise).alg (sk.signing R.noise).keyId exQueryReqIds) :=
      exQueryIds_notSelf fun i hi => List.mem_append_right _ hi
    have hf : ∀ q, some (⟨c! "GET", u, exDate, .data []⟩ : Request) = some q → WfHeaders q.headers := by rintro _ ⟨⟩; exact exDate_facts.1
    have hw : WfHeaders (Msg.res ⟨200, [], .data []⟩).headers := by intro kv h; cases h
    have hv : ∀ i ∈ exQueryReqIds, ∃ v, HasValue (.res ⟨200, [], .data []⟩) (some ⟨c! "GET", u, exDate, .data []⟩) i v := by
      intro i hi
      simp only [exQueryReqIds, List.mem_cons, List.not_mem_nil, or_false] at hi
      rcases hi with rfl | rfl
      · exact ⟨_, by simp only [HasValue, List.not_mem_nil, if_false]; exact ⟨rfl, rfl⟩⟩
      · obtain ⟨v, hv⟩ := hqv [.name (c! "id"), .req] rfl
        exact ⟨v, by rw [HasValue, if_pos (by decide)]; exact ⟨_, _, rfl, rfl, by simp [DerivedParams], hv⟩⟩
    obtain ⟨m, sh, g1, g2, g3⟩ := sign_once (m := .res ⟨200, [], .data []⟩) (rf := some ⟨c! "GET", u, exDate, .data []⟩) hw hf rfl
      rfl hp hself (label := none) (by decide) e4 hv
    unfold Tests.queryOfRequest
    rw [hr, hs, e1]
    have n0 : exDate.get hSignatureInput = none := by decide +kernel
    simp only [Res.bind_ok, Res.ofOption_some, unwrap, test_made exQueryIds_eq.2 (by decide : hasUnique exQueryReqIds = true), g2, (g3.input rfl).1,
      (g3.sig rfl).1, n0, Option.isSome_some, Option.isNone_none, assert, if_true, e2]
    rw [g3.message, sign_then_verify (m := .res ⟨200, [], .data []⟩) hw hf rfl rfl hp hself (name := none) (by decide) e3 g1 (by intro e h; cases h)
      (.inl rfl)]
    rfl
  · unfold Tests.statusOfRequest
    rw [hr', e1]
    simp only [Res.bind_ok, Res.ofOption_some, unwrap]
    rw [test_made (ids := [⟨.derived .status, []⟩]) (by decide +kernel) (by decide)]
    rfl
  · unfold Tests.methodOfResponse
    rw [hs, e1]
    simp only [Res.bind_ok, Res.ofOption_some, unwrap]
    rw [test_made (ids := [⟨.derived .status, []⟩, ⟨.derived .method, []⟩]) (by decide +kernel) (by decide)]
    rfl

end

/-- C105: in a test of the blocking interface, which runs outside of every `block_on`, the two blocking calls have one outcome each, that of the
asynchronous call. So these tests pass when the others do. -/
theorem C105_blocking {m : Msg} {rf : Option Request} (p : SigParams) (k : SigningKey) (vk : VerifyingKey) (label id : Option Str) (now : UInt64) :
    (∀ h r, SetSync m (fun _ => [(p, k, label)]) rf false (h, r) ↔ (h, r) = setSignature m p k label rf) ∧
      ∀ o, VerifyOneSync now m (fun _ => vk) id rf false o ↔ o = verifySignature now m vk id rf := by
  constructor
  · intro h r
    refine (C93_set (m := m) (rf := rf) (l := fun _ => [(p, k, label)]) (fs := []) (h := h) (r := r)).trans ?_
    rw [if_neg (by simp)]; rfl
  · intro o
    refine (C93_verify_one (m := m) (rf := rf) (k := fun _ => vk) (fs := []) (now := now) (id := id) (o := o)).trans ?_
    rw [if_neg (by simp)]

/-! ### Cases -/

theorem httpLib_targets : (∃ u, Uri.parse httpLib Tests.queryTarget = some u ∧ u.query = some (c! "foo=bar&id=123&x=y")) ∧
    ∃ u, Uri.parse httpLib (c! "https://example.com/") = some u := by
  refine ⟨?_, Option.isSome_iff_exists.1 (by decide +kernel)⟩
  have : (Uri.parse httpLib Tests.queryTarget).bind Uri.query = some (c! "foo=bar&id=123&x=y") := by decide +kernel
  obtain ⟨u, h, e⟩ := Option.bind_eq_some_iff.1 this
  exact ⟨u, h, e⟩

example : Tests.signRequest exRun httpLib (utf8 (c! "{\"hello\": \"world\"}")) = .ok () :=
  (C105_request exRun httpLib rfl exTarget_parses _ (by decide)).1
example : Tests.keyIdHmac exRun httpLib [] = .ok () := C105_hmac exRun httpLib exTarget_parses _ (by decide)
example : Tests.usageResponse exRun httpLib [] [1] = .ok () := (C105_response exRun httpLib rfl exTarget_parses _ _ (by decide)).2
example : Tests.queryParam exRun httpLib = .ok () := (C105_query exRun httpLib rfl httpLib_targets.1 httpLib_targets.2 (by decide)).1
example : Tests.expired exRun httpLib [] = .ok () := (C105_expired exRun httpLib rfl exTarget_parses _ (by decide)).2 (by decide)
/-- On a clock that is set back by a second between signing and verification the test of the expired signature fails. -/
example : Tests.expired { exRun with t1' := exRun.t1 - 1 } httpLib [] ≠ .ok () := fun h =>
  absurd ((C105_expired { exRun with t1' := exRun.t1 - 1 } httpLib rfl exTarget_parses _ (by decide)).1 h).2.2 (by decide)
example : Tests.duration 1618884473 1618884573 1618884473 = .ok () := (C105_duration _ _ _).2 (by decide)
/-- A test that takes more than 100 seconds fails. -/
example : Tests.duration 1618884473 1618884574 1618884574 ≠ .ok () := fun h => absurd ((C105_duration _ _ _).1 h) (by decide)

end Verif
