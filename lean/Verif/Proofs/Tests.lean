import Verif.Model.Tests
import Verif.Props.C72
import Verif.Props.C93
/-!
Lemmas for C105: a message after one signature, and the constants of the tests.
-/
namespace Verif
open Spec Ex

section
variable {m : Msg} {rf : Option Request}

/-- `m` with one signature, made with these parameters under this label, and no other. -/
structure Once (m : Msg) (rf : Option Request) (p : SigParams) (k : SigningKey) (n : Str) (m' : Msg) (sh : SigHeaders) : Prop where
  name : sh.name = n
  params : sh.params = p
  headers : m'.headers = m.headers ++ sigLines sh
  message : m' = m.withHeaders m'.headers
  wf : WfHeaders m'.headers
  carries : Carries m'.headers [(n, sh)]
  safe : SafeHeaders sh
  base : ∀ t, BaseOf m' rf p t ↔ BaseOf m rf p t

theorem sign_once (hw : WfHeaders m.headers) (hf : ∀ r, rf = some r → WfHeaders r.headers)
    (h0 : fieldLines m.headers (c! "signature-input") = []) (h0' : fieldLines m.headers (c! "signature") = [])
    {p : SigParams} (hp : SafeParams p) (hs : NotSelf p) {label : Option Str} (hn : LegalKey (label.getD (c! "sig"))) {k : SigningKey}
    (hk : ∀ d, ∃ s, k.sign d = .ok s) (hv : ∀ i ∈ p.covered, ∃ v, HasValue m rf i v) :
    ∃ m' sh, setSignature m p k label rf = (m'.headers, .ok ()) ∧ Tests.sign m p k label rf = .ok m' ∧
      Once m rf p k (label.getD (c! "sig")) m' sh := by
  obtain ⟨vs, hvs⟩ := forall₂_of_all hv
  obtain ⟨tx, htx⟩ : ∃ t, BaseOf m rf p t := ⟨_, vs, hvs, rfl⟩
  obtain ⟨s, hsg⟩ := hk (utf8 tx)
  have hsig : SignedBy m rf (p, k, label) ⟨label.getD (c! "sig"), s, p⟩ := ⟨rfl, rfl, tx, htx, hsg⟩
  have hall : List.Forall₂ (SignedBy m rf) [(p, k, label)] [⟨label.getD (c! "sig"), s, p⟩] := .cons hsig .nil
  have hsafe : ∀ x ∈ ([(p, k, label)] : List Signer), SafeParams x.1 ∧ LegalKey x.label ∧ NotSelf x.1 := by
    intro x hx; rw [List.mem_singleton.1 hx]; exact ⟨hp, hn, hs⟩
  have hsh := signed_safe hall (fun x hx => ⟨(hsafe x hx).1, (hsafe x hx).2.1⟩)
  have hset : setSignatures m [(p, k, label)] rf = (m.headers ++ [(⟨label.getD (c! "sig"), s, p⟩ : SigHeaders)].flatMap sigLines, .ok ()) :=
    (setSignatures_ok hw hf _ _).2 ⟨_, hall, fun sh h => by rw [hvOfStr_printable (safe_input_printable (hsh sh h))]; rfl, rfl⟩
  obtain ⟨hs2, h1, h2, h3, h4⟩ := signed_state hw hf h0 h0' (by simp) hsafe (by simp) hset
  have e : ∃ sh2, hs2 = [sh2] ∧ SignedBy m rf (p, k, label) sh2 := by
    cases h1 with
    | cons a b => cases b; exact ⟨_, rfl, a⟩
  obtain ⟨sh2, rfl, g⟩ := e
  -- both are the same signature
  have es : sh2 = ⟨label.getD (c! "sig"), s, p⟩ := by
    obtain ⟨a1, a2, t2, a3, a4⟩ := g
    have : t2 = tx := by
      obtain ⟨q, e1, e2⟩ := (buildBase_spec hw hf t2).2 a3
      obtain ⟨q', e1', e2'⟩ := (buildBase_spec hw hf tx).2 htx
      rw [e1] at e1'; injection e1' with e1'; subst e1'; rw [← e2, ← e2']
    subst this
    simp only at a4
    rw [hsg] at a4; injection a4 with a4
    cases sh2
    simp only at a1 a2 a4
    subst a1 a2 a4
    rfl
  subst es
  simp only [List.flatMap_cons, List.flatMap_nil, List.append_nil] at hset h2 h3 h4
  refine ⟨m.withHeaders (m.headers ++ sigLines ⟨label.getD (c! "sig"), s, p⟩), ⟨label.getD (c! "sig"), s, p⟩, ?_, ?_, ?_⟩
  · rw [headers_withHeaders]; exact hset
  · unfold Tests.sign
    rw [show setSignature m p k label rf = _ from hset]
  · refine ⟨rfl, rfl, headers_withHeaders _ _, by rw [headers_withHeaders], ?_, ?_, hsh _ List.mem_cons_self, h4 (p, k, label) List.mem_cons_self⟩
    · rw [headers_withHeaders]; exact h2
    · rw [headers_withHeaders]; exact h3

variable {p : SigParams} {k : SigningKey} {n : Str} {m' : Msg} {sh : SigHeaders}

theorem Once.input (h : Once m rf p k n m' sh) (h0 : fieldLines m.headers (c! "signature-input") = []) :
    m'.headers.get hSignatureInput = some (utf8 (n ++ c! "=" ++ p.disp)) ∧ Tests.line m' hSignatureInput = .ok (n ++ c! "=" ++ p.disp) := by
  have e : sh.inputValue = n ++ c! "=" ++ p.disp := by
    unfold SigHeaders.inputValue
    rw [h.name, h.params]; simp
  have g : m'.headers.get hSignatureInput = some (utf8 (n ++ c! "=" ++ p.disp)) := by
    unfold Headers.get
    have f := fieldLines_sigLines_input [sh]
    rw [List.flatMap_cons, List.flatMap_nil, List.append_nil] at f
    rw [getAll_fieldLines h.wf, h.headers, show hSignatureInput = c! "signature-input" from rfl, fieldLines_append, h0, f, ← e]; rfl
  refine ⟨g, ?_⟩
  unfold Tests.line
  rw [g, Res.ofOption_some]
  simp only [unwrap, Res.bind_ok]
  rw [← e, hvToStr_utf8 (safe_input_printable h.safe)]; rfl

theorem Once.sig (h : Once m rf p k n m' sh) (h0 : fieldLines m.headers (c! "signature") = []) :
    m'.headers.get hSignature = some (utf8 (n ++ c! "=:" ++ Base64.encode sh.signature ++ c! ":")) ∧
      Tests.line m' hSignature = .ok (n ++ c! "=:" ++ Base64.encode sh.signature ++ c! ":") := by
  have e : sh.signatureValue = n ++ c! "=:" ++ Base64.encode sh.signature ++ c! ":" := by
    unfold SigHeaders.signatureValue
    rw [h.name]; simp
  have g : m'.headers.get hSignature = some (utf8 (n ++ c! "=:" ++ Base64.encode sh.signature ++ c! ":")) := by
    unfold Headers.get
    have f := fieldLines_sigLines_sig [sh]
    rw [List.flatMap_cons, List.flatMap_nil, List.append_nil] at f
    rw [getAll_fieldLines h.wf, h.headers, show hSignature = c! "signature" from rfl, fieldLines_append, h0, f, ← e]; rfl
  refine ⟨g, ?_⟩
  unfold Tests.line
  rw [g, Res.ofOption_some]
  simp only [unwrap, Res.bind_ok]
  rw [← e, hvToStr_utf8 (safe_signature_printable h.safe.name)]; rfl

theorem Once.other (h : Once m rf p k n m' sh) {rf' : Option Request} (hf : ∀ r, rf' = some r → WfHeaders r.headers) {id : Option Str}
    (hno : ¬ ((∃ t, BaseOf m' rf' p t) ∧ ∀ i, id = some i → p.keyid = some i)) (now : UInt64) (vk : VerifyingKey) :
    verifySignature now m' vk id rf' = .err .noSignatureHeaders := by
  refine (C10_no_candidate_iff h.wf hf).2 (.inr (.inr ⟨_, h.carries, ?_⟩))
  intro kv hkv hc
  rw [List.mem_singleton.1 hkv] at hc
  obtain ⟨⟨t, ht⟩, hi⟩ := hc
  simp only [h.params] at ht
  refine hno ⟨⟨t, ht⟩, fun i e => ?_⟩
  have := hi i e
  simpa only [h.params] using this

theorem Once.late (h : Once m rf p k n m' sh) (hf : ∀ r, rf = some r → WfHeaders r.headers) (hb : ∃ t, BaseOf m' rf p t) {e : UInt64}
    (he : p.expires = some e) {now : UInt64} (hn : e < now) (vk : VerifyingKey) :
    verifySignature now m' vk none rf = .err .invalidSignature := by
  have no : ¬ InTime now sh := fun hi => by
    have := hi e (by rw [h.params]; exact he)
    exact absurd this (UInt64.not_le.2 hn)
  refine (C10_invalid_iff h.wf hf).2 ⟨_, h.carries, ?_, ?_, ?_⟩
  · intro kv hkv hc
    rw [List.mem_singleton.1 hkv] at hc
    obtain ⟨_, _, _, hi, _⟩ := hc
    exact no hi
  · exact ⟨_, List.mem_singleton.2 rfl, by rw [h.params]; exact hb, by intro i e; cases e⟩
  · intro kv hkv hc
    rw [List.mem_singleton.1 hkv] at hc
    obtain ⟨_, _, _, hi, _⟩ := hc
    exact no hi

theorem Once.keys (h : Once m rf p k n m' sh) {a : Alg} (rsa : Bool) (ha : p.alg = some a.toStr) (hav : a.available rsa = true) :
    getAlgKeyIds rsa m' = .ok [(n, (some a, p.keyid))] := by
  refine (C31_reported rsa h.wf _).2 ⟨_, h.carries, .cons ⟨rfl, by rw [h.params], fun b => ?_⟩ .nil⟩
  simp only [h.params, ha]
  constructor
  · rintro ⟨⟩; exact ⟨rfl, hav⟩
  · rintro ⟨e, hb⟩
    injection e with e
    have h1 := C31_name_round_trip rsa a hav
    have h2 := C31_name_round_trip rsa b hb
    rw [e, h2] at h1
    injection h1 with h1
    rw [h1]

theorem Once.extract (h : Once m rf p k n m' sh) : extractSignatureHeaders m' = .ok [(n, sh)] :=
  (extractSignatureHeaders_ok h.wf _).2 h.carries

end

/-! ### The constants -/

/-- The key of the tests. -/
theorem test_keys (R : Run) (hL : R.L.rsa.der = Der.lib) : ∃ sk pk, Tests.secret R = .ok sk ∧ Tests.published R .ed25519 = .ok pk ∧
    KeyPair (sk.signing R.noise) pk.verifying ∧ (∀ d, ∃ s, (sk.signing R.noise).sign d = .ok s) ∧ (sk.signing R.noise).keyId = exEdId ∧
    pk.keyId = exEdId ∧ (sk.signing R.noise).alg = .ed25519 := by
  obtain ⟨der, h1, h2⟩ := ex_secret_file
  obtain ⟨der', h1', h2'⟩ := ex_public_file
  have e : Libs.std.rsa.der = R.L.rsa.der := hL.symm
  rw [e] at h1 h2 h1' h2'
  have hs : SecretKey.fromPem (P := R.L.prims) R.rsa .ed25519 edSecret = .ok (.ed25519 (P := R.L.prims) ⟨exSeed, exSeed_ok⟩) := by
    refine (C68_secret_pem R.L R.rsa .ed25519 _ _).2 ⟨der, h1, ?_⟩
    rw [C68_key_bytes R.L R.rsa h2 (b := exSeed) ⟨4, 32, rfl⟩ rfl]
    exact sk_ed_iff.2 ⟨exSeed_ok, rfl⟩
  have hp : PublicKey.fromPem (P := R.L.prims) R.rsa .ed25519 edPublic = .ok (.ed25519 (P := R.L.prims) ⟨exPub, rfl⟩) :=
    (C68_public_pem R.L R.rsa .ed25519 _ _).2 ⟨der', exPub, h1', h2', pk_ed_iff.2 ⟨rfl, rfl⟩⟩
  have hpk : (SecretKey.ed25519 (P := R.L.prims) ⟨exSeed, exSeed_ok⟩).publicKey = .ed25519 (P := R.L.prims) ⟨exPub, rfl⟩ :=
    (pk_ed_inj (L := R.L) (h := Ed.encode_length _)).2 exPub_eq
  have hid : (PublicKey.ed25519 (P := R.L.prims) ⟨exPub, rfl⟩).keyId = exEdId := exEdId_eq
  refine ⟨.ed25519 (P := R.L.prims) ⟨exSeed, exSeed_ok⟩, .ed25519 (P := R.L.prims) ⟨exPub, rfl⟩, by unfold Tests.secret; rw [hs]; rfl, by unfold Tests.published; rw [hp]; rfl, ?_, fun d => ⟨_, rfl⟩,
    (congrArg PublicKey.keyId hpk).trans hid, hid, rfl⟩
  rw [← hpk]; exact C70_key_pair R.L _ _

/-- Parameters made by a test. -/
def testParams (t : UInt64) (a : Alg) (id : Str) (ids : List CId) : SigParams :=
  { created := some t, alg := some a.toStr, keyid := some id, covered := ids }

theorem test_made {t : UInt64} {covered : List Str} {k : SigningKey} {ids : List CId} (h1 : Res.collect CId.ofStr covered = .ok ids)
    (h2 : hasUnique ids = true) : Tests.made t covered k = .ok (testParams t k.alg k.keyId ids) := by
  unfold Tests.made
  rw [h1]
  simp only [unwrap, Res.bind_ok, SigParams.tryNew, h2]
  rfl

theorem test_safe {t : UInt64} {a : Alg} {id : Str} {ids : List CId} (ht : t.toNat < 10 ^ 15) (hid : SafeText id) (h1 : ∀ i ∈ ids, SafeId i)
    (h2 : ids.Pairwise (fun a b => ¬ SameId a b)) : SafeParams (testParams t a id ids) where
  created := by intro t e; injection e with e; subst e; exact ht
  expires := by intro t e; cases e
  nonce := by intro s e; cases e
  alg := by intro s e; injection e with e; subst e; exact alg_safe _
  keyid := by intro s e; injection e with e; subst e; exact hid
  tag := by intro s e; cases e
  ids := h1
  distinct := h2

theorem test_notSelf {p : SigParams} (h : ∀ i ∈ p.covered, i ∈ exReqIds ++ exResIds) : NotSelf p :=
  fun i hi _ => ⟨(exIds_rules i (h i hi)).2.2.1, fun f hf => ((exIds_rules i (h i hi)).2.2.2 f hf).2.2⟩

theorem exEdId_safe : SafeText exEdId := by rw [← exEdId_eq]; exact base64_safe _

end Verif
