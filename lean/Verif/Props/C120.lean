import Verif.Spec.CallOrder
import Verif.Props.C108
import Verif.Props.C118
import Verif.Props.C75
/-! C120: setting the digest and signing, in either order. -/
namespace Verif
open Sfv Spec Ex CallOrder

section
variable {m m' : Msg} {rf : Option Request} {t : DigestType}

theorem same_source {m m' : Msg} (h : SameButHeaders m m') (hi : fieldLines m'.headers (c! "signature-input") = fieldLines m.headers (c! "signature-input")) {n : CName}
    (hf : ∀ f, n = .field f → fieldLines m'.headers f = fieldLines m.headers f) : SameSource m m' n := by
  cases n with
  | field f => exact (hf f rfl).symm
  | derived d =>
    have a : m.method = m'.method ∧ m.uri = m'.uri ∧ m.status = m'.status := by
      cases m <;> cases m' <;> first
        | exact h.elim
        | exact ⟨by simp [Msg.method, h.1], by simp [Msg.uri, h.2.1], rfl⟩
        | exact ⟨rfl, rfl, by simp [Msg.status, h.1]⟩
    cases d <;> first
      | exact hi.symm
      | exact a.1
      | exact a.2.1
      | exact a.2.2
      | exact ⟨a.1, a.2.1⟩

theorem same_kind (h : SameButHeaders m m') : m.isReq = m'.isReq := by
  cases m <;> cases m' <;> first | rfl | exact h.elim

theorem same_source_refl (m : Msg) (n : CName) : SameSource m m n := by
  cases n with
  | field f => rfl
  | derived d => cases d <;> first | rfl | exact ⟨rfl, rfl⟩

/-- C120: messages that agree in everything but the order of lines of different fields are verified and signed alike. -/
theorem C120_alike (h : Alike m m') (hw : WfHeaders m.headers) (hw' : WfHeaders m'.headers) (hf : ∀ r, rf = some r → WfHeaders r.headers) :
    (∀ now k id, verifySignature now m k id rf = verifySignature now m' k id rf) ∧
    (∀ now keys, verifySignatures now m keys rf = verifySignatures now m' keys rf) ∧
    ∀ l, ∃ extra out, setSignatures m l rf = (m.headers ++ extra, out) ∧ setSignatures m' l rf = (m'.headers ++ extra, out) := by
  have q : ∀ n, SameSource m m' n := fun n => same_source h.1 (h.2 _) fun f _ => h.2 f
  have v : ∀ now keys, _ := fun now (keys : List (VerifyingKey × Option Str)) =>
    C24_verify (now := now) hw hw' (same_kind h.1) (rf := rf) (rf' := rf) rfl hf hf (h.2 _).symm (h.2 _).symm (fun _ _ _ _ _ _ _ => q _)
      (fun _ _ _ _ _ _ _ r r' e e' => by rw [e] at e'; injection e' with e'; subst e'; exact same_source_refl _ _) keys
  exact ⟨fun now k id => (v now []).2 k id, fun now keys => (v now keys).1,
    fun l => C24_sign hw hw' (same_kind h.1) rfl hf hf l (fun _ _ _ _ _ => q _)
      (fun _ _ _ _ _ r r' e e' => by rw [e] at e'; injection e' with e'; subst e'; exact same_source_refl _ _)⟩

theorem setDigest_some {b : Bytes} (hb : body m = .data b) :
    Service.setDigest t m = some (m.withHeaders (m.headers.insert hContentDigest (utf8 (digestText t b)))) := by
  cases m with
  | req r =>
    obtain ⟨me, u, hd, bd⟩ := r
    cases hb
    simp only [Service.setDigest, Request.setContentDigest, setDigest_data, Bind.bind, Res.bind]; rfl
  | res r =>
    obtain ⟨st, hd, bd⟩ := r
    cases hb
    simp only [Service.setDigest, Response.setContentDigest, setDigest_data, Bind.bind, Res.bind]; rfl

theorem body_same {m m' : Msg} (h : SameButHeaders m m') : body m' = body m := by
  cases m <;> cases m' <;> first | exact h.elim | exact h.2.2 | exact h.2

theorem withHeaders_but (m : Msg) (h : Headers) : SameButHeaders m (m.withHeaders h) := by
  cases m <;> simp [SameButHeaders, Msg.withHeaders]

theorem same_trans {m1 m2 m3 : Msg} (h : SameButHeaders m1 m2) (h' : SameButHeaders m2 m3) : SameButHeaders m1 m3 := by
  cases m1 <;> cases m2 <;> cases m3 <;> first | exact h.elim | exact h'.elim | skip
  · exact ⟨h'.1.trans h.1, h'.2.1.trans h.2.1, h'.2.2.trans h.2.2⟩
  · exact ⟨h'.1.trans h.1, h'.2.trans h.2⟩

theorem same_symm {m1 m2 : Msg} (h : SameButHeaders m1 m2) : SameButHeaders m2 m1 := by
  cases m1 <;> cases m2 <;> first | exact h.elim | skip
  · exact ⟨h.1.symm, h.2.1.symm, h.2.2.symm⟩
  · exact ⟨h.1.symm, h.2.symm⟩

theorem fieldLines_lower {h : Headers} {f g : Str} (e : lower f = lower g) : fieldLines h f = fieldLines h g := by
  unfold fieldLines; rw [e]

/-- The lines that signing adds are not lines of Content-Digest. -/
theorem fieldLines_extra {h : Headers} {extra : List (Str × Bytes)} (he : ∀ kv ∈ extra, kv.1 = c! "signature" ∨ kv.1 = c! "signature-input") {f : Str}
    (hf : lower f = c! "content-digest") : fieldLines (h ++ extra) f = fieldLines h f := by
  rw [fieldLines_append]
  have : fieldLines extra f = [] := by
    unfold fieldLines
    rw [List.map_eq_nil_iff, List.filter_eq_nil_iff]
    intro kv hkv
    rw [hf]
    rcases he kv hkv with e | e <;> (rw [e]; decide)
  rw [this, List.append_nil]

theorem wf_extra {h : Headers} (hw : WfHeaders h) {extra : List (Str × Bytes)} (he : ∀ kv ∈ extra, kv.1 = c! "signature" ∨ kv.1 = c! "signature-input") :
    WfHeaders (h ++ extra) := by
  intro kv hkv
  rcases List.mem_append.1 hkv with h | h
  · exact hw kv h
  · rcases he kv h with e | e <;> (rw [e]; exact ⟨by decide, by decide, by decide⟩)

/-- C120: if no signer covers Content-Digest, it does not matter whether the digest is set before or after signing: the outcome is the same, and so is
the message, up to the order of lines of different fields. -/
theorem C120_either (hw : WfHeaders m.headers) (hf : ∀ r, rf = some r → WfHeaders r.headers) {m1 : Msg} (h1 : Service.setDigest t m = some m1)
    {l : List Signer} (hl : ∀ x ∈ l, NoDigest x.1) {h : Headers} {out : Res HyperErr Unit} (hs : setSignatures m l rf = (h, out)) :
    ∃ h' m2, setSignatures m1 l rf = (h', out) ∧ Service.setDigest t (m.withHeaders h) = some m2 ∧ Alike m2 (m1.withHeaders h') := by
  obtain ⟨b, hb, e1⟩ := service_setDigest h1
  obtain ⟨w1, s1, _, _, o1⟩ := service_digested hw h1
  obtain ⟨x1, x2⟩ : _ ∧ _ := ⟨fieldLines_insert_digest hw (utf8 (digestText t b)), True.intro⟩
  have q : ∀ x ∈ l, ∀ i ∈ x.1.covered, CParam.req ∉ i.params → SameSource m m1 i.name := by
    intro x hx i hi hr
    exact same_source s1 (o1 _ (by decide)) fun f hn => o1 f (hl x hx i hi hr f hn)
  obtain ⟨extra, out', g1, g2⟩ := C24_sign hw w1 (same_kind s1) (rf := rf) (rf' := rf) rfl hf hf l q
    (fun _ _ _ _ _ r r' e e' => by rw [e] at e'; injection e' with e'; subst e'; exact same_source_refl _ _)
  rw [hs] at g1
  injection g1 with g1 g1'
  subst g1 g1'
  have he : ∀ kv ∈ extra, kv.1 = c! "signature" ∨ kv.1 = c! "signature-input" := by
    obtain ⟨ex, e2, e3⟩ := C50_only_appends m rf l
    rw [hs] at e2
    rw [List.append_cancel_left e2]; exact e3
  refine ⟨_, _, g2, setDigest_some (b := b) (by rw [body_same (withHeaders_but m _), hb]), ?_, ?_⟩
  · refine same_trans (same_symm ?_) (same_trans s1 (withHeaders_but _ _))
    exact same_trans (withHeaders_but m _) (withHeaders_but _ _)
  · intro f
    obtain ⟨_, y2, y3⟩ := fieldLines_insert_digest (wf_extra hw he) (utf8 (digestText t b))
    simp only [headers_withHeaders]
    by_cases hd : lower f = c! "content-digest"
    · rw [fieldLines_extra he hd, fieldLines_lower (g := c! "content-digest") (by rw [hd]; decide), e1, headers_withHeaders, x1.2.1,
        fieldLines_lower (f := f) (g := c! "content-digest") (by rw [hd]; decide), y2]
    · rw [y3 f hd, fieldLines_append, fieldLines_append, o1 f hd]

/-- C120: setting the digest once more, after signing, changes nothing. -/
theorem C120_again (hw : WfHeaders m.headers) {m1 : Msg} (h1 : Service.setDigest t m = some m1) (l : List Signer) :
    ∃ m2, Service.setDigest t (m1.withHeaders (setSignatures m1 l rf).1) = some m2 ∧ Alike (m1.withHeaders (setSignatures m1 l rf).1) m2 := by
  obtain ⟨b, hb, e1⟩ := service_setDigest h1
  obtain ⟨w1, s1, _, _, o1⟩ := service_digested hw h1
  obtain ⟨extra, e2, he⟩ := C50_only_appends m1 rf l
  refine ⟨_, setDigest_some (b := b) (by rw [body_same (withHeaders_but _ _), body_same s1, hb]), withHeaders_but _ _, fun f => ?_⟩
  simp only [headers_withHeaders]
  rw [e2]
  obtain ⟨_, y2, y3⟩ := fieldLines_insert_digest (wf_extra w1 he) (utf8 (digestText t b))
  by_cases hd : lower f = c! "content-digest"
  · rw [fieldLines_extra he hd, fieldLines_lower (g := c! "content-digest") (by rw [hd]; decide), y2,
      fieldLines_lower (f := f) (g := c! "content-digest") (by rw [hd]; decide), e1, headers_withHeaders, (fieldLines_insert_digest hw _).2.1]
  · exact y3 f hd

/-- C120: a digest that is set on the way leaves verification as it is, if no signature of the message covers Content-Digest. -/
theorem C120_later (hw : WfHeaders m.headers) (hf : ∀ r, rf = some r → WfHeaders r.headers) {m1 : Msg} (h1 : Service.setDigest t m = some m1)
    (hc : ∀ l, Carries m.headers l → ∀ kv ∈ l, NoDigest kv.2.params) (now : UInt64) (k : VerifyingKey) (id : Option Str) :
    verifySignature now m1 k id rf = verifySignature now m k id rf := by
  obtain ⟨w1, s1, _, _, o1⟩ := service_digested hw h1
  obtain ⟨b, hb, rfl⟩ := service_setDigest h1
  rw [headers_withHeaders] at w1 o1
  refine C24_header hw w1 hf [c! "content-digest"] (fun f hf => o1 f (by simpa using hf)) (by decide) (by decide) ?_ k id
  intro l hl kv hkv i hi hr f hn
  simpa using hc l hl kv hkv i hi hr f hn

/-- C120: a digest that is set after signing, over a message that had another value of Content-Digest, is too late: if the holder of the key signed this
only, with Content-Digest covered, then the receiver of C101 accepts the message no more. -/
theorem C120_too_late {now : UInt64} (hm : WfMsg m) (hf : ∀ r, rf = some r → WfRequest r) {m1 : Msg} (h1 : Service.setDigest t m = some m1) {b : Bytes}
    (hb : body m = .data b) {k : VerifyingKey} (hk : LibraryKey k) {x : Signing} (hx : CarefulSigning x) (hS : OnlySigned k (· = x)) {f : Str}
    (hfd : lower f = c! "content-digest") (hi : ⟨.field f, []⟩ ∈ x.p.covered) (hv : ¬ HasValue x.m x.rf ⟨.field f, []⟩ (digestText t b)) (id : Option Str)
    (n : Str) : Guard.receive now m1 [(k, id)] rf ≠ .ok [.ok n] := by
  intro h
  obtain ⟨w1, s1, _, _, o1⟩ := service_digested hm.wfHeaders h1
  obtain ⟨b', hb', e1⟩ := service_setDigest h1
  rw [hb] at hb'
  injection hb' with hb'
  subst hb'
  rcases C118_bound (same_wfMsg hm s1 w1) hf hk (S := (· = x)) (by rintro y rfl; exact hx) h with g | ⟨l, sh, _, _, y, rfl, _, g⟩
  · exact C118_none hS _ _ g
  · obtain ⟨v, v1, v2⟩ := g _ hi
    have : v = digestText t b := by
      have hd : HasValue m1 rf ⟨.field f, []⟩ (digestText t b) := by
        unfold HasValue
        rw [if_neg (by simp)]
        show FieldValue m1.headers f [] _
        refine ⟨[digestText t b], _, ?_, .done _, rfl⟩
        rw [fieldLines_lower (g := c! "content-digest") (by rw [hfd]; decide), e1, headers_withHeaders, (fieldLines_insert_digest hm.wfHeaders _).2.1]
        exact .cons (hvToStr_utf8 (digestText_printable t b)) .nil
      rcases C75_value_decided (m := m1) (rf := rf) w1 (fun r h => (hf r h).headers) ⟨.field f, []⟩ with ⟨⟨u, _, hu⟩, _⟩ | ⟨hn, _⟩
      · rw [hu v (wireHasValue_iff.2 v1), hu _ (wireHasValue_iff.2 hd)]
      · exact absurd (wireHasValue_iff.2 v1) (hn v)
    rw [this] at v2
    exact hv v2

end

/-! ### Cases -/

/-- A request with a body. -/
def c120Req (h : Headers) : Request := { exReq with headers := h, body := .data [1, 2, 3] }

-- `C120_either` and `C120_again`: a signature over the method
example : ∃ h' m1 m2 : _, Service.setDigest .sha256 (.req (c120Req [])) = some m1 ∧
    setSignatures m1 [(c102Signing.p, (SecretKey.ed25519 (P := toyPrims) [1]).signing [], none)] none = (h', .ok ()) ∧
    Service.setDigest .sha256 ((Msg.req (c120Req [])).withHeaders
      (setSignatures (.req (c120Req [])) [(c102Signing.p, (SecretKey.ed25519 (P := toyPrims) [1]).signing [], none)] none).1) = some m2 ∧
    Alike m2 (m1.withHeaders h') := by
  have e : (setSignatures (.req (c120Req [])) [(c102Signing.p, (SecretKey.ed25519 (P := toyPrims) [1]).signing [], none)] none).2 = .ok () := by
    decide +kernel
  obtain ⟨h', m2, a1, a2, a3⟩ := C120_either (m := .req (c120Req [])) (rf := none) (t := .sha256) (by intro kv h; cases h) (by simp)
    (setDigest_some (b := [1, 2, 3]) rfl) (l := [(c102Signing.p, (SecretKey.ed25519 (P := toyPrims) [1]).signing [], none)]) (by
      intro x hx i hi _ f hn
      rw [List.mem_singleton] at hx
      subst hx
      cases List.mem_singleton.1 hi
      cases hn) (Prod.ext rfl e)
  exact ⟨h', _, m2, setDigest_some (b := [1, 2, 3]) rfl, a1, a2, a3⟩

/-- The signature covers Content-Digest. -/
def c120Signing : Signing where
  m := .req (c120Req [(c! "content-digest", utf8 (c! "old"))])
  rf := none
  p := { expires := some 100, nonce := some (c! "a"), alg := some (c! "b"), keyid := some (c! "k"), covered := [⟨.field (c! "content-digest"), []⟩] }

set_option maxRecDepth 20000 in
-- signed before the digest was set: the right order is accepted, the other one is not
example :
    let sk := (SecretKey.ed25519 (P := toyPrims) [1]).signing []
    let vk := (PublicKey.ed25519 (P := toyPrims) [1]).verifying
    let digest := fun m => (Service.setDigest .sha256 m).getD m
    let sign := fun (m : Msg) => m.withHeaders (setSignatures m [(c120Signing.p, sk, none)] none).1
    verifySignature 0 (sign (digest c120Signing.m)) vk none none = .ok (c! "sig") ∧
    verifySignature 0 (digest (sign (digest c120Signing.m))) vk none none = .ok (c! "sig") ∧
    verifySignature 0 (sign c120Signing.m) vk none none = .ok (c! "sig") ∧
    verifySignature 0 (digest (sign c120Signing.m)) vk none none = .err .invalidSignature := by decide +kernel

def c120Text : Str :=
  c! "\"content-digest\": old\n\"@signature-params\": (\"content-digest\");expires=100;nonce=\"a\";alg=\"b\";keyid=\"k\""

/-- A key of the library, over a scheme that accepts nothing but this base. -/
def c120Key : VerifyingKey :=
  PublicKey.verifying (P := { toyPrims with p256 := { toyScheme 64 with verify := fun _ d _ => d == utf8 c120Text } }) (.ecdsaP256Sha256 ([1] : Bytes))

theorem c120_wf : WfHeaders (c120Req [(c! "content-digest", utf8 (c! "old"))]).headers := by
  intro kv hkv
  rw [List.mem_singleton.1 hkv]
  exact (⟨by decide, by decide, by decide⟩ : WfName (c! "content-digest"))

theorem c120_fine {h : Headers} (hw : WfHeaders h) : WfMsg (.req (c120Req h)) := by
  obtain ⟨a, b, c⟩ := exWf h hw
  exact ⟨a, b, c⟩

theorem c120_only : OnlySigned c120Key (· = c120Signing) := by
  intro d s h
  refine ⟨_, rfl, c120Text, ?_, ?_⟩
  · exact (buildBase_spec (m := c120Signing.m) c120_wf (by intro r h; cases h) c120Text).1
      ⟨⟨[⟨⟨.field (c! "content-digest"), []⟩, .plain (c! "old")⟩], c120Signing.p⟩, by decide +kernel, by decide +kernel⟩
  · unfold c120Key at h
    simp only [PublicKey.verifying, PublicKey.verify] at h
    split at h
    · cases h
    · simp only [verifyRes, toyScheme] at h
      split at h
      · rename_i e
        exact beq_iff_eq.1 e
      · cases h

set_option maxRecDepth 20000 in
-- `C120_too_late`
example (now : UInt64) (n : Str) (h : Headers) (hw : WfHeaders h) (m1 : Msg) (h1 : Service.setDigest .sha256 (.req (c120Req h)) = some m1) :
    Guard.receive now m1 [(c120Key, none)] none ≠ .ok [.ok n] := by
  refine C120_too_late (m := .req (c120Req h)) (c120_fine hw) (by simp) h1 rfl (.ofPublic _) (x := c120Signing) ⟨c120_fine c120_wf, by (intro r h; cases h),
    (C101_params _).1 (by decide +kernel), by decide +kernel⟩ c120_only (f := c! "content-digest") (by decide) (by simp [c120Signing]) ?_ none n
  intro hv
  have := (buildBase_spec (m := c120Signing.m) (p := c120Signing.p) (rf := none) c120_wf (by intro r h; cases h) _).2 ⟨[_], .cons hv .nil, rfl⟩
  revert this
  rintro ⟨b, e, f⟩
  have e' : buildBase c120Signing.m c120Signing.p none = .ok ⟨[⟨⟨.field (c! "content-digest"), []⟩, .plain (c! "old")⟩], c120Signing.p⟩ := by decide +kernel
  rw [e'] at e
  injection e with e
  subst e
  revert f
  decide +kernel

end Verif
