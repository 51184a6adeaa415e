import Verif.Props.C72
import Verif.Props.C87
/-!
C89 What a careful receiver knows about a message.
-/
namespace Verif
open Sfv Spec Ex

/-- The name of the field that states the digest of the body, in any letter case. -/
def IsDigestField (f : Str) : Prop := lower f = c! "content-digest"

/-- A receiver that does all of the following: it refuses backslashes in Signature-Input and messages that have not exactly one line of
Content-Digest; it verifies the signature and the digest of the body; and it checks, with the parameters that `get_signature_params`
reports under the returned name, that Content-Digest and all components it needs are covered. -/
structure Careful (now : UInt64) (vk : VerifyingKey) (id : Option Str) (m : Msg) (rf : Option Request) (need : List CId) (n : Str) : Prop where
  clean : NoBackslash m.headers
  oneDigest : (fieldLines m.headers (c! "content-digest")).length = 1
  verified : verifySignature now m vk id rf = .ok n
  digest : ∃ x, digest m = .ok x
  cover : ∃ ps p, getSignatureParams m = .ok ps ∧ (n, p) ∈ ps ∧ (∀ i ∈ need, i ∈ p.covered) ∧ ∃ f, IsDigestField f ∧ ⟨.field f, []⟩ ∈ p.covered

/-- A holder who signs only parameters that can be written to a header, and messages whose single Content-Digest line is right. -/
structure HonestSigning (x : Signing) : Prop where
  wf : x.Wf
  safe : SafeParams x.p
  oneDigest : (fieldLines x.m.headers (c! "content-digest")).length = 1
  digest : ∃ y, Ex.digest x.m = .ok y

theorem digest_line {m : Msg} (hw : WfHeaders m.headers) (h : ∃ x, Ex.digest m = .ok x)
    (h1 : (fieldLines m.headers (c! "content-digest")).length = 1) :
    ∃ b t l, Ex.body m = .data b ∧ fieldLines m.headers (c! "content-digest") = [l] ∧ States l t (hashOf t b) := by
  obtain ⟨⟨h', b'⟩, h⟩ := h
  obtain ⟨l, hl⟩ := List.length_eq_one_iff.1 h1
  unfold Ex.digest at h
  obtain ⟨_, _, b, t, v, h2, h3, h4⟩ := (verifyDigest_ok _ _ _ _).1 h
  rw [lines_fieldLines hw, hl] at h3
  injection h3 with h3; subst h3
  exact ⟨b, t, l, h2, hl, h4⟩

theorem one_line_value {h : Headers} {f : Str} (hf : IsDigestField f) {l : Bytes} (hl : fieldLines h (c! "content-digest") = [l]) {v : Str}
    (hv : FieldValue h f [] v) : hvToStr l = some v := by
  obtain ⟨ts, out, a1, a2, a3⟩ := hv
  cases a2
  have e : fieldLines h f = [l] := by rw [← hl]; unfold fieldLines; rw [hf]; rfl
  rw [e] at a1
  cases a1 with
  | @cons _ s _ _ b1 b2 => cases b2; rw [a3]; exact b1

theorem wf_headers {m : Msg} (h : WfMsg m) : WfHeaders m.headers := by
  cases m with
  | req r => exact h.headers
  | res s => exact h

/-- C89: what a careful receiver accepts was signed with exactly the reported parameters, in a message in which every covered
component has the same value and whose body has the same hash. -/
theorem C89_bound {now : UInt64} {m : Msg} {rf : Option Request} {vk : VerifyingKey} {S : Signing → Prop} (hS : OnlySigned vk S)
    (hh : ∀ x, S x → HonestSigning x) (hm : WfMsg m) (hf : ∀ r, rf = some r → WfRequest r) {id : Option Str} {need : List CId} {n : Str}
    (h : Careful now vk id m rf need n) :
    ∃ ps x, getSignatureParams m = .ok ps ∧ (n, x.p) ∈ ps ∧ S x ∧ (∀ i ∈ need, i ∈ x.p.covered) ∧
      (∀ i ∈ x.p.covered, ∃ v, HasValue m rf i v ∧ HasValue x.m x.rf i v) ∧
      ∃ t b b', body m = .data b ∧ body x.m = .data b' ∧ hashOf t b = hashOf t b' := by
  obtain ⟨l, sh, h1, h2, x, hx, hp, hv⟩ := C87_bound hS (fun x hx => ⟨(hh x hx).wf, (hh x hx).safe⟩) hm hf h.clean h.verified
  obtain ⟨ps, p, g1, g2, g3, f, g4, g5⟩ := h.cover
  obtain ⟨l', c1, rfl⟩ := (C49_params (wf_headers hm) ps).1 g1
  cases carries_unique (wf_headers hm) h1 c1
  obtain ⟨kv, hkv, e⟩ := List.mem_map.1 g2
  have : kv = (n, sh) :=
    List.inj_on_of_nodup_map (carries_nodup h1) hkv h2 (Prod.mk.inj e).1
  subst this
  have e2 : sh.params = p := congrArg Prod.snd e
  subst e2
  refine ⟨_, x, g1, by rw [hp]; exact g2, hx, by rw [hp]; exact g3, by rw [hp]; exact hv, ?_⟩
  obtain ⟨v, v1, v2⟩ := hv _ g5
  unfold HasValue at v1 v2
  rw [if_neg (by simp)] at v1 v2
  obtain ⟨b, t, ln, d1, d2, d3⟩ := digest_line (wf_headers hm) h.digest h.oneDigest
  obtain ⟨b', t', ln', d1', d2', d3'⟩ := digest_line (wf_headers (hh x hx).wf.msg) (hh x hx).digest (hh x hx).oneDigest
  have w := one_line_value g4 d2 (show FieldValue m.headers f [] v by cases m <;> exact v1)
  have w' := one_line_value g4 d2' (show FieldValue x.m.headers f [] v by revert v2; cases x.m <;> exact fun h => h)
  obtain ⟨s, q, s1, s2⟩ := d3
  obtain ⟨s', q', s1', s2'⟩ := d3'
  rw [w] at s1; rw [w'] at s1'
  injection s1 with s1; injection s1' with s1'
  subst s1; subst s1'
  rw [s2] at s2'
  simp only [Option.some.injEq, List.cons.injEq, Prod.mk.injEq, and_true] at s2'
  obtain ⟨e1, e2⟩ := s2'
  have et : t = t' := by cases t <;> cases t' <;> first | rfl | exact absurd e1 (by decide)
  subst et
  injection e2 with e2
  injection e2 with e2 _
  injection e2 with e2
  exact ⟨t, b, b', d1, d1', e2⟩

/-- What a receiver of requests needs: the method and the whole URI. -/
def requestNeed : List CId := [⟨.derived .method, []⟩, ⟨.derived .targetUri, []⟩]

/-- What a receiver of responses needs: the status, and the method and the whole URI of the request. -/
def responseNeed : List CId := [⟨.derived .status, []⟩, ⟨.derived .method, [.req]⟩, ⟨.derived .targetUri, [.req]⟩]

theorem plain_request {m : Msg} {rf : Option Request} {d : Derived} {v : Str} (hd : d = .method ∨ d = .targetUri)
    (h : HasValue m rf ⟨.derived d, []⟩ v) : ∃ r, m = .req r ∧ RequestValue r d [] v := by
  unfold HasValue at h
  rw [if_neg (by simp)] at h
  cases m with
  | req r => exact ⟨r, rfl, h.2⟩
  | res s => rcases hd with rfl | rfl <;> exact h.2.elim

theorem req_request {m : Msg} {rf : Option Request} {d : Derived} {v : Str}
    (h : HasValue m rf ⟨.derived d, [.req]⟩ v) : ∃ s r, m = .res s ∧ rf = some r ∧ RequestValue r d [.req] v := by
  unfold HasValue at h
  rw [if_pos (by simp)] at h
  obtain ⟨s, r, h1, h2, h3⟩ := h
  exact ⟨s, r, h1, h2, h3.2⟩

theorem plain_status {m : Msg} {rf : Option Request} {v : Str}
    (h : HasValue m rf ⟨.derived .status, []⟩ v) : ∃ s, m = .res s ∧ v = natStr s.status := by
  unfold HasValue at h
  rw [if_neg (by simp)] at h
  cases m with
  | req r => exact h.2.elim
  | res s => exact ⟨s, rfl, h.2⟩

/-- C89, requests: the holder signed a request with this method up to letter case, this URI and a body with this hash, under the
reported parameters, and all other covered components have the signed values. -/
theorem C89_request (L : UriLib) {now : UInt64} {r : Request} {vk : VerifyingKey} {S : Signing → Prop} (hS : OnlySigned vk S)
    (hh : ∀ x, S x → HonestSigning x) (hu : ∀ x r', S x → x.m = .req r' → ∃ s, Uri.parse L s = some r'.uri)
    (hr : WfRequest r) (hru : ∃ s, Uri.parse L s = some r.uri) {id : Option Str} {n : Str} (h : Careful now vk id (.req r) none requestNeed n) :
    ∃ x r', S x ∧ x.m = .req r' ∧ r'.method.map Char.toUpper = r.method.map Char.toUpper ∧ shown r'.uri = shown r.uri ∧
      (∃ t b b', r.body = .data b ∧ r'.body = .data b' ∧ hashOf t b = hashOf t b') ∧
      (∃ ps, getSignatureParams (.req r) = .ok ps ∧ (n, x.p) ∈ ps) ∧
      ∀ i ∈ x.p.covered, ∃ v, HasValue (.req r) none i v ∧ HasValue x.m x.rf i v := by
  obtain ⟨ps, x, h1, h2, hx, h3, h4, t, b, b', h5, h6, h7⟩ := C89_bound (m := .req r) hS hh hr (by simp) h
  obtain ⟨v, v1, v2⟩ := h4 _ (h3 ⟨.derived .targetUri, []⟩ (by decide))
  obtain ⟨w, w1, w2⟩ := h4 _ (h3 ⟨.derived .method, []⟩ (by decide))
  obtain ⟨_, e, u1⟩ := plain_request (.inr rfl) v1
  injection e with e; subst e
  obtain ⟨_, e, m1⟩ := plain_request (.inl rfl) w1
  injection e with e; subst e
  obtain ⟨r', er, u2⟩ := plain_request (.inr rfl) v2
  obtain ⟨_, e, m2⟩ := plain_request (.inl rfl) w2
  rw [er] at e; injection e with e; subst e
  obtain ⟨s, hs⟩ := hru
  obtain ⟨s', hs'⟩ := hu x r' hx er
  refine ⟨x, r', hx, er, m2.symm.trans m1, C71_target_uri_injective L hs' hs (u2.symm.trans u1), ⟨t, b, b', h5, ?_, h7⟩, ⟨ps, h1, h2⟩, h4⟩
  rw [er] at h6; exact h6

/-- C89, responses: the holder signed a response with this status and a body with this hash, and signed it for a request with this
method up to letter case and this URI. -/
theorem C89_response (L : UriLib) {now : UInt64} {s : Response} {r : Request} {vk : VerifyingKey} {S : Signing → Prop} (hS : OnlySigned vk S)
    (hh : ∀ x, S x → HonestSigning x) (hu : ∀ x r', S x → x.rf = some r' → ∃ t, Uri.parse L t = some r'.uri)
    (hs : WfHeaders s.headers) (hr : WfRequest r) (hru : ∃ t, Uri.parse L t = some r.uri) {id : Option Str} {n : Str}
    (h : Careful now vk id (.res s) (some r) responseNeed n) :
    ∃ x s' r', S x ∧ x.m = .res s' ∧ x.rf = some r' ∧ s'.status = s.status ∧
      r'.method.map Char.toUpper = r.method.map Char.toUpper ∧ shown r'.uri = shown r.uri ∧
      (∃ t b b', s.body = .data b ∧ s'.body = .data b' ∧ hashOf t b = hashOf t b') ∧
      (∃ ps, getSignatureParams (.res s) = .ok ps ∧ (n, x.p) ∈ ps) ∧
      ∀ i ∈ x.p.covered, ∃ v, HasValue (.res s) (some r) i v ∧ HasValue x.m x.rf i v := by
  obtain ⟨ps, x, h1, h2, hx, h3, h4, t, b, b', h5, h6, h7⟩ :=
    C89_bound (m := .res s) (rf := some r) hS hh hs (by intro r' e; injection e with e; subst e; exact hr) h
  obtain ⟨v, v1, v2⟩ := h4 _ (h3 ⟨.derived .targetUri, [.req]⟩ (by decide))
  obtain ⟨w, w1, w2⟩ := h4 _ (h3 ⟨.derived .method, [.req]⟩ (by decide))
  obtain ⟨z, z1, z2⟩ := h4 _ (h3 ⟨.derived .status, []⟩ (by decide))
  obtain ⟨_, _, _, e, u1⟩ := req_request v1
  injection e with e; subst e
  obtain ⟨_, _, _, e, m1⟩ := req_request w1
  injection e with e; subst e
  obtain ⟨_, e, t1⟩ := plain_status z1
  injection e with e; subst e
  obtain ⟨s', r', es, er, u2⟩ := req_request v2
  obtain ⟨_, _, _, e, m2⟩ := req_request w2
  rw [er] at e; injection e with e; subst e
  obtain ⟨_, e, t2⟩ := plain_status z2
  rw [es] at e; injection e with e; subst e
  obtain ⟨q, hq⟩ := hru
  obtain ⟨q', hq'⟩ := hu x r' hx er
  refine ⟨x, s', r', hx, es, er, natStr_inj (t2.symm.trans t1), m2.symm.trans m1, C71_target_uri_injective L hq' hq (u2.symm.trans u1),
    ⟨t, b, b', h5, ?_, h7⟩, ⟨ps, h1, h2⟩, h4⟩
  rw [es] at h6; exact h6

/-- C89: nothing honest is refused. When parties sign a message with a right digest as in C72, the careful receiver of each of them
accepts, for all components that the party covered. -/
theorem C89_complete {m : Msg} {rf : Option Request} (hw : WfHeaders m.headers) (hf : ∀ r, rf = some r → WfHeaders r.headers)
    (h0 : fieldLines m.headers (c! "signature-input") = []) (h0' : fieldLines m.headers (c! "signature") = [])
    {l : List Party} (hl : l ≠ []) {ids : Party → List CId} (hfit : ∀ c ∈ l, Fits m rf c (ids c))
    (hn : (l.map Party.name).Nodup) (hk : (l.map fun c => c.verifying.keyId).Nodup)
    (hd : ∃ x, digest m = .ok x) (h1 : (fieldLines m.headers (c! "content-digest")).length = 1)
    (hc : ∀ c ∈ l, ∃ f, IsDigestField f ∧ ⟨.field f, []⟩ ∈ ids c) :
    ∃ m', scenario rf l m = .ok m' ∧ SameButHeaders m m' ∧
      ∀ c ∈ l, ∀ need, (∀ i ∈ need, i ∈ ids c) → Careful c.received c.verifying (some c.verifying.keyId) m' rf need c.name := by
  obtain ⟨m', a1, a2, ⟨hs, b1, b2, b3⟩, a3, a4⟩ := C72_scenario hw hf h0 h0' hl hfit hn hk hd
  have hw' : WfHeaders m'.headers := by rw [b3]; exact wf_sigLines hw hs
  refine ⟨m', a1, a2, fun c hcl need hneed => ⟨?_, ?_, a3 c hcl, a4, ?_⟩⟩
  · have hsafe : ∀ x ∈ l.map (fun c => c.signer (ids c)), SafeParams x.1 ∧ LegalKey x.label := by
      intro x hx
      obtain ⟨c, hc, rfl⟩ := List.mem_map.1 hx
      exact ⟨(hfit c hc).safeParams, (hfit c hc).name⟩
    have hsig : List.Forall₂ (SignedBy m rf) (l.map fun c => c.signer (ids c)) hs := List.forall₂_map_left_iff.2 b1
    have hsh := signed_safe hsig hsafe
    refine C87_written hw hf hsafe ?_ ((setSignatures_ok hw hf _ _).2
      ⟨hs, hsig, fun sh h => by rw [hvOfStr_printable (safe_input_printable (hsh sh h))]; rfl, b3⟩)
    intro ln hln
    rw [linesOf_eq, h0] at hln
    cases hln
  · rw [b3, fieldLines_append, fieldLines_sigLines_other _ (by decide) (by decide), List.append_nil, h1]
  · obtain ⟨sh, hsh, hsb⟩ := forall₂_mem_left b1 c hcl
    obtain ⟨f, f1, f2⟩ := hc c hcl
    refine ⟨_, (c.made (ids c)), (C49_params hw' _).2 ⟨_, b2, rfl⟩, ?_, hneed, f, f1, f2⟩
    rw [List.map_map, List.mem_map]
    exact ⟨sh, hsh, by simp only [Function.comp]; rw [hsb.name, hsb.params]; rfl⟩

/-! ### Examples -/

theorem ideal_careful {m : Msg} {rf : Option Request} {p : SigParams} (hw : WfHeaders m.headers) (hf : ∀ r, rf = some r → WfHeaders r.headers)
    (h0 : fieldLines m.headers (c! "signature-input") = []) (h0' : fieldLines m.headers (c! "signature") = [])
    (hp : SafeParams p) (hs : NotSelf p) (hv : ∀ i ∈ p.covered, ∃ v, HasValue m rf i v) (he : p.expires = none)
    (hd : ∃ x, digest m = .ok x) (h1 : (fieldLines m.headers (c! "content-digest")).length = 1)
    (hc : ∃ f, IsDigestField f ∧ ⟨.field f, []⟩ ∈ p.covered) :
    Careful 0 (idealVerify (· = ⟨m, rf, p⟩)) none (m.withHeaders (m.headers ++ sigLines ⟨c! "sig", [1], p⟩)) rf p.covered (c! "sig") := by
  obtain ⟨vs, hvs⟩ := forall₂_of_all hv
  have hsb : SignedBy m rf (p, idealSign (· = ⟨m, rf, p⟩), none) ⟨c! "sig", [1], p⟩ := by
    refine ⟨rfl, rfl, _, ⟨vs, hvs, rfl⟩, ?_⟩
    unfold idealSign
    simp only
    rw [if_pos ⟨_, rfl, _, ⟨vs, hvs, rfl⟩, rfl⟩]
  have hss : SafeHeaders ⟨c! "sig", [1], p⟩ := ⟨(by decide : LegalKey (c! "sig")), hp⟩
  have hset : setSignatures m [(p, idealSign (· = ⟨m, rf, p⟩), none)] rf = (m.headers ++ sigLines ⟨c! "sig", [1], p⟩, .ok ()) :=
    (setSignatures_ok hw hf _ _).2 ⟨[⟨c! "sig", [1], p⟩], .cons hsb .nil, (by
      intro sh hsh
      rw [List.mem_singleton.1 hsh, hvOfStr_printable (safe_input_printable hss)]; rfl), by simp⟩
  have hsafe : ∀ x ∈ [(p, idealSign (· = ⟨m, rf, p⟩), none)], SafeParams x.1 ∧ LegalKey (Signer.label x) := by
    intro x hx; rw [List.mem_singleton.1 hx]; exact ⟨hp, (by decide : LegalKey (c! "sig"))⟩
  obtain ⟨hs', g1, g2, g3, _⟩ := signed_state hw hf h0 h0' (by simp)
    (by intro x hx; exact ⟨(hsafe x hx).1, (hsafe x hx).2, by rw [List.mem_singleton.1 hx]; exact hs⟩) (by simp) hset
  obtain ⟨b, t, ln, d1, d2, d3⟩ := digest_line hw hd h1
  have hcd : fieldLines (m.headers ++ sigLines ⟨c! "sig", [1], p⟩) (c! "content-digest") = [ln] := by
    have := fieldLines_sigLines_other [(⟨c! "sig", [1], p⟩ : SigHeaders)] (f := c! "content-digest") (by decide) (by decide)
    rw [List.flatMap_singleton] at this
    rw [fieldLines_append, this, d2]; rfl
  refine ⟨?_, ?_, ?_, ?_, ?_⟩
  · rw [headers_withHeaders]
    refine C87_written hw hf hsafe ?_ hset
    intro ln hln
    rw [linesOf_eq, h0] at hln
    cases hln
  · rw [headers_withHeaders, hcd]; rfl
  · exact sign_then_verify (now := 0) hw hf h0 h0' hp hs (name := none) (by decide) (ideal_pair _) hset
      (by rw [he]; intro e h; cases h) (Or.inl rfl)
  · refine ⟨(_, _), (verifyDigest_ok _ _ _ _).2 ⟨rfl, rfl, b, t, ln, (by rw [← d1]; cases m <;> rfl), ?_, d3⟩⟩
    rw [headers_withHeaders, lines_fieldLines g2, hcd]; rfl
  · cases g1 with
    | @cons _ sh _ _ a b =>
      cases b
      refine ⟨_, p, (C49_params (by rw [headers_withHeaders]; exact g2) _).2 ⟨_, by rw [headers_withHeaders]; exact g3, rfl⟩, ?_, fun _ h => h, hc⟩
      simp only [List.map_cons, List.map_nil, List.mem_singleton]
      rw [a.name, a.params]; rfl

/-- Method, URI and digest. -/
def c89Params (ids : List CId) : SigParams := { covered := ids ++ [⟨.field (c! "content-digest"), []⟩], keyid := some (c! "k") }

theorem c89Safe {ids : List CId} (hi : ids = requestNeed ∨ ids = responseNeed) : SafeParams (c89Params ids) ∧ NotSelf (c89Params ids) := by
  have hall : ∀ i ∈ (c89Params ids).covered, (∃ d, i.name = .derived d ∧ d ≠ .signatureParams ∧ (i.params = [] ∨ i.params = [.req])) ∨
      i = ⟨.field (c! "content-digest"), []⟩ := by
    intro i hi'
    rcases List.mem_append.1 hi' with h | h
    · left
      rcases hi with rfl | rfl
      · simp only [requestNeed, List.mem_cons, List.not_mem_nil, or_false] at h
        rcases h with rfl | rfl <;> simp
      · simp only [responseNeed, List.mem_cons, List.not_mem_nil, or_false] at h
        rcases h with rfl | rfl | rfl <;> simp
    · right; exact List.mem_singleton.1 h
  have hd : (c89Params ids).covered.Pairwise (fun a b => ¬ SameId a b) := by
    rcases hi with rfl | rfl <;> simp [c89Params, requestNeed, responseNeed, SameId]
  refine ⟨?_, ?_⟩
  · refine ⟨nofun, nofun, nofun, nofun, ?_, nofun, ?_, hd⟩
    · intro t h; injection h with h; subst h; decide
    · rcases hi with rfl | rfl <;> intro i h <;> refine (C74_id i).1 ?_ <;>
        simp only [c89Params, requestNeed, responseNeed, List.cons_append, List.nil_append, List.mem_cons, List.not_mem_nil, or_false] at h
      · rcases h with rfl | rfl | rfl <;> decide
      · rcases h with rfl | rfl | rfl | rfl <;> decide
  · intro i h hr
    rcases hall i h with ⟨d, e, h1, h2⟩ | rfl
    · rw [e]
      exact ⟨by intro h; injection h with h; exact h1 h, by intro f h; cases h⟩
    · exact ⟨by simp, by intro f h; injection h with h; subst h; decide⟩

/-- A request that is sent with this body. -/
theorem c89Request (b : Bytes) : ∃ r0 r, Request.ofText httpLib (c! "PUT") (c! "https://h/a?b") [] (.data b) = some r0 ∧
    buildRequest httpLib (c! "PUT") (c! "https://h/a?b") [] (.data b) .sha256 = .ok r ∧ r.uri = r0.uri ∧ r.body = .data b ∧ r.method = c! "PUT" ∧
    WfHeaders r.headers ∧ (fieldLines r.headers (c! "content-digest")).length = 1 ∧
    (∃ v, FieldValue r.headers (c! "content-digest") [] v) ∧
    (∀ f, lower f ≠ c! "content-digest" → fieldLines r.headers f = []) ∧ ∃ x, digest (.req r) = .ok x := by
  obtain ⟨u, hu⟩ : ∃ u, Uri.parse httpLib (c! "https://h/a?b") = some u := ⟨_, (by decide +kernel :
    Uri.parse httpLib (c! "https://h/a?b") = some ⟨some (c! "https"), some (c! "h"), c! "/a", some (c! "b")⟩)⟩
  obtain ⟨r0, h0⟩ : ∃ r0, Request.ofText httpLib (c! "PUT") (c! "https://h/a?b") [] (.data b) = some r0 :=
    ⟨⟨c! "PUT", u, [], .data b⟩, request_ofText.mpr ⟨(by decide : methodOfText (c! "PUT") = some (c! "PUT")), hu, rfl, rfl⟩⟩
  obtain ⟨r, h1, h2, h3, h4, h5, h6, h7, h8⟩ := C72_build_request httpLib h0 .sha256
  refine ⟨r0, r, h0, h1, h3, h4, h2, h5, by rw [h6]; rfl, ?_, ?_, h8⟩
  · exact ⟨_, _, _, by rw [h6]; exact .cons (hvToStr_utf8 (digestText_printable .sha256 b)) .nil, .done _, rfl⟩
  · intro f hf
    rw [h7 f hf]; rfl

/-- With every body there is a request that the careful receiver accepts, signed by an honest holder with a key that accepts nothing
else: the hypotheses of `C89_request` hold together. -/
example (b : Bytes) : ∃ (S : Signing → Prop) (vk : VerifyingKey) (r : Request), OnlySigned vk S ∧ (∃ x, S x) ∧ (∀ x, S x → HonestSigning x) ∧
    (∀ x r', S x → x.m = .req r' → ∃ s, Uri.parse httpLib s = some r'.uri) ∧ WfRequest r ∧ (∃ s, Uri.parse httpLib s = some r.uri) ∧
    r.body = .data b ∧ Careful 0 vk none (.req r) none requestNeed (c! "sig") := by
  obtain ⟨r0, r, h0, h1, hu, hb, hm, hw, hl, ⟨v, hv⟩, ho, hd⟩ := c89Request b
  obtain ⟨hp, hs⟩ := c89Safe (.inl rfl)
  have w0 := (C71_request_wf httpLib h0).1
  have hwr : WfRequest r := ⟨hw, by rw [hm]; decide, by rw [hu]; exact w0.uri⟩
  have hpu : ∃ s, Uri.parse httpLib s = some r.uri := ⟨_, by rw [hu]; exact (request_ofText.mp h0).2.1⟩
  have hc := ideal_careful (m := .req r) (rf := none) hw (by simp) (ho _ (by decide)) (ho _ (by decide)) hp hs (by
    intro i hi
    simp only [c89Params, requestNeed, List.cons_append, List.nil_append, List.mem_cons, List.not_mem_nil, or_false] at hi
    rcases hi with rfl | rfl | rfl
    · exact ⟨_, by unfold HasValue; rw [if_neg (by simp)]; exact ⟨nofun, rfl⟩⟩
    · exact ⟨_, by unfold HasValue; rw [if_neg (by simp)]; exact ⟨nofun, rfl⟩⟩
    · exact ⟨v, by unfold HasValue; rw [if_neg (by simp)]; exact hv⟩) rfl hd hl
    ⟨c! "content-digest", by unfold IsDigestField; decide, by simp [c89Params]⟩
  rw [show (Msg.req r).withHeaders ((Msg.req r).headers ++ sigLines ⟨c! "sig", [1], c89Params requestNeed⟩) =
    .req { r with headers := r.headers ++ sigLines ⟨c! "sig", [1], c89Params requestNeed⟩ } from rfl] at hc
  refine ⟨(· = ⟨.req r, none, c89Params requestNeed⟩), idealVerify _, { r with headers := r.headers ++ sigLines ⟨c! "sig", [1], c89Params requestNeed⟩ }, ideal_only _, ⟨_, rfl⟩, ?_, ?_, ?_, hpu, hb,
    ⟨hc.clean, hc.oneDigest, hc.verified, hc.digest, ?_⟩⟩
  · rintro x rfl
    exact ⟨⟨hwr, by simp, safe_one_line hp⟩, hp, hl, hd⟩
  · rintro x r' rfl e
    injection e with e; subst e; exact hpu
  · exact ⟨by simpa using wf_sigLines hw [⟨c! "sig", [1], c89Params requestNeed⟩], hwr.method, hwr.uri⟩
  · obtain ⟨ps, p, a, b, c, d⟩ := hc.cover
    exact ⟨ps, p, a, b, fun i hi => c i (by simp [c89Params, hi]), d⟩

/-- The same for responses: the hypotheses of `C89_response` hold together. -/
example (b b' : Bytes) : ∃ (S : Signing → Prop) (vk : VerifyingKey) (s : Response) (r : Request), OnlySigned vk S ∧ (∃ x, S x) ∧
    (∀ x, S x → HonestSigning x) ∧ (∀ x r', S x → x.rf = some r' → ∃ t, Uri.parse httpLib t = some r'.uri) ∧ WfHeaders s.headers ∧ WfRequest r ∧
    (∃ t, Uri.parse httpLib t = some r.uri) ∧ r.body = .data b ∧ s.body = .data b' ∧ Careful 0 vk none (.res s) (some r) responseNeed (c! "sig") := by
  obtain ⟨r0, r, h0, _, hu, hb, hm, hw, -, -, -, -⟩ := c89Request b
  obtain ⟨hp, hs⟩ := c89Safe (.inr rfl)
  have w0 := (C71_request_wf httpLib h0).1
  have hwr : WfRequest r := ⟨hw, by rw [hm]; decide, by rw [hu]; exact w0.uri⟩
  have hpu : ∃ s, Uri.parse httpLib s = some r.uri := ⟨_, by rw [hu]; exact (request_ofText.mp h0).2.1⟩
  have g0 : Response.ofText 200 [] (.data b') = some ⟨200, [], .data b'⟩ := rfl
  obtain ⟨s, _, _, g2, g3, g4, g5, g6⟩ := C72_build_response g0 .sha256
  have hl : (fieldLines s.headers (c! "content-digest")).length = 1 := by rw [g4]; rfl
  have hv : ∃ v, FieldValue s.headers (c! "content-digest") [] v :=
    ⟨_, _, _, by rw [g4]; exact .cons (hvToStr_utf8 (digestText_printable .sha256 b')) .nil, .done _, rfl⟩
  obtain ⟨v, hv⟩ := hv
  have hc := ideal_careful (m := .res s) (rf := some r) g3 (by intro r' e; injection e with e; subst e; exact hw)
    (by show fieldLines s.headers _ = []; rw [g5 _ (by decide)]; rfl)
    (by show fieldLines s.headers _ = []; rw [g5 _ (by decide)]; rfl) hp hs (by
    intro i hi
    simp only [c89Params, responseNeed, List.cons_append, List.nil_append, List.mem_cons, List.not_mem_nil, or_false] at hi
    rcases hi with rfl | rfl | rfl | rfl
    · exact ⟨_, by unfold HasValue; rw [if_neg (by simp)]; exact ⟨rfl, rfl⟩⟩
    · exact ⟨_, by unfold HasValue; rw [if_pos (by simp)]; exact ⟨_, _, rfl, rfl, by intro p hp; simpa using hp, rfl⟩⟩
    · exact ⟨_, by unfold HasValue; rw [if_pos (by simp)]; exact ⟨_, _, rfl, rfl, by intro p hp; simpa using hp, rfl⟩⟩
    · exact ⟨v, by unfold HasValue; rw [if_neg (by simp)]; exact hv⟩) rfl g6 hl
    ⟨c! "content-digest", by unfold IsDigestField; decide, by simp [c89Params]⟩
  rw [show (Msg.res s).withHeaders ((Msg.res s).headers ++ sigLines ⟨c! "sig", [1], c89Params responseNeed⟩) =
    .res { s with headers := s.headers ++ sigLines ⟨c! "sig", [1], c89Params responseNeed⟩ } from rfl] at hc
  refine ⟨(· = ⟨.res s, some r, c89Params responseNeed⟩), idealVerify _, { s with headers := s.headers ++ sigLines ⟨c! "sig", [1], c89Params responseNeed⟩ }, r, ideal_only _, ⟨_, rfl⟩, ?_, ?_, ?_, hwr, hpu, hb,
    g2, ⟨hc.clean, hc.oneDigest, hc.verified, hc.digest, ?_⟩⟩
  · rintro x rfl
    exact ⟨⟨g3, (by intro r' e; injection e with e; subst e; exact hwr), safe_one_line hp⟩, hp, hl, g6⟩
  · rintro x r' rfl e
    injection e with e; subst e; exact hpu
  · simpa using wf_sigLines g3 [⟨c! "sig", [1], c89Params responseNeed⟩]
  · obtain ⟨ps, p, a, b, c, d⟩ := hc.cover
    exact ⟨ps, p, a, b, fun i hi => c i (by simp [c89Params, hi]), d⟩

end Verif
