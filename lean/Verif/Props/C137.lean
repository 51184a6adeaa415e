import Verif.Spec.Parts
import Verif.Props.C125
import Verif.Props.C136
/-!
C137: answers to HEAD, and answers in parts.
-/
namespace Verif
open Sfv Spec Arrival Http1 Http2

theorem states_unique {v : Bytes} {t t' : DigestType} {d d' : Bytes} (h : States v t d) (h' : States v t' d') : t = t' ∧ d = d' := by
  have e : ∀ {t d}, States v t d → extractDigest [(c! "content-digest", v)] = .ok (t, d) := fun h => (extractDigest_ok _ _ _).2 ⟨v, by simp [lines], h⟩
  have := (e h).symm.trans (e h')
  injection this with this
  exact Prod.mk.inj this

/-- Which contents a line with the digest of one content is accepted with. -/
theorem digest_of_other {s s' : Response} {c c' v : Bytes} {t : DigestType} (hw' : WfHeaders s'.headers)
    (hl : Wire.linesOf s'.headers (c! "content-digest") = Wire.linesOf s.headers (c! "content-digest")) (hb : s'.body = .data c')
    (hv : (Wire.linesOf s.headers (c! "content-digest")).head? = some v) (hs : States v t (hashOf t c)) :
    (∃ x, s'.verifyContentDigest = .ok x) ↔ hashOf t c' = hashOf t c := by
  have hl' : (lines s'.headers (c! "content-digest")).head? = some v := by
    rw [lines_fieldLines hw', ← hv]
    exact congrArg _ hl
  simp only [C20_response_verify_exact]
  constructor
  · rintro ⟨_, _, b, t', v', h1, h2, h3⟩
    rw [hb] at h1
    injection h1 with h1
    rw [hl'] at h2
    injection h2 with h2
    subst h1 h2
    obtain ⟨rfl, e⟩ := states_unique hs h3
    exact e.symm
  · intro e
    exact ⟨s', rfl, c', t, v, hb, hl', e ▸ hs⟩

/-- Verification is the same if status, request and lines are. -/
theorem verify_same {ns : List Str} {rf rf' : Option Request} {s s' : Response} (hs : WfHeaders s.headers) (hs' : WfHeaders s'.headers)
    (hf : ∀ r, rf = some r → WfHeaders r.headers) (hf' : ∀ r, rf' = some r → WfHeaders r.headers)
    (hl : ∀ f : Str, f.map Char.toLower ∉ ns → Wire.linesOf s'.headers f = Wire.linesOf s.headers f) (ht : Untouched ns)
    (hc : ∀ l, Wire.Carries s.headers l → ∀ kv ∈ l, ∀ i ∈ kv.2.params.covered, ∀ v, Wire.HasValue (.res s') rf' i v ↔ Wire.HasValue (.res s) rf i v)
    (now : UInt64) (keys : List (VerifyingKey × Option Str)) :
    verifySignatures now (.res s') keys rf' = verifySignatures now (.res s) keys rf ∧
    ∀ k id, verifySignature now (.res s') k id rf' = verifySignature now (.res s) k id rf := by
  have he := extract_of_lines (m := .res s) (m' := .res s') hs hs' (hl (c! "signature-input") ht.1).symm (hl (c! "signature") ht.2).symm
  obtain ⟨g1, g2⟩ := verify_congr_base (m := .res s) (m' := .res s') hs hs' hf hf' he (fun l hl kv hkv t => by
    rw [← wireBaseOf_iff, ← wireBaseOf_iff]
    exact wireBase_congr (fun i hi v => (hc l (wireCarries_iff.2 ((extractSignatureHeaders_ok (m := .res s) hs l).1 hl)) kv hkv i hi v).symm) t) now keys
  exact ⟨g1.symm, fun k id => (g2 k id).symm⟩

/-- C137: what a component of the request is worth, other than its method, is the same for GET and HEAD. -/
theorem C137_head_value {r0 r : Request} {s : Response} (h : Cache.SelectedHead r0 s r) {i : CId} (hi : Cache.Bound s i) (hm : i.name ≠ .derived .method) (v : Str) :
    Wire.ValueIn (.req r) i v ↔ Wire.ValueIn (.req r0) i v := by
  rw [← C136_value h.same hi v]
  obtain ⟨n, ps⟩ := i
  unfold Wire.ValueIn
  cases n with
  | field f => rfl
  | derived d =>
    have e : Wire.targetText r.method r.uri = Wire.targetText (c! "GET") r.uri := by
      rw [h.head]
      unfold Wire.targetText
      rfl
    cases d with
    | method => exact absurd rfl hm
    | _ => simp only [Wire.RequestValue, e]

/-- C137: signatures of an answer to HEAD are verified as those of the answer to GET, if what they cover of the request lasts and is not its method. -/
theorem C137_head {r0 r : Request} {s s' : Response} (h : Cache.Headed s s') (hsel : Cache.SelectedHead r0 s r) (hw0 : WfHeaders r0.headers) (hw : WfHeaders r.headers)
    (hs : WfHeaders s.headers)
    (hc : ∀ l, Wire.Carries s.headers l → ∀ kv ∈ l, ∀ i ∈ kv.2.params.covered, CParam.req ∈ i.params → Cache.Bound s i ∧ i.name ≠ .derived .method)
    (now : UInt64) (keys : List (VerifyingKey × Option Str)) :
    verifySignatures now (.res s') keys (some r) = verifySignatures now (.res s) keys (some r0) ∧
    ∀ k id, verifySignature now (.res s') k id (some r) = verifySignature now (.res s) k id (some r0) := by
  refine verify_same (ns := []) hs h.wf (by intro q e; injection e with e; exact e ▸ hw0) (by intro q e; injection e with e; exact e ▸ hw) (fun f _ => h.fields f)
    ⟨by simp, by simp⟩ (fun l hl kv hkv i hi v => ?_) now keys
  unfold Wire.HasValue
  by_cases hq : CParam.req ∈ i.params
  · obtain ⟨b1, b2⟩ := hc l hl kv hkv i hi hq
    simp [hq, C137_head_value hsel b1 b2 v]
  · simp [hq, response_value (s := s) (s' := s') (ch := []) h.status (fun f _ => h.fields f) ⟨by simp, by simp⟩ v]

/-- C137: if the method of the request is covered, no text is signed for both. -/
theorem C137_head_method {r0 r : Request} {s s' : Response} (hsel : Cache.SelectedHead r0 s r) (hw0 : WfRequest r0) (hw : WfRequest r) (hs : WfHeaders s.headers)
    (hs' : WfHeaders s'.headers) {p : SigParams} (hp : OneLineParams p) {i : CId} (hi : i ∈ p.covered) (hm : i.name = .derived .method) (hq : CParam.req ∈ i.params)
    {t : Str} (h : Wire.BaseOf (.res s) (some r0) p t) : ¬ Wire.BaseOf (.res s') (some r) p t := by
  intro h'
  obtain ⟨v, h1, h2⟩ := same_text_value (m := .res s) (m' := .res s') hs hs' (by intro q e; injection e with e; exact e ▸ hw0)
    (by intro q e; injection e with e; exact e ▸ hw) hp h h' hi
  have val : ∀ {s : Response} {r : Request}, Wire.HasValue (.res s) (some r) i v → v = r.method.map Char.toUpper := by
    rintro s r (⟨h, _⟩ | ⟨_, _, r', _, e, h⟩)
    · exact absurd hq h
    · injection e with e
      subst e
      obtain ⟨n, ps⟩ := i
      simp only at hm
      subst hm
      exact h.2
  have := (val h1).symm.trans (val h2)
  rw [hsel.get, hsel.head] at this
  exact absurd this (by decide)

/-- C137: an answer to HEAD has the digest of the content that it does not have; it is refused unless the content is empty or has the hash of the empty one. -/
theorem C137_head_digest {s s' : Response} (h : Cache.Headed s s') {c v : Bytes} {t : DigestType}
    (hv : (Wire.linesOf s.headers (c! "content-digest")).head? = some v) (hd : States v t (hashOf t c)) :
    (∃ x, s'.verifyContentDigest = .ok x) ↔ hashOf t [] = hashOf t c :=
  digest_of_other h.wf (h.fields _) h.body hv hd

/-- C137: signatures of a part of an answer are verified as those of the whole, if they cover neither the status nor lines that a part has for itself. -/
theorem C137_part {rf : Option Request} {s s' : Response} {c : Bytes} {a b : Nat} (h : Cache.Part s c a b s') (hs : WfHeaders s.headers)
    (hf : ∀ r, rf = some r → WfHeaders r.headers)
    (hc : ∀ l, Wire.Carries s.headers l → ∀ kv ∈ l, ∀ i ∈ kv.2.params.covered, CParam.req ∉ i.params → Clear Cache.partNames i ∧ i.name ≠ .derived .status)
    (now : UInt64) (keys : List (VerifyingKey × Option Str)) :
    verifySignatures now (.res s') keys rf = verifySignatures now (.res s) keys rf ∧
    ∀ k id, verifySignature now (.res s') k id rf = verifySignature now (.res s) k id rf := by
  refine verify_same (ns := Cache.partNames) hs h.wf hf hf h.fields ⟨by decide, by decide⟩ (fun l hl kv hkv i hi v => ?_) now keys
  unfold Wire.HasValue
  by_cases hq : CParam.req ∈ i.params
  · simp [hq]
  · obtain ⟨b1, b2⟩ := hc l hl kv hkv i hi hq
    have h1 := response_value (s := s) (s' := { s' with status := s.status }) rfl h.fields b1 v
    have h2 : Wire.ValueIn (.res s') i v ↔ Wire.ValueIn (.res { s' with status := s.status }) i v := by
      obtain ⟨n, ps⟩ := i
      unfold Wire.ValueIn
      cases n with
      | field f => rfl
      | derived d =>
        cases d with
        | status => exact absurd rfl b2
        | _ => simp only [Wire.ResponseValue]
    simp [hq, h2.trans h1]

/-- C137: if the status is covered, no text is signed for the whole and for a part. -/
theorem C137_part_status {rf rf' : Option Request} {s s' : Response} {c : Bytes} {a b : Nat} (h : Cache.Part s c a b s') (hs : WfHeaders s.headers)
    (hf : ∀ r, rf = some r → WfRequest r) (hf' : ∀ r, rf' = some r → WfRequest r) {p : SigParams} (hp : OneLineParams p) {i : CId} (hi : i ∈ p.covered)
    (hm : i.name = .derived .status) {t : Str} (hb : Wire.BaseOf (.res s) rf p t) : ¬ Wire.BaseOf (.res s') rf' p t := by
  intro h'
  obtain ⟨v, h1, h2⟩ := same_text_value (m := .res s) (m' := .res s') hs h.wf hf hf' hp hb h' hi
  have val : ∀ {s : Response} {rf : Option Request}, Wire.HasValue (.res s) rf i v → Wire.ResponseValue s .status v := by
    rintro s rf (⟨_, h⟩ | ⟨_, _, r', _, _, h⟩)
    · obtain ⟨n, ps⟩ := i
      simp only at hm
      subst hm
      exact h.2
    · obtain ⟨n, ps⟩ := i
      simp only at hm
      subst hm
      exact absurd h.2 (by simp [Wire.RequestValue])
  have e1 := val h1
  have e2 := val h2
  simp only [Wire.ResponseValue, h.whole, h.status] at e1 e2
  rw [e1] at e2
  exact absurd e2 (by decide)

/-- C137: a part is accepted with the digest of the whole only if it has the same hash; it is shorter unless it is all of it. -/
theorem C137_part_digest {s s' : Response} {c v : Bytes} {a b : Nat} (h : Cache.Part s c a b s') {t : DigestType}
    (hv : (Wire.linesOf s.headers (c! "content-digest")).head? = some v) (hd : States v t (hashOf t c)) :
    ((∃ x, s'.verifyContentDigest = .ok x) ↔ hashOf t (Cache.between a b c) = hashOf t c) ∧ (Cache.between a b c = c ↔ a = 0 ∧ b + 1 = c.length) := by
  refine ⟨digest_of_other h.wf (h.fields _ (by decide)) h.body hv hd, ?_⟩
  have hb := h.bounds
  have hlen : (Cache.between a b c).length = b + 1 - a := by
    unfold Cache.between
    rw [List.length_take, List.length_drop]
    omega
  constructor
  · intro e
    rw [e] at hlen
    omega
  · rintro ⟨rfl, e⟩
    unfold Cache.between
    rw [List.drop_zero, Nat.sub_zero, e, List.take_length]

/-- C137: every answer 200 that is no part has all its parts, with all its lines and one more. -/
theorem C137_part_made {s : Response} {c : Bytes} {a b : Nat} {ta tb tn : Str} (hs : s.status = 200) (hb : s.body = .data c) (hw : WfHeaders s.headers)
    (hn : Wire.linesOf s.headers (c! "content-range") = []) (h : a ≤ b ∧ b < c.length) (ha : Number ta a) (hb' : Number tb b) (hl : Number tn c.length) :
    Cache.Part s c a b
      ⟨206, [(c! "content-range", utf8 (c! "bytes " ++ ta ++ c! "-" ++ tb ++ c! "/" ++ tn))] ++ s.headers, .data ((c.drop a).take (b + 1 - a))⟩ := by
  have name : WfName (c! "content-range") := ⟨by decide, by decide, by decide⟩
  refine ⟨hs, hb, h, rfl, rfl, ⟨ta, tb, tn, ha, hb', hl, ?_⟩, fun f hf => ?_, fun kv hkv => ?_⟩
  · rw [linesOf_append, hn]
    simp [Wire.linesOf]
  · exact Ex136.line_before fun e => hf (by rw [e]; decide)
  · rcases List.mem_append.1 hkv with h | h
    · rw [List.mem_singleton.1 h]
      exact name
    · exact hw kv h

theorem row_body {s : Response} {c : Bytes} {a : Nat} {ps : List Response} (h : Cache.Row s c a ps) {bs : List Bytes}
    (hb : List.Forall₂ (fun p b => p.body = Body.data b) ps bs) : bs.flatten = c.drop a := by
  induction h generalizing bs with
  | last h1 e =>
    cases hb with
    | cons k1 k2 =>
      cases k2
      rw [h1.body] at k1
      injection k1 with k1
      subst k1
      have := h1.bounds
      simp only [List.flatten_cons, List.flatten_nil, List.append_nil, Cache.between]
      exact List.take_of_length_le (by rw [List.length_drop]; omega)
  | more h1 _ ih =>
    cases hb with
    | cons k1 k2 =>
      rw [h1.body] at k1
      injection k1 with k1
      subst k1
      have := h1.bounds
      rw [List.flatten_cons, ih k2]
      unfold Cache.between
      rename_i a b _ _ _ _
      have : b + 1 = a + (b + 1 - a) := by omega
      conv_lhs => rhs; rw [this, ← List.drop_drop]
      exact List.take_append_drop _ _

theorem row_whole {s : Response} {c : Bytes} {a : Nat} {ps : List Response} (h : Cache.Row s c a ps) : s.status = 200 ∧ s.body = .data c := by
  cases h with
  | last h _ => exact ⟨h.whole, h.content⟩
  | more h _ => exact ⟨h.whole, h.content⟩

theorem row_fields {s : Response} {c : Bytes} {a : Nat} {ps : List Response} (h : Cache.Row s c a ps) {p : Response} (hp : p ∈ ps) :
    ∀ f : Str, f.map Char.toLower ∉ Cache.partNames → Wire.linesOf p.headers f = Wire.linesOf s.headers f := by
  induction h with
  | last h1 _ => exact List.mem_singleton.1 hp ▸ h1.fields
  | more h1 _ ih =>
    rcases List.mem_cons.1 hp with rfl | hp
    · exact h1.fields
    · exact ih hp

/-- C137: parts of an answer that are put together have its content; its digest and its signatures are verified as those of the answer, also if they cover the status. -/
theorem C137_joined {rf : Option Request} {s s' : Response} {c : Bytes} {ps : List Response} (h : Cache.Row s c 0 ps) (hj : Cache.Joined ps s') (hs : WfHeaders s.headers)
    (hf : ∀ r, rf = some r → WfHeaders r.headers)
    (hc : ∀ l, Wire.Carries s.headers l → ∀ kv ∈ l, ∀ i ∈ kv.2.params.covered, CParam.req ∉ i.params → Clear Cache.partNames i)
    (now : UInt64) (keys : List (VerifyingKey × Option Str)) :
    s'.status = s.status ∧ s'.body = s.body ∧ ((∃ x, s'.verifyContentDigest = .ok x) ↔ ∃ x, s.verifyContentDigest = .ok x) ∧
    verifySignatures now (.res s') keys rf = verifySignatures now (.res s) keys rf ∧
    ∀ k id, verifySignature now (.res s') k id rf = verifySignature now (.res s) k id rf := by
  obtain ⟨w1, w2⟩ := row_whole h
  obtain ⟨bs, h1, h2⟩ := hj.body
  obtain ⟨p, hp, hfl⟩ := hj.fields
  have hl : ∀ f : Str, f.map Char.toLower ∉ Cache.partNames → Wire.linesOf s'.headers f = Wire.linesOf s.headers f :=
    fun f hn => (hfl f hn).trans (row_fields h hp f hn)
  have hbody : s'.body = s.body := by rw [h2, w2, row_body h h1, List.drop_zero]
  have hst := hj.status.trans w1.symm
  refine ⟨hst, hbody, ?_, verify_same (ns := Cache.partNames) hs hj.wf hf hf hl ⟨by decide, by decide⟩ (fun l hl' kv hkv i hi v => ?_) now keys⟩
  · have e : lines s'.headers (c! "content-digest") = lines s.headers (c! "content-digest") :=
      (lines_fieldLines hj.wf).trans ((hl (c! "content-digest") (by decide)).trans (lines_fieldLines hs).symm)
    simp only [C20_response_verify_exact, hbody, e, exists_eq_left, exists_and_left]
  · unfold Wire.HasValue
    by_cases hq : CParam.req ∈ i.params
    · simp [hq]
    · simp [hq, response_value (s := s) (s' := s') hst hl (hc l hl' kv hkv i hi hq) v]

/-! ### Examples -/

namespace Ex137
open Ex124 Ex126 Ex128 Ex129 Ex136

/-- With or without the status. -/
def wholeIds (b : Bool) : List CId :=
  (if b then [⟨.derived .status, []⟩] else []) ++ [⟨.field (c! "etag"), []⟩, ⟨.field (c! "content-digest"), []⟩, ⟨.derived .targetUri, [.req]⟩]

def fresh : Response := ⟨200, [(c! "etag", utf8 (c! "x"))], .data (utf8 (c! "hello"))⟩
def digested : Response := match fresh.setContentDigest .sha256 with | .ok s => s | _ => fresh
def whole (b : Bool) : Response := (digested.setSignature (exParams (wholeIds b)) sumSign none (some first)).1

def asked : Request := { first with method := c! "HEAD" }
def headed : Response := { whole true with body := .data [] }
def partOf (b : Bool) (range : Str) (c : Bytes) : Response := ⟨206, [(c! "content-range", utf8 range)] ++ (whole b).headers, .data c⟩
def joined : Response := whole true

theorem names7 {h : Headers} (hn : ∀ kv ∈ h, kv.1 ∈ [c! "etag", c! "content-digest", c! "content-range", c! "accept-language", c! "signature", c! "signature-input"]) :
    WfHeaders h := by
  intro kv hkv
  have := hn kv hkv
  simp only [List.mem_cons, List.not_mem_nil, or_false] at this
  rcases this with e | e | e | e | e | e <;> rw [e] <;> exact ⟨by decide, by decide, by decide⟩

theorem whole_mem {b : Bool} {i : CId} (hi : i ∈ (exParams (wholeIds b)).covered) : (b = true ∧ i = ⟨.derived .status, []⟩) ∨ i = ⟨.field (c! "etag"), []⟩ ∨
    i = ⟨.field (c! "content-digest"), []⟩ ∨ i = ⟨.derived .targetUri, [.req]⟩ := by
  cases b <;> simpa [exParams, wholeIds] using hi

theorem whole_safe (b : Bool) : SafeParams (exParams (wholeIds b)) where
  created := by intro t h; cases h
  expires := by intro t h; cases h
  nonce := by intro t h; cases h
  alg := by intro t h; cases h
  keyid := by intro t h; cases h
  tag := by intro t h; cases h
  ids := by
    intro i hi
    rcases whole_mem hi with ⟨_, rfl⟩ | rfl | rfl | rfl
    · exact ⟨⟨by simp, by simp, by simp, by intro f h; cases h⟩, (by intro f h; cases h), by simp, by simp⟩
    · exact ⟨⟨by simp, by simp, by simp, by intro f h; injection h with h; subst h; decide⟩,
        (by intro f h; injection h with h; subst h; decide), by simp, by simp⟩
    · exact ⟨⟨by simp, by simp, by simp, by intro f h; injection h with h; subst h; decide⟩,
        (by intro f h; injection h with h; subst h; decide), by simp, by simp⟩
    · exact ⟨⟨by simp, by simp, by simp, by intro f h; cases h⟩, (by intro f h; cases h), by simp, by simp⟩
  distinct := by cases b <;> simp [exParams, wholeIds, SameId]

theorem sum_pair : KeyPair sumSign sumVerify := by
  intro d s h
  injection h with h
  subst h
  exact if_pos rfl

theorem wholeSeal (b : Bool) : Seal [] digested.headers (exParams (wholeIds b)) none sumSign sumVerify 100 := by
  refine ⟨names7 (by decide +kernel), lines_ok (by decide +kernel), by decide +kernel, by decide +kernel, whole_safe b, ?_, by decide, sum_pair, ?_⟩
  · intro i hi hr
    rcases whole_mem hi with ⟨_, rfl⟩ | rfl | rfl | rfl
    · exact ⟨by simp, by intro f h; cases h⟩
    · exact ⟨by simp, by intro f h; injection h with h; subst h; decide⟩
    · exact ⟨by simp, by intro f h; injection h with h; subst h; decide⟩
    · exact absurd (by simp) hr
  · intro e h; cases h

theorem first_wf : ∀ q, some first = some q → WfHeaders q.headers := by intro q e; injection e with e; exact e ▸ names7 (by decide +kernel)

theorem whole_wf (b : Bool) : WfHeaders (whole b).headers := names7 (by cases b <;> decide +kernel)

theorem whole_ok2 (b : Bool) : (setSignatures (.res digested) [(exParams (wholeIds b), sumSign, none)] (some first)).2 = .ok () := by cases b <;> decide +kernel
theorem whole_eq (b : Bool) : (whole b).headers = (setSignatures (.res digested) [(exParams (wholeIds b), sumSign, none)] (some first)).1 := rfl

attribute [local irreducible] whole digested

/-- The only signature of the answer is the one with these parameters. -/
theorem whole_carries {b : Bool} {l : List (Str × SigHeaders)} (hl : Wire.Carries (whole b).headers l) : ∀ kv ∈ l, kv.2.params = exParams (wholeIds b) := by
  have ha := wholeSeal b
  obtain ⟨f1, f2⟩ := seal_fresh ha
  have e2 := whole_ok2 b
  rw [whole_eq] at hl
  have hset : setSignatures (.res digested) [(exParams (wholeIds b), sumSign, none)] (some first) =
      ((setSignatures (.res digested) [(exParams (wholeIds b), sumSign, none)] (some first)).1, .ok ()) := Prod.ext rfl e2
  exact fun kv hkv => seal_carries (m := .res digested) ha.wf first_wf f1 f2 ha.params ha.notSelf ha.label hset (k := l) hl kv hkv

theorem whole_clear {b : Bool} {i : CId} (hi : i ∈ (exParams (wholeIds b)).covered) : Clear Cache.partNames i := by
  rcases whole_mem hi with ⟨_, rfl⟩ | rfl | rfl | rfl
  · exact ⟨(by intro f h; cases h), by intro h; cases h⟩
  · exact ⟨(by intro f h; injection h with h; subst h; decide), by intro h; cases h⟩
  · exact ⟨(by intro f h; injection h with h; subst h; decide), by intro h; cases h⟩
  · exact ⟨(by intro f h; cases h), by intro h; cases h⟩

theorem part_of (b : Bool) {x y : Nat} {tx ty : Str} (hx : Number tx x) (hy : Number ty y) (h : x ≤ y ∧ y < 5) :
    Cache.Part (whole b) (utf8 (c! "hello")) x y (partOf b (c! "bytes " ++ tx ++ c! "-" ++ ty ++ c! "/" ++ c! "5") (Cache.between x y (utf8 (c! "hello")))) := by
  exact C137_part_made (by cases b <;> decide +kernel) (by cases b <;> decide +kernel) (whole_wf b) (by cases b <;> decide +kernel) h hx hy
    ⟨by decide, by simp [Digit], by decide +kernel⟩

theorem n0 : Number (c! "0") 0 := ⟨by decide, by simp [Digit], by decide⟩
theorem n1 : Number (c! "1") 1 := ⟨by decide, by simp [Digit], by decide⟩
theorem n2 : Number (c! "2") 2 := ⟨by decide, by simp [Digit], by decide⟩
theorem n4 : Number (c! "4") 4 := ⟨by decide, by simp [Digit], by decide⟩

/-- The hypotheses of C137_part: the first two bytes, without the status in the signature. -/
example (now : UInt64) : verifySignature now (.res (partOf false (c! "bytes 0-1/5") (utf8 (c! "he")))) sumVerify none (some first) =
    verifySignature now (.res (whole false)) sumVerify none (some first) :=
  (C137_part (part_of false n0 n1 (by decide)) (whole_wf _) first_wf
    (fun l hl kv hkv i hi _ => by
      rw [whole_carries hl kv hkv] at hi
      refine ⟨whole_clear hi, ?_⟩
      rcases whole_mem hi with ⟨h, _⟩ | rfl | rfl | rfl
      · cases h
      · simp
      · simp
      · simp) now []).2 sumVerify none

set_option maxRecDepth 20000 in
/-- They are valid, but the digest is not. -/
example : verifySignature 0 (.res (partOf false (c! "bytes 0-1/5") (utf8 (c! "he")))) sumVerify none (some first) = .ok (c! "sig") ∧
    (partOf false (c! "bytes 0-1/5") (utf8 (c! "he"))).verifyContentDigest = .err .invalidContentDigest := by decide +kernel

set_option maxRecDepth 20000 in
/-- With the status in the signature, it is not valid for a part. -/
example : verifySignature 0 (.res (whole true)) sumVerify none (some first) = .ok (c! "sig") ∧
    verifySignature 0 (.res (partOf true (c! "bytes 0-1/5") (utf8 (c! "he")))) sumVerify none (some first) = .err .invalidSignature := by decide +kernel

theorem joined_lines (range : Str) (c : Bytes) : ∀ f : Str, f.map Char.toLower ∉ Cache.partNames →
    Wire.linesOf joined.headers f = Wire.linesOf (partOf true range c).headers f :=
  fun _ hf => (line_before fun e => hf (by rw [e]; decide)).symm

/-- The hypotheses of C137_joined: two parts. -/
example (now : UInt64) : verifySignature now (.res joined) sumVerify none (some first) = verifySignature now (.res (whole true)) sumVerify none (some first) := by
  have h1 := part_of true n0 n1 (by decide)
  have h2 := part_of true n2 n4 (by decide)
  have row := Cache.Row.more h1 (.last h2 (by decide +kernel))
  refine (C137_joined row (s' := joined) ⟨by decide +kernel, ⟨_, .cons h1.body (.cons h2.body .nil), by decide +kernel⟩, by decide +kernel,
    ⟨_, List.mem_cons_self, joined_lines _ _⟩, whole_wf _⟩ (whole_wf _) first_wf (fun l hl kv hkv i hi _ => ?_) now []).2.2.2.2 _ _
  rw [whole_carries hl kv hkv] at hi
  exact whole_clear hi

theorem whole_none (b : Bool) (f : Str) : ¬ Cache.Varies (whole b).headers f := by
  rintro ⟨v, hv, _⟩
  rw [show Wire.linesOf (whole b).headers (c! "vary") = [] by cases b <;> decide +kernel] at hv
  cases hv

theorem asked_selected : Cache.SelectedHead first (whole true) asked :=
  ⟨by decide +kernel, rfl, ⟨by decide +kernel, rfl, fun f hf => absurd hf (whole_none _ _), whole_none _ _⟩⟩

/-- The hypotheses of C137_head. -/
example (now : UInt64) : verifySignature now (.res headed) sumVerify none (some asked) = verifySignature now (.res (whole true)) sumVerify none (some first) :=
  (C137_head (s := whole true) (s' := headed) ⟨rfl, rfl, fun _ => rfl, whole_wf _⟩ asked_selected (first_wf _ rfl) (first_wf first rfl) (whole_wf _)
    (fun l hl kv hkv i hi hq => by
      rw [whole_carries hl kv hkv] at hi
      rcases whole_mem hi with ⟨_, rfl⟩ | rfl | rfl | rfl
      · simp at hq
      · simp at hq
      · simp at hq
      · exact ⟨⟨(by intro f h; cases h), by intro h; cases h⟩, by simp⟩) now []).2 sumVerify none

set_option maxRecDepth 20000 in
/-- It is valid, and the digest is not. -/
example : verifySignature 0 (.res headed) sumVerify none (some asked) = .ok (c! "sig") ∧ headed.verifyContentDigest = .err .invalidContentDigest := by decide +kernel

theorem first_request {m : Str} (hm : OneLine m) : WfRequest { first with method := m } :=
  ⟨first_wf first rfl, hm, ⟨(by intro s h; cases h; decide), (by intro s h; cases h; decide), (show OneLine first.uri.pathData by decide), (by intro s h; cases h; decide)⟩⟩

theorem line_params {ids : List CId} (h : ids = wholeIds true ∨ ids = [⟨.derived .method, [.req]⟩]) : OneLineParams (exParams ids) := by
  refine ⟨(by rintro s ⟨⟩), (by rintro s ⟨⟩), (by rintro s ⟨⟩), (by rintro s ⟨⟩), fun i hi => ?_⟩
  rcases h with rfl | rfl
  · rcases whole_mem hi with ⟨_, rfl⟩ | rfl | rfl | rfl <;> exact ⟨(by intro f e; cases e <;> decide), (by simp), (by simp)⟩
  · rw [show i = ⟨.derived .method, [.req]⟩ from List.mem_singleton.1 hi]
    exact ⟨(by intro f e; cases e), (by simp), (by simp)⟩

theorem base_exists {ids : List CId} (h : (buildBase (.res (whole true)) (exParams ids) (some first)).isOk = true) :
    ∃ t, Wire.BaseOf (.res (whole true)) (some first) (exParams ids) t := by
  cases hb : buildBase (.res (whole true)) (exParams ids) (some first) with
  | ok b => exact ⟨_, wireBaseOf_iff.2 ((buildBase_spec (m := .res (whole true)) (whole_wf true) first_wf _).1 ⟨b, hb, rfl⟩)⟩
  | err e => rw [hb] at h; cases h
  | panic => rw [hb] at h; cases h

/-- The hypotheses of C137_part_status. -/
example : ∃ t, Wire.BaseOf (.res (whole true)) (some first) (exParams (wholeIds true)) t ∧
    ¬ Wire.BaseOf (.res (partOf true (c! "bytes 0-1/5") (utf8 (c! "he")))) (some first) (exParams (wholeIds true)) t := by
  obtain ⟨t, ht⟩ := base_exists (ids := wholeIds true) (by decide +kernel)
  have hr : ∀ r, some first = some r → WfRequest r := by intro r e; injection e with e; exact e ▸ first_request (m := c! "GET") (by decide)
  exact ⟨t, ht, C137_part_status (part_of true n0 n1 (by decide)) (whole_wf _) hr hr (line_params (Or.inl rfl)) (i := ⟨.derived .status, []⟩) (by simp [exParams, wholeIds]) rfl ht⟩

/-- The hypotheses of C137_head_method. -/
example : ∃ t, Wire.BaseOf (.res (whole true)) (some first) (exParams [⟨.derived .method, [.req]⟩]) t ∧
    ¬ Wire.BaseOf (.res headed) (some asked) (exParams [⟨.derived .method, [.req]⟩]) t := by
  obtain ⟨t, ht⟩ := base_exists (ids := [⟨.derived .method, [.req]⟩]) (by decide +kernel)
  exact ⟨t, ht, C137_head_method asked_selected (first_request (m := c! "GET") (by decide)) (first_request (by decide)) (whole_wf _) (s' := headed) (whole_wf true)
    (line_params (Or.inr rfl)) (i := ⟨.derived .method, [.req]⟩) (by simp [exParams]) rfl (by simp) ht⟩

set_option maxRecDepth 20000 in
/-- The line of the digest. -/
theorem whole_states (b : Bool) : ∃ t v, (Wire.linesOf (whole b).headers (c! "content-digest")).head? = some v ∧ States v t (hashOf t (utf8 (c! "hello"))) := by
  obtain ⟨_, c, t, v, h1, h2, h3⟩ := (C20_response_verify_exact (whole b) (whole b)).1 (by cases b <;> decide +kernel)
  rw [show (whole b).body = .data (utf8 (c! "hello")) by cases b <;> decide +kernel] at h1
  injection h1 with h1
  subst h1
  refine ⟨t, v, ?_, h3⟩
  rw [← h2, lines_fieldLines (whole_wf b)]
  rfl

set_option maxRecDepth 20000 in
/-- The hypotheses of C137_part_digest. -/
example : ¬ ∃ x, (partOf true (c! "bytes 0-1/5") (utf8 (c! "he"))).verifyContentDigest = .ok x := by
  obtain ⟨t, v, h1, h2⟩ := whole_states true
  refine fun h => absurd ((C137_part_digest (part_of true n0 n1 (by decide)) h1 h2).1.1 h) ?_
  cases t <;> decide +kernel

set_option maxRecDepth 20000 in
/-- The hypotheses of C137_head_digest. -/
example : ¬ ∃ x, headed.verifyContentDigest = .ok x := by
  obtain ⟨t, v, h1, h2⟩ := whole_states true
  refine fun h => absurd ((C137_head_digest (s := whole true) (s' := headed) ⟨rfl, rfl, fun _ => rfl, whole_wf _⟩ h1 h2).1 h) ?_
  cases t <;> decide +kernel

end Ex137

end Verif
