import Verif.Spec.Path
import Verif.Props.C129
/-!
C133: signed requests and answers through proxies.
-/
namespace Verif
open Sfv Spec Arrival Http1 Http2

/-! ### Requests -/

theorem whole_target {m : Str} {u u' : Uri} (e : originForm u' = originForm u) (hu : Path.Whole u) (hu' : Path.Whole u') (hm : m ≠ c! "CONNECT") :
    Wire.targetText m u' = Wire.targetText m u := by
  have key : ∀ {u : Uri}, Path.Whole u → Wire.targetText m u = Wire.targetText m (originForm u) := by
    intro u hu
    unfold Wire.targetText
    rw [if_neg hm, if_neg hm]
    split
    · rfl
    have h1 : ¬ ((originForm u).scheme = none ∧ (originForm u).authority ≠ none) := by simp [originForm]
    have h2 : ¬ (u.scheme = none ∧ u.authority ≠ none) := fun h => h.2 (hu h.1)
    rw [if_neg h1, if_neg h2]
    have hq : Wire.queryText (originForm u) = Wire.queryText u := rfl
    by_cases hp : u.pathData = []
    · have hp' : (originForm u).pathData = c! "/" := by simp [originForm, hp]
      rw [hq, hp, hp']
      unfold Wire.queryText
      cases u.query <;> simp
    · have hp' : (originForm u).pathData = u.pathData := by simp [originForm, hp]
      rw [hq, hp']
  rw [key hu, key hu', e]

/-- A step, and any number of steps, is as a proxy. -/
theorem step_passes {ns : List Str} {r r' : Request} (h : Path.Step ns r r') : Path.Passes ns r r' ∧ r'.body = r.body := by
  cases h with
  | @http1 extra _ _ wire hr hw hs hread hb =>
    obtain ⟨_, _, a3⟩ := reads_eq hr hw hs hread
    have ha := C126_arrives hr hw hs hread
    refine ⟨⟨ha.method, ?_, ?_, ha.fields, onWay_wf a3 hw⟩, hb⟩
    · rw [ha.uri]
      by_cases e : r.uri.pathData = [] <;> simp [originForm, e]
    · rw [ha.uri]; intro _; rfl
  | @http2 extra _ _ fs hr hw hs ho hx hsent hread hb =>
    obtain ⟨hc, s, a, r0, _, _, rfl, ha⟩ := C129_arrives hr ⟨hw, hs, ho⟩ hx hsent hread
    refine ⟨⟨ha.method, ?_, (by intro e; cases e), ha.fields, hc.wf⟩, hb⟩
    show originForm { r0.uri with scheme := some s, authority := some a } = _
    rw [ha.uri]
    by_cases e : r.uri.pathData = [] <;> simp [originForm, e]
  | proxy h hb => exact ⟨h, hb⟩

theorem passes_trans {a b : List Str} {r r1 r2 : Request} (h : Path.Passes a r r1) (h' : Path.Passes b r1 r2) : Path.Passes (a ++ b) r r2 where
  method := h'.method.trans h.method
  target := h'.target.trans h.target
  whole := h'.whole
  fields := by
    intro f hf
    rw [List.mem_append, not_or] at hf
    exact (h'.fields f hf.2).trans (h.fields f hf.1)
  wf := h'.wf

/-- C133: after any number of steps the request has its method, path and query, its body, and all lines of other names. -/
theorem C133_way {ns : List Str} {r r' : Request} (h : Path.Way ns r r') (hu : Path.Whole r.uri) (hw : WfHeaders r.headers) : Path.Passes ns r r' ∧ r'.body = r.body := by
  induction h with
  | here => exact ⟨⟨rfl, rfl, hu, fun _ _ => rfl, hw⟩, rfl⟩
  | step h1 _ ih =>
    obtain ⟨g1, g2⟩ := step_passes h1
    obtain ⟨g3, g4⟩ := ih g1.whole g1.wf
    exact ⟨passes_trans g1 g3, g4.trans g2⟩

/-- C133: what a component is worth, if it is not taken from the changed lines: the same at the end of the way, and for components of scheme and authority if these
are the same. -/
theorem C133_value {ns : List Str} {r r' : Request} (h : Path.Passes ns r r') (hu : Path.Whole r.uri) (hm : r.method ≠ c! "CONNECT") {i : CId} (hc : Clear ns i)
    (hi : ¬ Lost i ∨ (r'.uri.scheme = r.uri.scheme ∧ r'.uri.authority = r.uri.authority ∧ r.uri.scheme ≠ none)) (v : Str) :
    Wire.ValueIn (.req r') i v ↔ Wire.ValueIn (.req r) i v := by
  have hq : r'.uri.query = r.uri.query := show (originForm r'.uri).query = _ by rw [h.target]; rfl
  have hp : (if r'.uri.pathData = [] then c! "/" else r'.uri.pathData) = if r.uri.pathData = [] then c! "/" else r.uri.pathData :=
    show (originForm r'.uri).pathData = _ by rw [h.target]; rfl
  obtain ⟨n, ps⟩ := i
  unfold Wire.ValueIn
  cases n with
  | field f => simp only [Wire.FieldValue, Wire.LinesText, h.fields f (hc.1 f rfl)]
  | derived d =>
    simp only
    refine and_congr_right fun _ => ?_
    unfold Wire.RequestValue
    cases d with
    | method => simp only [h.method]
    | targetUri =>
      rcases hi with hi | ⟨e1, e2, e3⟩
      · exact absurd (Or.inr (Or.inr rfl)) hi
      · have hqt : Wire.queryText r'.uri = Wire.queryText r.uri := by unfold Wire.queryText; rw [hq]
        have : Wire.uriText r'.uri = Wire.uriText r.uri := by
          unfold Wire.uriText
          rw [hqt, e1, e2, hq]
          simp only [ne_eq, e3, not_false_eq_true, or_true, and_true]
          rw [hp]
        simp only [this]
    | authority =>
      rcases hi with hi | ⟨_, e2, _⟩
      · exact absurd (Or.inl rfl) hi
      · simp only [e2]
    | scheme =>
      rcases hi with hi | ⟨e1, _⟩
      · exact absurd (Or.inr (Or.inl rfl)) hi
      · simp only [e1]
    | requestTarget => simp only [h.method, whole_target h.target hu h.whole hm]
    | path => simp only [hp]
    | query => simp only [hq]
    | queryParam => simp only [hq]
    | status => exact Iff.rfl
    | signatureParams => simp only [Wire.SigParamsValue, h.fields (c! "signature-input") (hc.2 rfl)]

/-- Both ends have the same scheme and authority, or nothing covered is taken from them. -/
def Kept (ns : List Str) (r r' : Request) (i : CId) : Prop :=
  Clear ns i ∧ (¬ Lost i ∨ (r'.uri.scheme = r.uri.scheme ∧ r'.uri.authority = r.uri.authority ∧ r.uri.scheme ≠ none))

/-- C133: signatures are verified at the end of the way with the result at its beginning, if what they cover was kept; and so is the digest of the body. -/
theorem C133_verify {ns : List Str} {r r' : Request} (h : Path.Way ns r r') (hu : Path.Whole r.uri) (hm : r.method ≠ c! "CONNECT") (hw : WfHeaders r.headers)
    (ht : Untouched ns) (hc : ∀ l, Wire.Carries r.headers l → ∀ kv ∈ l, ∀ i ∈ kv.2.params.covered, Kept ns r r' i) (now : UInt64)
    (keys : List (VerifyingKey × Option Str)) :
    verifySignatures now (.req r') keys none = verifySignatures now (.req r) keys none ∧
    ∀ k id, verifySignature now (.req r') k id none = verifySignature now (.req r) k id none := by
  obtain ⟨hp, _⟩ := C133_way h hu hw
  have he := extract_of_lines (m := .req r) (m' := .req r') hw hp.wf (hp.fields (c! "signature-input") ht.1).symm (hp.fields (c! "signature") ht.2).symm
  obtain ⟨h1, h2⟩ := verify_congr_base (m := .req r) (m' := .req r') (rf := none) (rf' := none) hw hp.wf (by simp) (by simp) he (fun l hl kv hkv t => by
    have hcl := hc l (wireCarries_iff.2 ((extractSignatureHeaders_ok (m := .req r) hw l).1 hl)) kv hkv
    rw [← wireBaseOf_iff, ← wireBaseOf_iff]
    refine wireBase_congr (fun i hi v => ?_) t
    have := C133_value hp hu hm (hcl i hi).1 (hcl i hi).2 v
    unfold Wire.HasValue
    simp [this]) now keys
  exact ⟨h1.symm, fun k id => (h2 k id).symm⟩

theorem C133_digest {ns : List Str} {r r' : Request} (h : Path.Way ns r r') (hu : Path.Whole r.uri) (hw : WfHeaders r.headers) (hc : c! "content-digest" ∉ ns) :
    ((∃ x, r'.verifyContentDigest = .ok x) ↔ ∃ x, r.verifyContentDigest = .ok x) ∧ ∀ e, r'.verifyContentDigest = .err e ↔ r.verifyContentDigest = .err e := by
  obtain ⟨hp, hb⟩ := C133_way h hu hw
  have e := extractDigest_lines hw hp.wf (hp.fields (c! "content-digest") hc)
  unfold Request.verifyContentDigest verifyDigest
  rw [e, hb]
  cases hx : extractDigest r.headers with
  | ok te =>
    cases hbd : r.body with
    | data body =>
      by_cases hd : isEqualDigest (deriveDigest body te.1) te.2 = true
      · simp [bind, Res.bind, hd]
      · simp [bind, Res.bind, hd]
    | fail => simp [bind, Res.bind]
  | err e => simp [bind, Res.bind]
  | panic => simp [bind, Res.bind]

/-! ### Answers -/

theorem back_lines {ns : List Str} {s s' : Response} (h : Path.Back ns s s') :
    s'.status = s.status ∧ (∀ f : Str, f.map Char.toLower ∉ ns → Wire.linesOf s'.headers f = Wire.linesOf s.headers f) ∧ WfHeaders s'.headers ∧ s'.body = s.body := by
  cases h with
  | @http1 extra reason _ _ wire hn hr hw hs hread hb =>
    obtain ⟨a1, a3⟩ := readsRes_eq hn hr hw hs hread
    exact ⟨a1, fun f hf => onWay_clear hw a3 hf, onWay_wf a3 hw, hb⟩
  | @http2 extra _ _ fs hn hw hs ho hx hsent hread hb =>
    obtain ⟨lt, g1, g2, g3⟩ := C129_answered hn ⟨hw, hs, ho⟩ hx hsent
    obtain ⟨a1, a3⟩ := C129_unique_response hread (g3 s'.body)
    exact ⟨a1, fun f hf => by rw [a3]; exact changed2_same g1 hw hf, a3 ▸ g2.wf, hb⟩
  | proxy h1 h2 h3 h4 => exact ⟨h1, h2, h3, h4⟩

/-- C133: after any number of steps the answer has its status, its body, and all lines of other names. -/
theorem C133_back {ns : List Str} {s s' : Response} (h : Path.WayBack ns s s') (hw : WfHeaders s.headers) :
    s'.status = s.status ∧ (∀ f : Str, f.map Char.toLower ∉ ns → Wire.linesOf s'.headers f = Wire.linesOf s.headers f) ∧ WfHeaders s'.headers ∧ s'.body = s.body := by
  induction h with
  | here => exact ⟨rfl, fun _ _ => rfl, hw, rfl⟩
  | step h1 _ ih =>
    obtain ⟨a1, a2, a3, a4⟩ := back_lines h1
    obtain ⟨b1, b2, b3, b4⟩ := ih a3
    refine ⟨b1.trans a1, fun f hf => ?_, b3, b4.trans a4⟩
    rw [List.mem_append, not_or] at hf
    exact (b2 f hf.2).trans (a2 f hf.1)

/-- What an answer covers was kept: components of the request on the way there, the others on the way back. -/
def KeptBoth (there back : List Str) (r r' : Request) (i : CId) : Prop := if CParam.req ∈ i.params then Kept there r r' i else Clear back i

/-- C133: the server signs its answer with the request that came to it, and the client verifies what comes back with the request that it sent; each gets the same
result. -/
theorem C133_answer {there back : List Str} {r r' : Request} {s s' : Response} (h : Path.Way there r r') (hu : Path.Whole r.uri) (hm : r.method ≠ c! "CONNECT")
    (hw : WfHeaders r.headers) (h' : Path.WayBack back s s') (hs : WfHeaders s.headers) (ht : Untouched back)
    (hc : ∀ l, Wire.Carries s.headers l → ∀ kv ∈ l, ∀ i ∈ kv.2.params.covered, KeptBoth there back r r' i) (now : UInt64) (keys : List (VerifyingKey × Option Str)) :
    verifySignatures now (.res s') keys (some r) = verifySignatures now (.res s) keys (some r') ∧
    ∀ k id, verifySignature now (.res s') k id (some r) = verifySignature now (.res s) k id (some r') := by
  obtain ⟨hp, _⟩ := C133_way h hu hw
  obtain ⟨b1, b2, b3, _⟩ := C133_back h' hs
  have hf : ∀ q, some r = some q → WfHeaders q.headers := by intro q e; injection e with e; exact e ▸ hw
  have hf' : ∀ q, some r' = some q → WfHeaders q.headers := by intro q e; injection e with e; exact e ▸ hp.wf
  have he := extract_of_lines (m := .res s) (m' := .res s') hs b3 (b2 (c! "signature-input") ht.1).symm (b2 (c! "signature") ht.2).symm
  obtain ⟨g1, g2⟩ := verify_congr_base (m := .res s) (m' := .res s') hs b3 hf' hf he (fun l hl kv hkv t => by
    have hb := hc l (wireCarries_iff.2 ((extractSignatureHeaders_ok (m := .res s) hs l).1 hl)) kv hkv
    rw [← wireBaseOf_iff, ← wireBaseOf_iff]
    refine wireBase_congr (fun i hi v => ?_) t
    have hb := hb i hi
    unfold KeptBoth at hb
    unfold Wire.HasValue
    by_cases hq : CParam.req ∈ i.params
    · rw [if_pos hq] at hb
      have := C133_value hp hu hm hb.1 hb.2 v
      simp [hq, this]
    · rw [if_neg hq] at hb
      have := response_value (s := s) (s' := s') b1 b2 hb v
      simp [hq, this]) now keys
  exact ⟨g1.symm, fun k id => (g2 k id).symm⟩

/-! ### The whole exchange -/

/-- C133: the client signs a request and sends it through proxies; the server finds it valid. -/
theorem C133_request {p : SigParams} {name : Option Str} {sk : SigningKey} {vk : VerifyingKey} {now : UInt64} {r r1 r2 : Request}
    (hq : Seal [] r.headers p name sk vk now) (hu : Path.Whole r.uri) (hm : r.method ≠ c! "CONNECT") (hsign : r.setSignature p sk name = (r1, .ok ()))
    {there : List Str} (hway : Path.Way there r1 r2) (ht : Untouched there) (hc : ∀ i ∈ p.covered, Kept there r1 r2 i) :
    r2.verifySignature now vk none = .ok (name.getD (c! "sig")) := by
  have hw : WfHeaders r.headers := hq.wf
  obtain ⟨f1, f2⟩ := seal_fresh hq
  have h1 := C01_request (now := now) r hw f1 f2 hq.params hq.notSelf hq.label hq.pair hsign hq.fresh (id := none) (Or.inl rfl)
  injection hsign with e1 e2
  subst e1
  have hset : setSignatures (.req r) [(p, sk, name)] none = ((setSignatures (.req r) [(p, sk, name)] none).1, .ok ()) := Prod.ext rfl e2
  obtain ⟨ls, g1, g2⟩ := (C65_sign (m := .req r) hw (by simp) _ _).1 hset
  obtain ⟨_, c2, _, _⟩ := all_added g1 (legal_start hq.label)
  have hw1 : WfHeaders (setSignatures (.req r) [(p, sk, name)] none).1 := g2 ▸ wf_append (a := (Msg.req r).headers) hw c2
  have h2 := (C133_verify hway hu hm hw1 ht (fun k hk kv hkv i hi =>
    hc i (by rwa [seal_carries (m := .req r) hw (by simp) f1 f2 hq.params hq.notSelf hq.label hset hk kv hkv] at hi)) now []).2 vk none
  exact h2.trans h1

/-- C133: the server signs an answer with the request that came to it, and sends it back through proxies; the client finds it valid for the request that it sent. -/
theorem C133_exchange {p' : SigParams} {name' : Option Str} {sk' : SigningKey} {vk' : VerifyingKey} {now' : UInt64} {r1 r2 : Request} {s s1 s2 : Response}
    (hw : WfHeaders r1.headers) (hu : Path.Whole r1.uri) (hm : r1.method ≠ c! "CONNECT") {there back : List Str} (hway : Path.Way there r1 r2)
    (ha : Seal [] s.headers p' name' sk' vk' now') (hsign : s.setSignature p' sk' name' (some r2) = (s1, .ok ())) (hback : Path.WayBack back s1 s2) (ht : Untouched back)
    (hc : ∀ i ∈ p'.covered, KeptBoth there back r1 r2 i) : s2.verifySignature now' vk' none (some r1) = .ok (name'.getD (c! "sig")) := by
  have hws : WfHeaders s.headers := ha.wf
  have hf2 : ∀ q, some r2 = some q → WfHeaders q.headers := by intro q e; injection e with e; exact e ▸ (C133_way hway hu hw).1.wf
  obtain ⟨f1, f2⟩ := seal_fresh ha
  have h1 := C02_response (now := now') s hws hf2 f1 f2 ha.params ha.notSelf ha.label ha.pair hsign ha.fresh (id := none) (Or.inl rfl)
  injection hsign with e1 e2
  subst e1
  have hset : setSignatures (.res s) [(p', sk', name')] (some r2) = ((setSignatures (.res s) [(p', sk', name')] (some r2)).1, .ok ()) := Prod.ext rfl e2
  obtain ⟨ls, g1, g2⟩ := (C65_sign (m := .res s) hws hf2 _ _).1 hset
  obtain ⟨_, c2, _, _⟩ := all_added g1 (legal_start ha.label)
  have hw1 : WfHeaders (setSignatures (.res s) [(p', sk', name')] (some r2)).1 := g2 ▸ wf_append (a := (Msg.res s).headers) hws c2
  have h2 := (C133_answer hway hu hm hw hback hw1 ht (fun k hk kv hkv i hi =>
    hc i (by rwa [seal_carries (m := .res s) hws hf2 f1 f2 ha.params ha.notSelf ha.label hset hk kv hkv] at hi)) now' []).2 vk' none
  exact h2.trans h1

/-! ### An example -/

namespace Ex133
open Ex124 Ex126 Ex128 Ex129

/-- A proxy's line. -/
def via : Headers := [(c! "via", utf8 (c! "2 proxy"))]
/-- The proxy in front of the server uses another authority inside, and the server puts the public one back. -/
def inside : Request := { fullGot with uri := { sent.uri with scheme := some (c! "http"), authority := some (c! "inner.test") }, headers := via ++ fullGot.headers }
def innerHost : Headers := [(c! "host", utf8 (c! "inner.test"))]
def atServer : Request := ⟨c! "GET", originForm sent.uri, innerHost ++ inside.headers, .data []⟩
def served : Request := restored (c! "https") (c! "Example.com") atServer
def theNames : List Str := changed2 agent ++ ([c! "via"] ++ (changed innerHost inside.headers ++ ([] ++ [])))

def answered : Response := (exRes.setSignature (exParams backIds) (toySign 9) none (some served)).1
def atProxy : Response := { answered with headers := via ++ answered.headers }
def backFields3 : Headers := (c! ":status", utf8 (c! "404")) :: atProxy.headers
def backNames : List Str := changed [] answered.headers ++ ([c! "via"] ++ (changed2 [] ++ []))

theorem names3 {h : Headers} (hn : ∀ kv ∈ h, kv.1 ∈ [c! "date", c! "user-agent", c! "via", c! "host", c! "cookie", c! "signature", c! "signature-input"]) : WfHeaders h := by
  intro kv hkv
  have := hn kv hkv
  simp only [List.mem_cons, List.not_mem_nil, or_false] at this
  rcases this with e | e | e | e | e | e | e <;> rw [e] <;> exact ⟨by decide, by decide, by decide⟩

theorem via_lines (h : Headers) : ∀ f : Str, f.map Char.toLower ∉ [c! "via"] → Wire.linesOf (via ++ h) f = Wire.linesOf h f := by
  intro f hf
  rw [linesOf_append]
  have : Wire.linesOf via f = [] := by
    have hne : ¬ (c! "via").map Char.toLower = f.map Char.toLower := by
      intro e
      exact hf (by rw [← e]; decide)
    simp only [Wire.linesOf, via, List.filter_cons, hne, decide_false, Bool.false_eq_true, if_false, List.filter_nil, List.map_nil]
  rw [this, List.nil_append]

theorem fullSeal0 : Seal [] full.headers (exParams fullIds) none (toySign 7) (toyVerify 7) 100 := by
  have h := fullSeal
  exact ⟨names2 (by decide +kernel), lines_ok (by decide +kernel), by decide +kernel, by decide +kernel, h.params, h.notSelf, h.label, h.pair, h.fresh⟩

theorem insideSendable : Sendable inside where
  method := (sendable []).method
  path := Or.inr rfl
  mark := show '?' ∉ sent.uri.pathData by decide
  pathChars := show ∀ c ∈ sent.uri.pathData, Visible c by decide
  queryChars q hq := by cases hq; decide

theorem schemeThere : fullSigned.uri.scheme ≠ none := by intro e; cases e

theorem theWay : Path.Way theNames fullSigned served := by
  refine .step (r1 := fullGot) (.http2 (fs := fullFields) (sendable _) (names2 (by decide +kernel)) (lines_ok (by decide +kernel)) (outer_ok (by decide +kernel))
    (by decide +kernel) fullSent fullReads rfl) (.step (r1 := inside) (.proxy ⟨rfl, rfl, (by intro e; cases e), via_lines _, names3 (by decide +kernel)⟩ rfl)
    (.step (r1 := atServer) (.http1 (wire := []) insideSendable (names3 (by decide +kernel)) (lines_ok (by decide +kernel)) ?_ rfl)
      (.step (r1 := served) (.proxy ⟨rfl, rfl, (by intro e; cases e), fun _ _ => rfl, names3 (by decide +kernel)⟩ rfl) .here)))
  have h := reads_written insideSendable (extra := innerHost) (names3 (by decide +kernel)) (lines_ok (by decide +kernel)) [] (.data [])
  have e : (innerHost ++ inside.headers).map (fun kv => (kv.1, stripOws kv.2)) = atServer.headers := by decide +kernel
  rw [e] at h
  exact h

set_option maxRecDepth 20000 in
theorem theWayBack : Path.WayBack backNames answered atProxy := by
  have hn : Status answered.status := ⟨by decide +kernel, by decide +kernel⟩
  have hn' : Status atProxy.status := hn
  have hw : WfHeaders ([] ++ answered.headers) := names3 (by decide +kernel)
  have hs : SendableLines ([] ++ answered.headers) := lines_ok (by decide +kernel)
  have hr : ∀ c ∈ utf8 (c! "Not Found"), ValueByte c := by decide +kernel
  refine .step (s1 := answered) (.http1 (reason := utf8 (c! "Not Found")) (wire := []) hn hr hw hs ?_ rfl) (.step (s1 := atProxy) (.proxy rfl (via_lines _) (names3 (by decide +kernel)) rfl)
    (.step (s1 := atProxy) (.http2 (extra := []) (s := atProxy) (s' := atProxy) (fs := backFields3) hn' (names3 (by decide +kernel)) (lines_ok (by decide +kernel)) (outer_ok (by decide +kernel)) (by decide)
      ⟨_, keepAll (by decide +kernel), by decide +kernel⟩
      ⟨by decide +kernel, hn', carriable_lines ⟨names3 (by decide +kernel), lines_ok (by decide +kernel), outer_ok (by decide +kernel)⟩ (by decide +kernel)⟩ rfl) .here))
  obtain ⟨h', h1, h2⟩ := C128_head hn hr hw hs
  have e : h' = answered.headers := by
    have key : ∀ {a b : Headers}, List.Forall₂ LineOnWay a b → b = a.map (fun kv => (kv.1, stripOws kv.2)) := by
      intro a b h
      induction h with
      | nil => rfl
      | cons a _ ih => rw [List.map_cons, ← ih]; exact congrArg (· :: _) (Prod.ext a.1 (stripped_eq a.2))
    rw [key h1]
    decide +kernel
  rw [e] at h2
  exact ⟨_, [], h2, rfl⟩

theorem theKept : ∀ i ∈ fullIds, Kept theNames fullSigned served i := by
  intro i hi
  refine ⟨?_, Or.inr ⟨rfl, rfl, schemeThere⟩⟩
  simp only [fullIds, List.mem_cons, List.not_mem_nil, or_false] at hi
  rcases hi with rfl | rfl | rfl | rfl
  · exact ⟨(by intro f h; cases h), by intro h; cases h⟩
  · exact ⟨(by intro f h; cases h), by intro h; cases h⟩
  · exact ⟨(by intro f h; cases h), by intro h; cases h⟩
  · exact ⟨(by intro f h; injection h with h; subst h; decide +kernel), by intro h; cases h⟩

theorem theKeptBoth : ∀ i ∈ backIds, KeptBoth theNames backNames fullSigned served i := by
  intro i hi
  simp only [backIds, List.mem_cons, List.not_mem_nil, or_false] at hi
  unfold KeptBoth
  rcases hi with rfl | rfl
  · rw [if_neg (by simp)]
    exact ⟨(by intro f h; cases h), by intro h; cases h⟩
  · rw [if_pos (by simp)]
    exact ⟨⟨(by intro f h; cases h), by intro h; cases h⟩, Or.inr ⟨rfl, rfl, schemeThere⟩⟩

theorem theUntouched : Untouched theNames ∧ Untouched backNames := by
  refine ⟨⟨by decide +kernel, by decide +kernel⟩, by decide +kernel, by decide +kernel⟩

/-- The hypotheses of the theorems: a request over HTTP/2 to a proxy that sends it on over HTTP/1.1 under another authority, and an answer back. The signatures cover
scheme, authority and target URI, which the server puts back. -/
example : served.verifySignature 100 (toyVerify 7) none = .ok (c! "sig") ∧ atProxy.verifySignature 100 (toyVerify 9) none (some fullSigned) = .ok (c! "sig") := by
  have hs1 : full.setSignature (exParams fullIds) (toySign 7) none = (fullSigned, .ok ()) := Prod.ext rfl (by decide +kernel)
  have hs2 : exRes.setSignature (exParams backIds) (toySign 9) none (some served) = (answered, .ok ()) := Prod.ext rfl (by decide +kernel)
  have hu : Path.Whole sent.uri := by intro e; cases e
  have hu1 : Path.Whole fullSigned.uri := by intro e; cases e
  exact ⟨C133_request fullSeal0 hu (by decide) hs1 theWay theUntouched.1 theKept,
    C133_exchange (names2 (by decide +kernel)) hu1 (by decide +kernel) theWay backSeal hs2 theWayBack theUntouched.2 theKeptBoth⟩

def wayIds : List CId := [⟨.derived .authority, []⟩]
def waySigned : Request := (sent.setSignature (exParams wayIds) sumSign none).1
def rewritten : Request := { waySigned with uri := { sent.uri with authority := some (c! "inner.test") } }

end Ex133

set_option maxRecDepth 20000 in
open Ex124 Ex126 Ex129 Ex133 in
/-- C133: a signature over the authority is invalid behind a proxy that sends the request on under another one, although no line of it changed; and it is valid again
where the authority is put back. -/
theorem C133_rewritten : Path.Way [] waySigned rewritten ∧ waySigned.verifySignature 0 sumVerify none = .ok (c! "sig") ∧
    rewritten.verifySignature 0 sumVerify none = .err .invalidSignature ∧
    (restored (c! "https") (c! "Example.com") rewritten).verifySignature 0 sumVerify none = .ok (c! "sig") := by
  refine ⟨.step (a := []) (b := []) (r1 := rewritten) (.proxy ⟨rfl, rfl, (by intro e; cases e), fun _ _ => rfl, wfNames (by decide +kernel)⟩ rfl) .here, by decide +kernel, by decide +kernel,
    by decide +kernel⟩

end Verif
