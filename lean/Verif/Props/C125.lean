import Verif.Spec.Relay
import Verif.Props.C124
import Verif.Props.C08
/-!
C125: a request that was signed for one server is sent to another.
-/
namespace Verif
open Sfv Spec Arrival Relay

variable {added : List Str} {r r' : Request} {m m' : Msg} {rf rf' : Option Request}

/-- If the texts are equal, so are the values of every covered component. -/
theorem same_text_value (hm : WfMsg m) (hm' : WfMsg m') (hf : ∀ r, rf = some r → WfRequest r) (hf' : ∀ r, rf' = some r → WfRequest r) {p : SigParams}
    (hp : OneLineParams p) {t : Str} (h : Wire.BaseOf m rf p t) (h' : Wire.BaseOf m' rf' p t) {i : CId} (hi : i ∈ p.covered) :
    ∃ v, Wire.HasValue m rf i v ∧ Wire.HasValue m' rf' i v := by
  have w : ∀ {m : Msg}, WfMsg m → WfHeaders m.headers := by intro m h; cases m with | req r => exact h.headers | res s => exact h
  obtain ⟨b, hb, e⟩ := (buildBase_spec (w hm) (fun r hr => (hf r hr).headers) t).2 (wireBaseOf_iff.1 h)
  obtain ⟨b', hb', e'⟩ := (buildBase_spec (w hm') (fun r hr => (hf' r hr).headers) t).2 (wireBaseOf_iff.1 h')
  obtain ⟨-, -, -, vs, h1, h2⟩ := C08_unambiguous hm hm' hf hf' hp hp hb hb' (by rw [SigBase.bytes, SigBase.bytes, e, e'])
  clear hb hb' h h' e e' hp
  generalize p.covered = is at *
  induction h1 with
  | nil => cases hi
  | cons a _ ih =>
    cases h2 with
    | cons b h2 =>
      rcases List.mem_cons.1 hi with rfl | hi
      · exact ⟨_, wireHasValue_iff.2 a, wireHasValue_iff.2 b⟩
      · exact ih hi h2

/-! ### Servers that verify requests as they come -/

theorem redirected_value {b : Str} (h : Redirected b r r') {i : CId} (hi : ¬ OfHost i) (v : Str) : Wire.ValueIn (.req r') i v ↔ Wire.ValueIn (.req r) i v := by
  obtain ⟨n, ps⟩ := i
  unfold Wire.ValueIn
  cases n with
  | field f => simp only [Wire.FieldValue, Wire.LinesText, h.fields f (fun e => hi ⟨f, rfl, e⟩)]
  | derived d =>
    have e : Wire.linesOf r'.headers (c! "signature-input") = Wire.linesOf r.headers (c! "signature-input") := h.fields _ (by decide)
    cases d <;> simp only [Wire.RequestValue, Wire.SigParamsValue, h.method, h.uri, e]

/-- C125: if no signature covers the field Host, every server gives the same answer, also if `@authority` and `@target-uri` are covered. -/
theorem C125_relay {b : Str} (h : Redirected b r r') (hw : WfHeaders r.headers) (hw' : WfHeaders r'.headers)
    (hc : ∀ l, Wire.Carries r.headers l → ∀ kv ∈ l, ∀ i ∈ kv.2.params.covered, ¬ OfHost i) (now : UInt64) (keys : List (VerifyingKey × Option Str)) :
    verifySignatures now (.req r') keys none = verifySignatures now (.req r) keys none ∧
    ∀ k id, verifySignature now (.req r') k id none = verifySignature now (.req r) k id none := by
  have he := extract_of_lines (m := .req r) (m' := .req r') hw hw' (h.fields (c! "signature-input") (by decide)).symm (h.fields (c! "signature") (by decide)).symm
  obtain ⟨h1, h2⟩ := verify_congr_base (m := .req r) (m' := .req r') (rf := none) (rf' := none) hw hw' (by simp) (by simp) he
    (fun l hl kv hkv t => by
      have hcl := hc l (wireCarries_iff.2 ((extractSignatureHeaders_ok (m := .req r) hw l).1 hl)) kv hkv
      rw [← wireBaseOf_iff, ← wireBaseOf_iff]
      refine wireBase_congr (fun i hi v => ?_) t
      unfold Wire.HasValue
      rw [redirected_value h (hcl i hi)]
      simp) now keys
  exact ⟨h1.symm, fun k id => (h2 k id).symm⟩

theorem hostName_text {a : Str} (h : HostName a) : Wire.LineText (utf8 a) a := by
  have e : HostName a → (utf8 a).map UInt8.toNat = a.map Char.toNat := by
    intro h
    rw [utf8_ascii (fun c hc => by have := h c hc; omega), List.map_map]
    refine List.map_congr_left fun c hc => ?_
    have := h c hc
    simp only [Function.comp, UInt8.toNat_ofNat']
    omega
  refine ⟨fun b hb => ?_, (e h).symm⟩
  have hb' : b.toNat ∈ (utf8 a).map UInt8.toNat := List.mem_map_of_mem hb
  rw [e h] at hb'
  obtain ⟨c, hc, hcb⟩ := List.mem_map.1 hb'
  have := h c hc
  omega

theorem host_value {a : Str} (ha : HostName a) (h : Wire.linesOf r.headers (c! "host") = [utf8 a]) {f : Str} (hf : f.map Char.toLower = c! "host") :
    Wire.HasValue (.req r) none ⟨.field f, []⟩ a := by
  refine Or.inl ⟨by simp, [a], [a], ?_, .done, by simp [Wire.commas]⟩
  have e : Wire.linesOf r.headers f = Wire.linesOf r.headers (c! "host") := by
    unfold Wire.linesOf
    rw [hf]
    rfl
  unfold Wire.LinesText
  rw [e, h]
  exact .cons (hostName_text ha) .nil

/-- C125: if a signature covers Host, no other server accepts it. -/
theorem C125_host {a b : Str} (h : Redirected b r r') (hr : Wire.linesOf r.headers (c! "host") = [utf8 a]) (ha : HostName a) (hb : HostName b) (hn : a ≠ b)
    (hw : WfRequest r) (hw' : WfRequest r') {x : SigHeaders} (hp : OneLineParams x.params) {f : Str} (hf : f.map Char.toLower = c! "host")
    (hx : (⟨.field f, []⟩ : CId) ∈ x.params.covered) {t : Str} (ht : Wire.BaseOf (.req r) none x.params t)
    {k : VerifyingKey} (hk : ∀ d, k.verify d x.signature = .ok () → d = utf8 t) (now : UInt64) (id : Option Str) :
    ¬ Wire.Checked now (.req r') none k id x (.ok ()) := by
  rintro ⟨u, hu, _, _, hv⟩
  have e := utf8_inj (hk _ hv)
  subst e
  obtain ⟨v, h1, h2⟩ := same_text_value (m := .req r) (m' := .req r') hw hw' (by simp) (by simp) hp ht hu hx
  have e1 := wireValue_unique (m := .req r) hw.headers (by simp) h1 (host_value ha hr hf)
  have e2 := wireValue_unique (m := .req r') hw'.headers (by simp) h2 (host_value hb h.host hf)
  exact hn (e1.symm.trans e2)

/-! ### Servers that put their own name into the URI -/

theorem append_mid {x y z : Str} : x ++ z = y ++ z ↔ x = y := ⟨List.append_cancel_right, fun h => by rw [h]⟩

theorem uriText_absolute {u : Uri} {s a : Str} (hs : u.scheme = some s) (ha : u.authority = some a) :
    Wire.uriText u = s ++ c! "://" ++ a ++ (if u.pathData = [] then c! "/" else u.pathData) ++ Wire.queryText u := by
  unfold Wire.uriText
  rw [hs, ha]
  by_cases e : u.pathData = [] <;> simp [e]

/-- What the server `s' :// b` has of a component that is taken from scheme or authority. -/
theorem server_lost (h : Arrives added r r') {s a s' b : Str} (hs : r.uri.scheme = some s) (ha : r.uri.authority = some a) {i : CId} (hi : Lost i)
    {v : Str} (hv : Wire.ValueIn (.req r) i v) : Wire.ValueIn (.req (restored s' b r')) i v ↔ Matches s a s' b i := by
  obtain ⟨n, ps⟩ := i
  have hq : Wire.queryText (restored s' b r').uri = Wire.queryText r.uri := by
    show Wire.queryText { r'.uri with scheme := some s', authority := some b } = _
    rw [h.uri]; rfl
  have hpd : (restored s' b r').uri.pathData = if r.uri.pathData = [] then c! "/" else r.uri.pathData := by
    show r'.uri.pathData = _
    rw [h.uri]; rfl
  rcases hi with rfl | rfl | rfl
  · obtain ⟨h1, h2⟩ := hv
    have h2 : v = (r.uri.authority.getD []).map Char.toLower := h2
    rw [ha] at h2
    subst h2
    constructor
    · rintro ⟨_, e⟩; exact ⟨fun _ => e, (by rintro ⟨⟩), (by rintro ⟨⟩)⟩
    · rintro ⟨e, _⟩; exact ⟨h1, e rfl⟩
  · obtain ⟨h1, h2⟩ := hv
    have h2 : v = (r.uri.scheme.getD []).map Char.toLower := h2
    rw [hs] at h2
    subst h2
    constructor
    · rintro ⟨_, e⟩; exact ⟨(by rintro ⟨⟩), fun _ => e, (by rintro ⟨⟩)⟩
    · rintro ⟨_, e, _⟩; exact ⟨h1, e rfl⟩
  · obtain ⟨h1, h2⟩ := hv
    have e : v = Wire.uriText (restored s' b r').uri ↔ s ++ c! "://" ++ a = s' ++ c! "://" ++ b := by
      have h2 : v = Wire.uriText r.uri := h2
      rw [h2, uriText_absolute hs ha, uriText_absolute (u := (restored s' b r').uri) rfl rfl, hq, hpd]
      have e2 : (if (if r.uri.pathData = [] then c! "/" else r.uri.pathData) = [] then c! "/" else if r.uri.pathData = [] then c! "/" else r.uri.pathData) =
          if r.uri.pathData = [] then c! "/" else r.uri.pathData := by
        by_cases e : r.uri.pathData = [] <;> simp [e]
      rw [e2, append_mid, append_mid]
    constructor
    · rintro ⟨_, e'⟩; exact ⟨(by rintro ⟨⟩), (by rintro ⟨⟩), fun _ => e.1 e'⟩
    · rintro ⟨_, _, e'⟩; exact ⟨h1, e.2 (e' rfl)⟩

theorem matches_other {s a s' b : Str} {i : CId} (hi : ¬ Lost i) : Matches s a s' b i :=
  ⟨fun e => absurd (Or.inl e) hi, fun e => absurd (Or.inr (Or.inl e)) hi, fun e => absurd (Or.inr (Or.inr e)) hi⟩

theorem server_value (h : Arrives added r r') (hu : Absolute r.uri) (hm : r.method ≠ c! "CONNECT") {s a s' b : Str} (hs : r.uri.scheme = some s)
    (ha : r.uri.authority = some a) {i : CId} (hc : Clear added i) (hi : Matches s a s' b i) (v : Str) :
    Wire.ValueIn (.req (restored s' b r')) i v ↔ Wire.ValueIn (.req r) i v := by
  by_cases hl : Lost i
  · constructor
    · intro hv
      obtain ⟨w, hw⟩ := lost_exists (r' := r) hl hv
      have hw' := (server_lost h hs ha hl hw).2 hi
      obtain ⟨n, ps⟩ := i
      have : w = v := by
        rcases hl with rfl | rfl | rfl <;> exact hw'.2.trans hv.2.symm
      rwa [← this]
    · intro hv
      exact (server_lost h hs ha hl hv).2 hi
  · -- the values do not depend on scheme and authority, which `C124_restored` says for the client's own
    rw [← C124_restored h hu hm hs ha hc v]
    obtain ⟨n, ps⟩ := i
    unfold Wire.ValueIn
    cases n with
    | field f => exact Iff.rfl
    | derived d =>
      simp only
      refine and_congr_right fun _ => ?_
      cases d with
      | authority => exact absurd (Or.inl rfl) hl
      | scheme => exact absurd (Or.inr (Or.inl rfl)) hl
      | targetUri => exact absurd (Or.inr (Or.inr rfl)) hl
      | requestTarget =>
        have e : Wire.targetText r'.method (restored s' b r').uri = Wire.targetText r'.method (restored s a r').uri := by
          unfold Wire.targetText
          have h0 : r'.method ≠ c! "CONNECT" := h.method ▸ hm
          have h1 : ∀ s b, ¬ ((restored s b r').uri.scheme = none ∧ (restored s b r').uri.authority ≠ none) := by simp [restored]
          rw [if_neg h0, if_neg h0, if_neg (h1 _ _), if_neg (h1 _ _)]
          rfl
        show v = Wire.targetText r'.method _ ↔ v = Wire.targetText r'.method _
        rw [e]
      | _ => exact Iff.rfl

/-- C125: the text that the server `s' :// b` rebuilds is the one that was signed for `s :// a` exactly if what is covered does not tell the two servers from each
other. -/
theorem C125_base (h : Arrives added r r') (hu : Absolute r.uri) (hm : r.method ≠ c! "CONNECT") {s a s' b : Str} (hs : r.uri.scheme = some s)
    (ha : r.uri.authority = some a) (hw : WfRequest r) (hw' : WfRequest (restored s' b r')) {p : SigParams} (hp : OneLineParams p)
    (hc : ∀ i ∈ p.covered, Clear added i) {t : Str} (ht : Wire.BaseOf (.req r) none p t) :
    Wire.BaseOf (.req (restored s' b r')) none p t ↔ ∀ i ∈ p.covered, Matches s a s' b i := by
  constructor
  · intro ht' i hi
    by_cases hl : Lost i
    · obtain ⟨v, h1, h2⟩ := same_text_value (m := .req r) (m' := .req (restored s' b r')) hw hw' (by simp) (by simp) hp ht ht' hi
      rcases h1 with ⟨_, h1⟩ | ⟨_, _, _, e, _⟩
      · rcases h2 with ⟨_, h2⟩ | ⟨_, _, _, e, _⟩
        · exact (server_lost h hs ha hl h1).1 h2
        · cases e
      · cases e
    · exact matches_other hl
  · intro hmt
    refine (wireBase_congr (fun i hi v => ?_) t).1 ht
    unfold Wire.HasValue
    rw [server_value h hu hm hs ha (hc i hi) (hmt i hi)]
    simp

/-- C125: if nothing that is covered tells the servers from each other, the answer is the same. -/
theorem C125_verify (h : Arrives added r r') (hu : Absolute r.uri) (hm : r.method ≠ c! "CONNECT") (hadd : Untouched added) {s a s' b : Str}
    (hs : r.uri.scheme = some s) (ha : r.uri.authority = some a) (hw : WfHeaders r.headers) (hw' : WfHeaders r'.headers)
    (hc : ∀ l, Wire.Carries r.headers l → ∀ kv ∈ l, ∀ i ∈ kv.2.params.covered, Clear added i ∧ Matches s a s' b i)
    (now : UInt64) (keys : List (VerifyingKey × Option Str)) :
    verifySignatures now (.req (restored s' b r')) keys none = verifySignatures now (.req r) keys none ∧
    ∀ k id, verifySignature now (.req (restored s' b r')) k id none = verifySignature now (.req r) k id none := by
  have he := extract_of_lines (m := .req r) (m' := .req (restored s' b r')) hw hw' (h.fields (c! "signature-input") hadd.1).symm
    (h.fields (c! "signature") hadd.2).symm
  obtain ⟨h1, h2⟩ := verify_congr_base (m := .req r) (m' := .req (restored s' b r')) (rf := none) (rf' := none) hw hw' (by simp) (by simp) he
    (fun l hl kv hkv t => by
      have hcl := hc l (wireCarries_iff.2 ((extractSignatureHeaders_ok (m := .req r) hw l).1 hl)) kv hkv
      rw [← wireBaseOf_iff, ← wireBaseOf_iff]
      refine wireBase_congr (fun i hi v => ?_) t
      unfold Wire.HasValue
      rw [server_value h hu hm hs ha (hcl i hi).1 (hcl i hi).2]
      simp) now keys
  exact ⟨h1.symm, fun k id => (h2 k id).symm⟩

/-- C125: otherwise the other server refuses what was signed for the first. -/
theorem C125_refused (h : Arrives added r r') (hu : Absolute r.uri) (hm : r.method ≠ c! "CONNECT") {s a s' b : Str} (hs : r.uri.scheme = some s)
    (ha : r.uri.authority = some a) (hw : WfRequest r) (hw' : WfRequest (restored s' b r')) {x : SigHeaders} (hp : OneLineParams x.params)
    (hc : ∀ i ∈ x.params.covered, Clear added i) (hn : ∃ i ∈ x.params.covered, ¬ Matches s a s' b i) {t : Str} (ht : Wire.BaseOf (.req r) none x.params t)
    {k : VerifyingKey} (hk : ∀ d, k.verify d x.signature = .ok () → d = utf8 t) (now : UInt64) (id : Option Str) :
    ¬ Wire.Checked now (.req (restored s' b r')) none k id x (.ok ()) := by
  rintro ⟨u, hu', _, _, hv⟩
  have e := utf8_inj (hk _ hv)
  subst e
  obtain ⟨i, hi, hni⟩ := hn
  exact hni ((C125_base h hu hm hs ha hw hw' hp hc ht).1 hu' i hi)

/-! ### Examples -/

namespace Ex125
open Ex124

/-- A client whose request has a path only, and the line Host, signs these components. -/
def local_ (ids : List CId) : Request := (got.setSignature (exParams ids) (toySign 1) none).1
/-- Host is replaced. -/
def moved (ids : List CId) : Request :=
  { local_ ids with headers := (c! "host", utf8 (c! "evil.example")) :: (local_ ids).headers.filter (fun kv => kv.1 ≠ c! "host") }

def authority : List CId := [⟨.derived .authority, []⟩, ⟨.derived .targetUri, []⟩]
def host : List CId := [⟨.derived .method, []⟩, ⟨.field (c! "Host"), []⟩]

-- `@authority` and `@target-uri` do not tell the servers from each other, Host does
example : (local_ authority).verifySignature 0 (toyVerify 1) none = .ok (c! "sig") ∧ (moved authority).verifySignature 0 (toyVerify 1) none = .ok (c! "sig") ∧
    (local_ host).verifySignature 0 (toyVerify 1) none = .ok (c! "sig") ∧ (moved host).verifySignature 0 (toyVerify 1) none = .err .invalidSignature := by
  decide +kernel

theorem redirected {ids : List CId} (hn : ∀ kv ∈ (local_ ids).headers, kv.1.map Char.toLower = c! "host" ↔ kv.1 = c! "host") :
    Redirected (c! "evil.example") (local_ ids) (moved ids) where
  method := rfl
  uri := rfl
  fields f hf := by
    show Wire.linesOf ((c! "host", utf8 (c! "evil.example")) :: (local_ ids).headers.filter (fun kv => kv.1 ≠ c! "host")) f = _
    have e : (c! "host").map Char.toLower = c! "host" := by decide
    unfold Wire.linesOf
    rw [List.filter_cons_of_neg (by simpa [e] using fun he => hf (by simpa using he.symm)), List.filter_filter]
    congr 1
    refine List.filter_congr fun kv hkv => ?_
    by_cases hk : kv.1.map Char.toLower = f.map Char.toLower
    · have : kv.1 ≠ c! "host" := fun e => hf (hk ▸ (hn kv hkv).2 e)
      simp [hk, this]
    · simp [hk]
  host := by
    show Wire.linesOf ((c! "host", utf8 (c! "evil.example")) :: (local_ ids).headers.filter (fun kv => kv.1 ≠ c! "host")) (c! "host") = _
    have e : (c! "host").map Char.toLower = c! "host" := by decide
    unfold Wire.linesOf
    rw [List.filter_cons_of_pos (by simp), List.filter_filter, List.map_cons, List.filter_eq_nil_iff.2, List.map_nil]
    intro kv hkv hc
    simp only [e, Bool.and_eq_true, decide_eq_true_eq] at hc
    exact hc.2 ((hn kv hkv).1 hc.1)

theorem carriedOnly {r : Request} {ids : List CId} (hw : WfHeaders r.headers)
    (h2 : ∀ kv ∈ (match extractSignatureHeaders (.req r) with | .ok l => l | _ => []), ∀ i ∈ kv.2.params.covered, i ∈ ids)
    (l : List (Str × SigHeaders)) (h : Wire.Carries r.headers l) : ∀ kv ∈ l, ∀ i ∈ kv.2.params.covered, i ∈ ids := by
  have h1 := (extractSignatureHeaders_ok (m := .req r) hw l).2 (wireCarries_iff.1 h)
  rw [h1] at h2
  exact h2

/-- The hypotheses of `C125_relay`. -/
example (now : UInt64) (keys : List (VerifyingKey × Option Str)) :
    verifySignatures now (.req (moved authority)) keys none = verifySignatures now (.req (local_ authority)) keys none := by
  have hw : WfHeaders (local_ authority).headers := wfNames (by decide +kernel)
  refine (C125_relay (redirected (by decide +kernel)) hw (wfNames (by decide +kernel)) (fun l h kv hkv i hi => ?_) now keys).1
  have := carriedOnly (ids := authority) hw (by decide +kernel) l h kv hkv i hi
  simp only [authority, List.mem_cons, List.not_mem_nil, or_false] at this
  rcases this with rfl | rfl <;> (rintro ⟨f, e, _⟩; cases e)

theorem lineUri (u : Uri) (h : u ∈ [got.uri, sent.uri, ⟨some (c! "https"), some (c! "evil.example"), c! "/a", some (c! "b")⟩]) : OneLineUri u := by
  simp only [List.mem_cons, List.not_mem_nil, or_false] at h
  rcases h with rfl | rfl | rfl <;>
    exact ⟨(by intro s h; cases h <;> decide), (by intro s h; cases h <;> decide), (by decide), (by intro s h; cases h; decide)⟩

theorem lineParams {ids : List CId} (h : ids ∈ [authority, host, Ex124.ids]) : OneLineParams (exParams ids) := by
  refine ⟨(by rintro s ⟨⟩), (by rintro s ⟨⟩), (by rintro s ⟨⟩), (by rintro s ⟨⟩), fun i hi => ?_⟩
  simp only [List.mem_cons, List.not_mem_nil, or_false] at h
  have hi : i ∈ ids := hi
  rcases h with rfl | rfl | rfl <;> simp only [authority, host, Ex124.ids, List.mem_cons, List.not_mem_nil, or_false] at hi <;>
    rcases hi with rfl | rfl <;> exact ⟨(by intro f e; cases e <;> decide), (by simp), (by simp)⟩

/-- The hypotheses of `C125_host`. -/
example (t : Str) (ht : Wire.BaseOf (.req (local_ host)) none (exParams host) t) :
    ¬ Wire.Checked 0 (.req (moved host)) none (only t) none ⟨c! "sig", [1], exParams host⟩ (.ok ()) := by
  refine C125_host (a := c! "Example.com") (b := c! "evil.example") (redirected (by decide +kernel)) (by decide +kernel) (by unfold HostName; decide) (by unfold HostName; decide) (by decide)
    ⟨wfNames (by decide +kernel), by decide, lineUri _ (by decide)⟩ ⟨wfNames (by decide +kernel), by decide, lineUri _ (by decide)⟩
    (lineParams (by decide)) (f := c! "Host") (by decide) (by decide) ht ?_ 0 none
  intro d hd
  by_contra hn
  simp [only, hn] at hd

/-- The text exists. -/
example : ∃ t, Wire.BaseOf (.req (local_ host)) none (exParams host) t := by
  have hw : WfHeaders (local_ host).headers := wfNames (by decide +kernel)
  obtain ⟨b, hb⟩ : ∃ b, buildBase (.req (local_ host)) (exParams host) none = .ok b := by
    cases h : buildBase (.req (local_ host)) (exParams host) none with
    | ok b => exact ⟨b, rfl⟩
    | err e => exact absurd h (by have : (match buildBase (.req (local_ host)) (exParams host) none with | .ok _ => true | _ => false) = true := by decide +kernel
                                  rw [h] at this; cases this)
    | panic => exact absurd h (by have : (match buildBase (.req (local_ host)) (exParams host) none with | .ok _ => true | _ => false) = true := by decide +kernel
                                  rw [h] at this; cases this)
  exact ⟨_, wireBaseOf_iff.2 ((buildBase_spec (m := .req (local_ host)) hw (by simp) _).1 ⟨b, hb, rfl⟩)⟩

/-- A client's request for `https://Example.com` over `("@method" "@authority")`, at that server written in another case and at another one. -/
example : (restored (c! "https") (c! "example.COM") (gotSigned Ex124.ids)).verifySignature 0 (toyVerify 1) none = .ok (c! "sig") ∧
    (restored (c! "https") (c! "evil.example") (gotSigned Ex124.ids)).verifySignature 0 (toyVerify 1) none = .err .invalidSignature := by decide +kernel

/-- The hypotheses of `C125_base` and `C125_refused`. -/
example (t : Str) (ht : Wire.BaseOf (.req (signed Ex124.ids)) none (exParams Ex124.ids) t) :
    ¬ Wire.Checked 0 (.req (restored (c! "https") (c! "evil.example") (gotSigned Ex124.ids))) none (only t) none ⟨c! "sig", [1], exParams Ex124.ids⟩ (.ok ()) := by
  refine C125_refused (s := c! "https") (a := c! "Example.com") (signedArrives Ex124.ids) absolute (by decide) rfl rfl
    ⟨wfNames (by decide +kernel), by decide, lineUri _ (by decide)⟩ ⟨wfNames (by decide +kernel), by decide, lineUri _ (by decide)⟩
    (lineParams (by decide)) Ex124.clear ⟨⟨.derived .authority, []⟩, by decide, fun h => absurd (h.1 rfl) (by decide)⟩ ht ?_ 0 none
  intro d hd
  by_contra hn
  simp [only, hn] at hd

/-- The hypotheses of `C125_verify`. -/
example (now : UInt64) (keys : List (VerifyingKey × Option Str)) :
    verifySignatures now (.req (restored (c! "https") (c! "example.COM") (gotSigned Ex124.ids))) keys none =
      verifySignatures now (.req (signed Ex124.ids)) keys none := by
  have hw : WfHeaders (signed Ex124.ids).headers := wfNames (by decide +kernel)
  refine (C125_verify (s := c! "https") (a := c! "Example.com") (signedArrives Ex124.ids) absolute (by decide) ⟨by decide, by decide⟩ rfl rfl hw
    (wfNames (by decide +kernel)) (fun l h kv hkv i hi => ?_) now keys).1
  have := carriedOnly (ids := Ex124.ids) hw (by decide +kernel) l h kv hkv i hi
  refine ⟨Ex124.clear i this, fun _ => by decide, fun _ => rfl, fun e => ?_⟩
  simp only [Ex124.ids, List.mem_cons, List.not_mem_nil, or_false] at this
  rcases this with rfl | rfl <;> cases e

end Ex125

end Verif
