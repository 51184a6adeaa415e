import Verif.Spec.Arrival
import Verif.Props.C80
import Verif.Props.C62
import Verif.Model.UriText
/-!
C124: a request is signed by a client that has an absolute URI, and arrives at a server that has a path. The same for responses whose signatures cover parts of the
request.
-/
namespace Verif
open Sfv Spec Arrival

variable {added : List Str} {r r' : Request}

theorem origin_target (hu : Absolute r.uri) (hm : r.method ≠ c! "CONNECT") : Wire.targetText r.method (originForm r.uri) = Wire.targetText r.method r.uri := by
  obtain ⟨s, hs, _⟩ := hu.scheme
  unfold Wire.targetText
  rw [if_neg hm, if_neg hm]
  split
  · rfl
  have h1 : ¬ ((originForm r.uri).scheme = none ∧ (originForm r.uri).authority ≠ none) := by simp [originForm]
  have h2 : ¬ (r.uri.scheme = none ∧ r.uri.authority ≠ none) := by simp [hs]
  rw [if_neg h1, if_neg h2]
  have hq : Wire.queryText (originForm r.uri) = Wire.queryText r.uri := rfl
  by_cases hp : r.uri.pathData = []
  · have hp' : (originForm r.uri).pathData = c! "/" := by simp [originForm, hp]
    rw [hq, hp, hp']
    unfold Wire.queryText
    cases r.uri.query <;> simp
  · have hp' : (originForm r.uri).pathData = r.uri.pathData := by simp [originForm, hp]
    rw [hq, hp']

/-- C124: every component that is not taken from scheme or authority, and not from a changed line, is worth the same on both sides. -/
theorem C124_value (h : Arrives added r r') (hu : Absolute r.uri) (hm : r.method ≠ c! "CONNECT") {i : CId} (hi : ¬ Lost i) (hc : Clear added i) (v : Str) :
    Wire.ValueIn (.req r') i v ↔ Wire.ValueIn (.req r) i v := by
  obtain ⟨n, ps⟩ := i
  unfold Wire.ValueIn
  cases n with
  | field f =>
    simp only [Wire.FieldValue, Wire.LinesText, h.fields f (hc.1 f rfl)]
  | derived d =>
    simp only
    refine and_congr_right fun _ => ?_
    unfold Wire.RequestValue
    cases d with
    | method => simp only [h.method]
    | targetUri => exact absurd (Or.inr (Or.inr rfl)) hi
    | authority => exact absurd (Or.inl rfl) hi
    | scheme => exact absurd (Or.inr (Or.inl rfl)) hi
    | requestTarget => simp only [h.method, h.uri, origin_target hu hm]
    | path =>
      simp only [h.uri, originForm]
      by_cases e : r.uri.pathData = [] <;> simp [e]
    | query => simp only [h.uri, originForm]
    | queryParam => simp only [h.uri, originForm]
    | status => exact Iff.rfl
    | signatureParams => simp only [Wire.SigParamsValue, h.fields (c! "signature-input") (hc.2 rfl)]

/-- C124: a component that is taken from them has a shorter value at the server. -/
theorem C124_lost (h : Arrives added r r') (hu : Absolute r.uri) {i : CId} (hi : Lost i) {v v' : Str} (hv : Wire.ValueIn (.req r) i v)
    (hv' : Wire.ValueIn (.req r') i v') : v'.length < v.length := by
  obtain ⟨s, hs, hs0⟩ := hu.scheme
  obtain ⟨a, ha, ha0⟩ := hu.authority
  obtain ⟨n, ps⟩ := i
  have pos : ∀ {x : Str}, x ≠ [] → 0 < x.length := fun hx => List.length_pos_iff.2 hx
  rcases hi with rfl | rfl | rfl
  · have e : v = _ := hv.2
    have e' : v' = _ := hv'.2
    rw [e, e', h.uri, ha]
    simpa [originForm] using pos ha0
  · have e : v = _ := hv.2
    have e' : v' = _ := hv'.2
    rw [e, e', h.uri, hs]
    simpa [originForm] using pos hs0
  · have e : v = _ := hv.2
    have e' : v' = _ := hv'.2
    rw [e, e', h.uri]
    have hq : Wire.queryText (originForm r.uri) = Wire.queryText r.uri := rfl
    unfold Wire.uriText
    rw [hq, hs, ha]
    have := pos hs0
    by_cases e : r.uri.pathData = [] <;> simp [originForm, e] <;> omega

theorem lost_exists {i : CId} (hi : Lost i) {v : Str} (hv : Wire.ValueIn (.req r) i v) : ∃ v', Wire.ValueIn (.req r') i v' := by
  obtain ⟨n, ps⟩ := i
  rcases hi with rfl | rfl | rfl <;> exact ⟨_, hv.1, rfl⟩

variable {m m' : Msg} {rf rf' : Option Request}

theorem two_same (h : TwoSides added m rf m' rf') {i : CId} (hi : ¬ LostIn m i) (hc : Clear added i) (v : Str) :
    Wire.HasValue m rf i v ↔ Wire.HasValue m' rf' i v := by
  unfold Wire.HasValue
  cases h with
  | @request r r' ha hu hm =>
    have hl : ¬ Lost i := fun hl => hi ⟨hl, Or.inl ⟨r, rfl⟩⟩
    rw [C124_value ha hu hm hl hc]
    simp
  | @response r r' s ha hu hm =>
    by_cases hr : CParam.req ∈ i.params
    · have hl : ¬ Lost i := fun hl => hi ⟨hl, Or.inr hr⟩
      have := C124_value ha hu hm hl hc v
      simp [hr, this]
    · simp [hr]

theorem two_lost (h : TwoSides added m rf m' rf') {i : CId} (hi : LostIn m i) {v v' : Str} (hv : Wire.HasValue m rf i v)
    (hv' : Wire.HasValue m' rf' i v') : v'.length < v.length := by
  cases h with
  | @request r r' ha hu hm =>
    rcases hv with ⟨_, hv⟩ | ⟨_, _, _, e, _⟩
    · rcases hv' with ⟨_, hv'⟩ | ⟨_, _, _, e, _⟩
      · exact C124_lost ha hu hi.1 hv hv'
      · cases e
    · cases e
  | @response r r' s ha hu hm =>
    have hr : CParam.req ∈ i.params := hi.2.resolve_left (by rintro ⟨_, e⟩; cases e)
    rcases hv with ⟨hn, _⟩ | ⟨_, _, _, _, e, hv⟩
    · exact absurd hr hn
    rcases hv' with ⟨hn, _⟩ | ⟨_, _, _, _, e', hv'⟩
    · exact absurd hr hn
    injection e with e
    injection e' with e'
    subst e e'
    exact C124_lost ha hu hi.1 hv hv'

theorem two_exists (h : TwoSides added m rf m' rf') {i : CId} (hc : Clear added i) {v : Str} (hv : Wire.HasValue m rf i v) : ∃ v', Wire.HasValue m' rf' i v' := by
  by_cases hi : LostIn m i
  · cases h with
    | @request r r' ha hu hm =>
      rcases hv with ⟨hn, hv⟩ | ⟨_, _, _, e, _⟩
      · obtain ⟨v', h'⟩ := lost_exists (r' := r') hi.1 hv
        exact ⟨v', Or.inl ⟨hn, h'⟩⟩
      · cases e
    | @response r r' s ha hu hm =>
      have hr : CParam.req ∈ i.params := hi.2.resolve_left (by rintro ⟨_, e⟩; cases e)
      rcases hv with ⟨hn, _⟩ | ⟨_, _, _, _, e, hv⟩
      · exact absurd hr hn
      injection e with e
      subst e
      obtain ⟨v', h'⟩ := lost_exists (r' := r') hi.1 hv
      exact ⟨v', Or.inr ⟨hr, s, r', rfl, rfl, h'⟩⟩
  · exact ⟨v, (two_same h hi hc v).1 hv⟩

/-- A component has one value. -/
theorem wireValue_unique (hw : WfHeaders m.headers) (hf : ∀ r, rf = some r → WfHeaders r.headers) {i : CId} {v w : Str} (h1 : Wire.HasValue m rf i v)
    (h2 : Wire.HasValue m rf i w) : v = w := by
  obtain ⟨c, hc, rfl⟩ := (extractFor_ok hw hf i v).2 (wireHasValue_iff.1 h1)
  obtain ⟨c', hc', rfl⟩ := (extractFor_ok hw hf i w).2 (wireHasValue_iff.1 h2)
  rw [hc] at hc'; injection hc' with e; rw [e]

theorem two_lines (h : TwoSides added m rf m' rf') (hw : WfHeaders m'.headers) (hf : ∀ r, rf' = some r → WfHeaders r.headers) {is : List CId} (hc : ∀ i ∈ is, Clear added i) {t t' : Str} (ht : Wire.Lines m rf is t)
    (ht' : Wire.Lines m' rf' is t') : t'.length ≤ t.length ∧ ((∃ i ∈ is, LostIn m i) → t'.length < t.length) := by
  induction is generalizing t t' with
  | nil => cases ht; cases ht'; exact ⟨le_refl _, by simp⟩
  | cons i is ih =>
    cases ht with
    | @cons _ _ v t hv ht =>
    cases ht' with
    | @cons _ _ v' t' hv' ht' =>
    obtain ⟨h1, h2⟩ := ih (fun j hj => hc j (by simp [hj])) ht ht'
    simp only [List.length_append]
    by_cases hi : LostIn m i
    · have := two_lost h hi hv hv'
      exact ⟨by omega, fun _ => by omega⟩
    · have hvl : v'.length = v.length := by
        have := (two_same h hi (hc i (by simp)) v).1 hv
        rw [wireValue_unique hw hf hv' this]
      refine ⟨by omega, ?_⟩
      rintro ⟨j, hj, hl⟩
      rcases List.mem_cons.1 hj with rfl | hj
      · exact absurd hl hi
      · have := h2 ⟨j, hj, hl⟩
        omega

/-- C124: if the signature base exists on one side it exists on the other, and they are equal exactly if no covered component is taken from the scheme or the
authority of the request. -/
theorem C124_base (h : TwoSides added m rf m' rf') (hw : WfHeaders m'.headers) (hf : ∀ r, rf' = some r → WfHeaders r.headers) {p : SigParams} (hc : ∀ i ∈ p.covered, Clear added i) {t : Str} (ht : Wire.BaseOf m rf p t) :
    ∃ t', Wire.BaseOf m' rf' p t' ∧ (t' = t ↔ ∀ i ∈ p.covered, ¬ LostIn m i) := by
  obtain ⟨x, hx, rfl⟩ := ht
  have ex : ∀ {is : List CId} {x : Str}, (∀ i ∈ is, Clear added i) → Wire.Lines m rf is x → ∃ x', Wire.Lines m' rf' is x' := by
    intro is x hc hx
    induction hx with
    | nil => exact ⟨[], .nil⟩
    | @cons i is v t hv _ ih =>
      obtain ⟨v', hv'⟩ := two_exists h (hc i (by simp)) hv
      obtain ⟨x', hx'⟩ := ih (fun j hj => hc j (by simp [hj]))
      exact ⟨_, .cons hv' hx'⟩
  obtain ⟨x', hx'⟩ := ex hc hx
  refine ⟨_, ⟨x', hx', rfl⟩, ?_⟩
  constructor
  · intro e i hi hl
    have := (two_lines h hw hf hc hx hx').2 ⟨i, hi, hl⟩
    have e := congrArg List.length e
    simp only [List.length_append] at e
    omega
  · intro hn
    have : Wire.BaseOf m' rf' p (x ++ c! "\"@signature-params\": " ++ paramsText p) :=
      (wireBase_congr (fun i hi => two_same h (hn i hi) (hc i hi)) _).1 ⟨x, hx, rfl⟩
    rw [wireBaseOf_iff] at this
    have h' : Wire.BaseOf m' rf' p (x' ++ c! "\"@signature-params\": " ++ paramsText p) := ⟨x', hx', rfl⟩
    rw [wireBaseOf_iff] at h'
    exact base_unique hw hf h' this

/-! ### Verification -/

theorem two_lines_eq (h : TwoSides added m rf m' rf') {f : Str} (hf : f.map Char.toLower ∉ added) : Wire.linesOf m.headers f = Wire.linesOf m'.headers f := by
  cases h with
  | request ha _ _ => exact (ha.fields f hf).symm
  | response s _ _ _ => rfl

theorem extract_of_lines (hw : WfHeaders m.headers) (hw' : WfHeaders m'.headers)
    (hi : Wire.linesOf m.headers (c! "signature-input") = Wire.linesOf m'.headers (c! "signature-input"))
    (hs : Wire.linesOf m.headers (c! "signature") = Wire.linesOf m'.headers (c! "signature")) :
    extractSignatureHeaders m = extractSignatureHeaders m' := by
  unfold extractSignatureHeaders headerTexts Headers.contains
  simp only
  rw [getAll_fieldLines hw, getAll_fieldLines hw, getAll_fieldLines hw', getAll_fieldLines hw']
  rw [show fieldLines m.headers hSignatureInput = fieldLines m'.headers hSignatureInput from hi,
    show fieldLines m.headers hSignature = fieldLines m'.headers hSignature from hs]

/-- C124: if no carried signature covers a lost component, verification at the other side gives what it gives here. -/
theorem C124_verify (h : TwoSides added m rf m' rf') (ht : Untouched added) (hw : WfHeaders m.headers) (hw' : WfHeaders m'.headers)
    (hf : ∀ r, rf = some r → WfHeaders r.headers) (hf' : ∀ r, rf' = some r → WfHeaders r.headers)
    (hc : ∀ l, Wire.Carries m.headers l → ∀ kv ∈ l, ∀ i ∈ kv.2.params.covered, Clear added i ∧ ¬ LostIn m i)
    (now : UInt64) (keys : List (VerifyingKey × Option Str)) :
    verifySignatures now m' keys rf' = verifySignatures now m keys rf ∧
    ∀ k id, verifySignature now m' k id rf' = verifySignature now m k id rf := by
  have he := extract_of_lines hw hw' (two_lines_eq h ht.1) (two_lines_eq h ht.2)
  obtain ⟨h1, h2⟩ := verify_congr_base hw hw' hf hf' he (fun l hl kv hkv t => by
    have hcl := hc l (wireCarries_iff.2 ((extractSignatureHeaders_ok hw l).1 hl)) kv hkv
    rw [← wireBaseOf_iff, ← wireBaseOf_iff]
    exact wireBase_congr (fun i hi => two_same h (hcl i hi).2 (hcl i hi).1) t) now keys
  exact ⟨h1.symm, fun k id => (h2 k id).symm⟩

/-- C124: a signature that was made of the text of one side, and covers a lost component, is accepted at the other side by no key that accepts it only with the
text that was signed. -/
theorem C124_refused (h : TwoSides added m rf m' rf') (hw' : WfHeaders m'.headers) (hf' : ∀ r, rf' = some r → WfHeaders r.headers)
    {x : SigHeaders} (hc : ∀ i ∈ x.params.covered, Clear added i) (hl : ∃ i ∈ x.params.covered, LostIn m i) {t : Str} (ht : Wire.BaseOf m rf x.params t)
    {k : VerifyingKey} (hk : ∀ d, k.verify d x.signature = .ok () → d = utf8 t) (now : UInt64) (id : Option Str) :
    ¬ Wire.Checked now m' rf' k id x (.ok ()) := by
  rintro ⟨u, hu, _, _, hv⟩
  obtain ⟨t', ht', hn⟩ := C124_base h hw' hf' hc ht
  have e : t' = u := base_unique hw' hf' (wireBaseOf_iff.1 ht') (wireBaseOf_iff.1 hu)
  obtain ⟨i, hi, hli⟩ := hl
  exact hn.1 (e.trans (utf8_inj (hk _ hv))) i hi hli

/-- C124: the same with the sides swapped, for a response that the server signs and the client verifies. -/
theorem C124_refused_response {s : Response} (h : TwoSides added (.res s) (some r) (.res s) (some r')) (hs : WfHeaders s.headers)
    (hr' : WfHeaders r'.headers) {x : SigHeaders} (hc : ∀ i ∈ x.params.covered, Clear added i) (hl : ∃ i ∈ x.params.covered, LostIn (.res s) i) {t : Str}
    (ht : Wire.BaseOf (.res s) (some r') x.params t) {k : VerifyingKey} (hk : ∀ d, k.verify d x.signature = .ok () → d = utf8 t)
    (now : UInt64) (id : Option Str) : ¬ Wire.Checked now (.res s) (some r) k id x (.ok ()) := by
  rintro ⟨u, hu, _, _, hv⟩
  have hf' : ∀ q, some r' = some q → WfHeaders q.headers := by intro q e; injection e with e; exact e ▸ hr'
  obtain ⟨t', ht', hn⟩ := C124_base (m' := .res s) h hs hf' hc hu
  have e : t' = t := base_unique (m := .res s) hs hf' (wireBaseOf_iff.1 ht') (wireBaseOf_iff.1 ht)
  obtain ⟨i, hi, hli⟩ := hl
  exact hn.1 (e.trans (utf8_inj (hk _ hv)).symm) i hi hli

/-! ### Putting the URI back -/

/-- C124: a server that puts the client's scheme and authority back into the URI has the client's value of every component. -/
theorem C124_restored (h : Arrives added r r') (hu : Absolute r.uri) (hm : r.method ≠ c! "CONNECT") {s a : Str} (hs : r.uri.scheme = some s)
    (ha : r.uri.authority = some a) {i : CId} (hc : Clear added i) (v : Str) :
    Wire.ValueIn (.req (restored s a r')) i v ↔ Wire.ValueIn (.req r) i v := by
  by_cases hi : Lost i
  · obtain ⟨n, ps⟩ := i
    have e1 : (restored s a r').uri.scheme = r.uri.scheme := hs.symm
    have e2 : (restored s a r').uri.authority = r.uri.authority := ha.symm
    have e3 : Wire.uriText (restored s a r').uri = Wire.uriText r.uri := by
      have hq : Wire.queryText (restored s a r').uri = Wire.queryText r.uri := by
        show Wire.queryText { r'.uri with scheme := some s, authority := some a } = _
        rw [h.uri]; rfl
      have hp : (restored s a r').uri.pathData = if r.uri.pathData = [] then c! "/" else r.uri.pathData := by
        show r'.uri.pathData = _
        rw [h.uri]; rfl
      unfold Wire.uriText
      rw [e1, e2, hq, hp, hs]
      by_cases e : r.uri.pathData = [] <;> simp [e]
    unfold Wire.ValueIn
    rcases hi with rfl | rfl | rfl
    · simp only [Wire.RequestValue, e2]
    · simp only [Wire.RequestValue, e1]
    · simp only [Wire.RequestValue, e3]
  · rw [← C124_value h hu hm hi hc]
    have e : ∀ {d ps}, d ≠ .authority → d ≠ .scheme → d ≠ .targetUri → d ≠ .requestTarget →
        (Wire.RequestValue (restored s a r') d ps v ↔ Wire.RequestValue r' d ps v) := by
      intro d ps h1 h2 h3 h4
      cases d <;> first | exact Iff.rfl | contradiction
    obtain ⟨n, ps⟩ := i
    unfold Wire.ValueIn
    cases n with
    | field f => exact Iff.rfl
    | derived d =>
      simp only
      refine and_congr_right fun _ => ?_
      by_cases ht : d = .requestTarget
      · subst ht
        have e1 : Wire.targetText r'.method (restored s a r').uri = Wire.targetText r'.method r'.uri := by
          unfold Wire.targetText
          have h0 : r'.method ≠ c! "CONNECT" := h.method ▸ hm
          have h1 : ¬ ((restored s a r').uri.scheme = none ∧ (restored s a r').uri.authority ≠ none) := by simp [restored]
          have h2 : ¬ (r'.uri.scheme = none ∧ r'.uri.authority ≠ none) := by rw [h.uri]; simp [originForm]
          rw [if_neg h0, if_neg h0, if_neg h1, if_neg h2]
          rfl
        show v = Wire.targetText r'.method _ ↔ v = _
        rw [e1]
      · exact e (fun e => hi (Or.inl (by rw [e]))) (fun e => hi (Or.inr (Or.inl (by rw [e])))) (fun e => hi (Or.inr (Or.inr (by rw [e])))) ht

/-- C124: and so verification at the server gives what it gives at the client, whatever is covered. -/
theorem C124_restored_verify (h : Arrives added r r') (hu : Absolute r.uri) (hm : r.method ≠ c! "CONNECT") (hadd : Untouched added) {s a : Str}
    (hs : r.uri.scheme = some s) (ha : r.uri.authority = some a) (hw : WfHeaders r.headers) (hw' : WfHeaders r'.headers)
    (hc : ∀ l, Wire.Carries r.headers l → ∀ kv ∈ l, ∀ i ∈ kv.2.params.covered, Clear added i) (now : UInt64) (keys : List (VerifyingKey × Option Str)) :
    verifySignatures now (.req (restored s a r')) keys none = verifySignatures now (.req r) keys none ∧
    ∀ k id, verifySignature now (.req (restored s a r')) k id none = verifySignature now (.req r) k id none := by
  have he := extract_of_lines (m := .req r) (m' := .req (restored s a r')) hw hw' (h.fields (c! "signature-input") hadd.1).symm (h.fields (c! "signature") hadd.2).symm
  obtain ⟨h1, h2⟩ := verify_congr_base (m := .req r) (m' := .req (restored s a r')) (rf := none) (rf' := none) hw hw' (by simp) (by simp) he
    (fun l hl kv hkv t => by
      have hcl := hc l (wireCarries_iff.2 ((extractSignatureHeaders_ok (m := .req r) hw l).1 hl)) kv hkv
      rw [← wireBaseOf_iff, ← wireBaseOf_iff]
      refine wireBase_congr (fun i hi v => ?_) t
      unfold Wire.HasValue
      rw [C124_restored h hu hm hs ha (hcl i hi)]
      simp) now keys
  exact ⟨h1.symm, fun k id => (h2 k id).symm⟩

/-! ### A request to `https://example.com/a?b` and the same with an empty path -/

namespace Ex124

/-- The client's request. -/
def sent : Request := ⟨c! "GET", ⟨some (c! "https"), some (c! "Example.com"), c! "/a", some (c! "b")⟩, [(c! "date", utf8 (c! "Tue"))], .data []⟩
/-- The server's: path and query, and the line Host. -/
def got : Request := ⟨c! "GET", ⟨none, none, c! "/a", some (c! "b")⟩, [(c! "host", utf8 (c! "Example.com")), (c! "date", utf8 (c! "Tue"))], .data []⟩
def bare : Request := { sent with uri := { sent.uri with pathData := [] } }

example : Uri.parse httpLib (c! "https://Example.com/a?b") = some sent.uri ∧ Uri.parse httpLib (c! "/a?b") = some got.uri := by decide +kernel

theorem absolute : Absolute sent.uri := ⟨⟨_, rfl, by decide⟩, ⟨_, rfl, by decide⟩⟩

theorem arrives : Arrives [c! "host"] sent got where
  method := rfl
  uri := by decide
  fields f hf := by
    have h : f.map Char.toLower ≠ c! "host" := by simpa using hf
    simp [Wire.linesOf, got, sent, List.filter_cons, eq_comm, h]

theorem sides : TwoSides [c! "host"] (.req sent) none (.req got) none := .request arrives absolute (by decide)
theorem sidesRes (s : Response) : TwoSides [c! "host"] (.res s) (some sent) (.res s) (some got) := .response s arrives absolute (by decide)

theorem wfNames {h : Headers} (hn : ∀ kv ∈ h, kv.1 ∈ [c! "date", c! "host", c! "signature", c! "signature-input"]) : WfHeaders h := by
  intro kv hkv
  have := hn kv hkv
  simp only [List.mem_cons, List.not_mem_nil, or_false] at this
  rcases this with e | e | e | e <;> rw [e] <;> exact ⟨by decide, by decide, by decide⟩

theorem gotWf : WfHeaders got.headers := wfNames (by decide +kernel)

/-- `("@method" "@authority")`. -/
def ids : List CId := [⟨.derived .method, []⟩, ⟨.derived .authority, []⟩]

theorem clear : ∀ i ∈ ids, Clear [c! "host"] i := by
  intro i hi
  simp only [ids, List.mem_cons, List.not_mem_nil, or_false] at hi
  rcases hi with rfl | rfl <;> exact ⟨fun f e => (by cases e), fun e => (by cases e)⟩

theorem base : ∃ t, Wire.BaseOf (.req sent) none (exParams ids) t :=
  ⟨_, _, .cons (Or.inl ⟨by simp, by simp, rfl⟩) (.cons (Or.inl ⟨by simp, by simp, rfl⟩) .nil), rfl⟩

/-- The base exists on both sides and differs. -/
example : ∃ t t', Wire.BaseOf (.req sent) none (exParams ids) t ∧ Wire.BaseOf (.req got) none (exParams ids) t' ∧ t' ≠ t := by
  obtain ⟨t, ht⟩ := base
  obtain ⟨t', ht', h⟩ := C124_base sides gotWf (by simp) clear ht
  exact ⟨t, t', ht, ht', fun e => h.1 e ⟨.derived .authority, []⟩ (by simp [ids, exParams]) ⟨Or.inl rfl, Or.inl ⟨_, rfl⟩⟩⟩

/-- A key that takes every signature of one text. -/
def only (t : Str) : VerifyingKey := ⟨fun d _ => if d = utf8 t then .ok () else .err .invalidSignature, c! "k", .ed25519⟩

/-- The signature is accepted at the client and not at the server. -/
example : ∃ t, Wire.Checked 0 (.req sent) none (only t) none ⟨c! "sig", [1], exParams ids⟩ (.ok ()) ∧
    ¬ Wire.Checked 0 (.req got) none (only t) none ⟨c! "sig", [1], exParams ids⟩ (.ok ()) := by
  obtain ⟨t, ht⟩ := base
  refine ⟨t, ⟨t, ht, Or.inl rfl, fun e h => (by cases h), by simp [only]⟩, ?_⟩
  refine C124_refused sides gotWf (by simp) clear ⟨⟨.derived .authority, []⟩, by simp [ids, exParams], Or.inl rfl, Or.inl ⟨_, rfl⟩⟩ ht ?_ 0 none
  intro d hd
  by_contra hn
  simp [only, hn] at hd

/-- The values of the lost components. -/
example : Wire.ValueIn (.req sent) ⟨.derived .targetUri, []⟩ (c! "https://Example.com/a?b") ∧ Wire.ValueIn (.req got) ⟨.derived .targetUri, []⟩ (c! "/a?b") ∧
    Wire.ValueIn (.req sent) ⟨.derived .scheme, []⟩ (c! "https") ∧ Wire.ValueIn (.req got) ⟨.derived .scheme, []⟩ [] ∧
    Wire.ValueIn (.req (restored (c! "https") (c! "Example.com") got)) ⟨.derived .targetUri, []⟩ (c! "https://Example.com/a?b") := by
  refine ⟨⟨by simp, ?_⟩, ⟨by simp, ?_⟩, ⟨by simp, ?_⟩, ⟨by simp, ?_⟩, ⟨by simp, ?_⟩⟩ <;> (show (_ : Str) = _; decide +kernel)

/-- An empty path is `/` on both sides. -/
example (v : Str) : Wire.ValueIn (.req { bare with uri := originForm bare.uri }) ⟨.derived .requestTarget, []⟩ v ↔ v = c! "/?b" := by
  have h : Arrives [] bare { bare with uri := originForm bare.uri } := ⟨rfl, rfl, fun _ _ => rfl⟩
  rw [C124_value h ⟨⟨_, rfl, by decide⟩, ⟨_, rfl, by decide⟩⟩ (by decide) (by rintro (h | h | h) <;> cases h)
    ⟨fun f e => (by cases e), fun e => (by cases e)⟩]
  have e : Wire.targetText bare.method bare.uri = c! "/?b" := by decide +kernel
  show _ ∧ v = Wire.targetText bare.method bare.uri ↔ _
  rw [e]
  simp

/-- A response over `("@authority";req)`: the server's text is not the client's. -/
example (s : Response) : ∃ t t', Wire.BaseOf (.res s) (some sent) (exParams [⟨.derived .authority, [.req]⟩]) t ∧
    Wire.BaseOf (.res s) (some got) (exParams [⟨.derived .authority, [.req]⟩]) t' ∧ t ≠ t' := by
  refine ⟨_, _, ⟨_, .cons (Or.inr ⟨by simp, s, sent, rfl, rfl, by simp, rfl⟩) .nil, rfl⟩,
    ⟨_, .cons (Or.inr ⟨by simp, s, got, rfl, rfl, by simp, rfl⟩) .nil, rfl⟩, ?_⟩
  decide +kernel

/-- The client signs. -/
def signed (ids : List CId) : Request := (sent.setSignature (exParams ids) (toySign 1) none).1
/-- What the server has. -/
def gotSigned (ids : List CId) : Request :=
  { signed ids with uri := originForm (signed ids).uri, headers := (c! "host", utf8 (c! "Example.com")) :: (signed ids).headers }

/-- `("@method" "@path" "date")`. -/
def safe : List CId := [⟨.derived .method, []⟩, ⟨.derived .path, []⟩, ⟨.field (c! "date"), []⟩]

-- a signature over method, path and date gets through; one over the authority does not, unless the server restores the URI
example : (gotSigned safe).verifySignature 0 (toyVerify 1) none = .ok (c! "sig") ∧ (signed ids).verifySignature 0 (toyVerify 1) none = .ok (c! "sig") ∧
    (gotSigned ids).verifySignature 0 (toyVerify 1) none = .err .invalidSignature ∧
    (restored (c! "https") (c! "Example.com") (gotSigned ids)).verifySignature 0 (toyVerify 1) none = .ok (c! "sig") := by decide +kernel

theorem signedArrives (ids : List CId) : Arrives [c! "host"] (signed ids) (gotSigned ids) where
  method := rfl
  uri := rfl
  fields f hf := by
    have h : f.map Char.toLower ≠ c! "host" := by simpa using hf
    have e : (c! "host").map Char.toLower = c! "host" := by decide
    show Wire.linesOf ((c! "host", utf8 (c! "Example.com")) :: (signed ids).headers) f = _
    unfold Wire.linesOf
    rw [List.filter_cons_of_neg]
    simpa [e] using fun he => h (by simpa using he.symm)

theorem safeCarried (l : List (Str × SigHeaders)) (h : Wire.Carries (signed safe).headers l) :
    ∀ kv ∈ l, ∀ i ∈ kv.2.params.covered, Clear [c! "host"] i ∧ ¬ LostIn (.req (signed safe)) i := by
  have hw : WfHeaders (signed safe).headers := wfNames (by decide +kernel)
  have h1 := (extractSignatureHeaders_ok (m := .req (signed safe)) hw l).2 (wireCarries_iff.1 h)
  have h2 : ∀ kv ∈ (match extractSignatureHeaders (.req (signed safe)) with | .ok l => l | _ => []), ∀ i ∈ kv.2.params.covered, i ∈ safe := by decide +kernel
  rw [h1] at h2
  intro kv hkv i hi
  have := h2 kv hkv i hi
  simp only [safe, List.mem_cons, List.not_mem_nil, or_false] at this
  rcases this with rfl | rfl | rfl
  · exact ⟨⟨fun f e => (by cases e), fun e => (by cases e)⟩, by rintro ⟨h | h | h, _⟩ <;> cases h⟩
  · exact ⟨⟨fun f e => (by cases e), fun e => (by cases e)⟩, by rintro ⟨h | h | h, _⟩ <;> cases h⟩
  · exact ⟨⟨fun f e => (by cases e; decide), fun e => (by cases e)⟩, by rintro ⟨h | h | h, _⟩ <;> cases h⟩

/-- The hypotheses of `C124_verify` with a signed request. -/
example (now : UInt64) (keys : List (VerifyingKey × Option Str)) :
    verifySignatures now (.req (gotSigned safe)) keys none = verifySignatures now (.req (signed safe)) keys none :=
  (C124_verify (.request (signedArrives safe) absolute (by decide)) ⟨by decide, by decide⟩ (wfNames (by decide +kernel)) (wfNames (by decide +kernel))
    (by simp) (by simp) safeCarried now keys).1

/-- And those of `C124_restored_verify`. -/
example (now : UInt64) (keys : List (VerifyingKey × Option Str)) :
    verifySignatures now (.req (restored (c! "https") (c! "Example.com") (gotSigned safe))) keys none = verifySignatures now (.req (signed safe)) keys none :=
  (C124_restored_verify (signedArrives safe) absolute (by decide) ⟨by decide, by decide⟩ rfl rfl (wfNames (by decide +kernel)) (wfNames (by decide +kernel))
    (fun l h kv hkv i hi => (safeCarried l h kv hkv i hi).1) now keys).1

end Ex124

end Verif
