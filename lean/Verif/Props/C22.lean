import Verif.Proofs.Value
/-!
C22, C23, C25, C26, C29, C30, C47, C48: which component values go into a signature base.

`buildBase m p rf` is the base that signing and verification use for the message `m`, the parameters `p` and, for a response,
the corresponding request `rf`.
-/
namespace Verif
open Sfv Spec

/-- The component `i` is found in the message and its value is the text `v`. -/
def Extracts (m : Msg) (rf : Option Request) (i : CId) (v : Str) : Prop :=
  ∃ c, extractFor m rf i = .ok c ∧ c.id = i ∧ c.value.disp = v

theorem extracts_iff {m : Msg} {rf : Option Request} (hw : WfHeaders m.headers) (hf : ∀ r, rf = some r → WfHeaders r.headers)
    (i : CId) (v : Str) : Extracts m rf i v ↔ HasValue m rf i v := by
  rw [← extractFor_ok hw hf]
  constructor
  · rintro ⟨c, h1, _, h3⟩; exact ⟨c, h1, h3⟩
  · rintro ⟨c, h1, h3⟩; exact ⟨c, h1, extractFor_id h1, h3⟩

theorem extracts_unique {m : Msg} {rf : Option Request} {i : CId} {v w : Str} (h : Extracts m rf i v) (h' : Extracts m rf i w) :
    v = w := by
  obtain ⟨c, h1, _, rfl⟩ := h
  obtain ⟨d, h2, _, rfl⟩ := h'
  rw [h1] at h2; injection h2 with h2; rw [h2]

/-- What a base is in terms of `Extracts`. -/
theorem buildBase_extracts {m : Msg} {p : SigParams} {rf : Option Request} (text : Str) :
    (∃ b, buildBase m p rf = .ok b ∧ b.disp = text) ↔
      ∃ vs, List.Forall₂ (Extracts m rf) p.covered vs ∧ text = baseText p.covered vs p.disp := by
  constructor
  · rintro ⟨b, h1, rfl⟩
    refine ⟨b.lines.map (fun c => c.value.disp), ?_, disp_baseText h1⟩
    obtain ⟨rfl, h2⟩ := buildBase_ok.1 h1
    generalize b.params.covered = ids at h2
    generalize b.lines = cs at h2
    clear h1
    induction h2 with
    | nil => exact .nil
    | cons h _ ih => exact .cons ⟨_, h, extractFor_id h, rfl⟩ ih
  · rintro ⟨vs, h1, rfl⟩
    have : ∃ cs, List.Forall₂ (fun i c => extractFor m rf i = .ok c) p.covered cs ∧ cs.map (fun c => c.value.disp) = vs := by
      generalize p.covered = ids at h1
      induction h1 with
      | nil => exact ⟨[], .nil, rfl⟩
      | cons h _ ih =>
        obtain ⟨c, hc, _, hv⟩ := h
        obtain ⟨cs, h2, h3⟩ := ih
        exact ⟨c :: cs, .cons hc h2, by rw [List.map_cons, hv, h3]⟩
    obtain ⟨cs, h2, h3⟩ := this
    have hb := buildBase_ok (m := m) (p := p) (rf := rf) (b := ⟨cs, p⟩) |>.2 ⟨rfl, h2⟩
    exact ⟨_, hb, by rw [disp_baseText hb, ← h3]⟩

/-- A base cannot be built exactly when some component cannot be extracted. -/
theorem buildBase_fails {m : Msg} {p : SigParams} {rf : Option Request} :
    (∃ e, buildBase m p rf = .err e) ↔ ∃ i ∈ p.covered, ∀ v, ¬ Extracts m rf i v := by
  constructor
  · rintro ⟨e, h⟩
    by_contra hc
    have hc : ∀ i ∈ p.covered, ∃ v, Extracts m rf i v := by
      intro i hi
      by_contra hn
      exact hc ⟨i, hi, fun v hv => hn ⟨v, hv⟩⟩
    have : ∃ vs, List.Forall₂ (Extracts m rf) p.covered vs := by
      generalize p.covered = ids at hc
      induction ids with
      | nil => exact ⟨[], .nil⟩
      | cons i t ih =>
        obtain ⟨v, hv⟩ := hc i (by simp)
        obtain ⟨vs, hvs⟩ := ih (fun j hj => hc j (by simp [hj]))
        exact ⟨v :: vs, .cons hv hvs⟩
    obtain ⟨vs, hvs⟩ := this
    obtain ⟨b, hb, _⟩ := (buildBase_extracts _).2 ⟨vs, hvs, rfl⟩
    rw [h] at hb; cases hb
  · rintro ⟨i, hi, h⟩
    cases hb : buildBase m p rf with
    | err e => exact ⟨e, rfl⟩
    | panic => exact absurd hb (buildBase_ne_panic _ _ _)
    | ok b =>
      exfalso
      obtain ⟨rfl, h2⟩ := buildBase_ok.1 hb
      generalize b.params.covered = ids at h2 hi
      generalize b.lines = cs at h2
      clear hb
      induction h2 with
      | nil => simp at hi
      | cons hx _ ih =>
        rcases List.mem_cons.1 hi with rfl | hi
        · exact h _ ⟨_, hx, extractFor_id hx, rfl⟩
        · exact ih hi

theorem extractFor_noreq {m : Msg} {rf : Option Request} {i : CId} (h : CParam.req ∉ i.params) :
    extractFor m rf i = extractComponent m i := by
  unfold extractFor; rw [if_neg (by simpa using h)]

theorem extractFor_req {m : Msg} {rf : Option Request} {i : CId} (h : CParam.req ∈ i.params) :
    extractFor m rf i = if m.isReq then .err .invalidComponentParam
      else match rf with
        | none => .err .invalidComponentParam
        | some r => extractComponent (.req r) i := by
  unfold extractFor
  have hc : i.params.contains CParam.req = true := by simpa using h
  rw [if_pos hc]
  rfl

theorem extractFor_req_request {r : Request} {rf : Option Request} {i : CId} (h : CParam.req ∈ i.params) :
    extractFor (.req r) rf i = .err .invalidComponentParam := by
  rw [extractFor_req h]; rfl

/-! ### A concrete request and response used in the examples -/

def exUri : Uri := ⟨some (c! "https"), some (c! "Example.COM"), c! "/a b", some (c! "x=1&y=2&x=3&z&=q&x")⟩
def exReq : Request where
  method := c! "post"
  uri := exUri
  headers := [(c! "date", utf8 (c! "Tue")), (c! "x-list", utf8 (c! "1,  2")), (c! "accept", utf8 (c! "*")),
    (c! "x-list", utf8 (c! "a;q=1")), (c! "x-dict", utf8 (c! "a=1,   b=(1 2)"))]
  body := .data []
def exRes : Response where
  status := 404
  headers := [(c! "date", utf8 (c! "Wed"))]
  body := .data []

theorem exReq_wf : WfHeaders exReq.headers := by
  intro kv hkv
  simp only [exReq, List.mem_cons, List.not_mem_nil, or_false] at hkv
  rcases hkv with rfl | rfl | rfl | rfl | rfl <;> exact ⟨by decide, by decide, by decide⟩

theorem exRes_wf : WfHeaders exRes.headers := by
  intro kv hkv
  simp only [exRes, List.mem_cons, List.not_mem_nil, or_false] at hkv
  subst hkv; exact ⟨by decide, by decide, by decide⟩

/-! ### C22: rules for `req` and derived components -/

/-- C22: a request cannot be signed or verified with a component that has `req`. -/
theorem C22_request_req (r : Request) (p : SigParams) (rf : Option Request) (i : CId) (hi : i ∈ p.covered)
    (hr : CParam.req ∈ i.params) : ∃ e, buildBase (.req r) p rf = .err e := by
  rw [buildBase_fails]
  refine ⟨i, hi, ?_⟩
  rintro v ⟨c, h, _⟩
  rw [extractFor_req_request hr] at h
  cases h

/-- C22: `@status` of a request does not exist. -/
theorem C22_request_status (r : Request) (p : SigParams) (rf : Option Request) (ps : List CParam)
    (hi : ⟨.derived .status, ps⟩ ∈ p.covered) : ∃ e, buildBase (.req r) p rf = .err e := by
  rw [buildBase_fails]
  refine ⟨_, hi, ?_⟩
  rintro v ⟨c, h, _⟩
  by_cases hr : CParam.req ∈ ps
  · rw [extractFor_req_request hr] at h; cases h
  · rw [extractFor_noreq hr] at h
    unfold extractComponent extractDerived at h
    simp only at h
    obtain ⟨_, _, h⟩ := Res.bind_eq_ok.1 h
    simp [checkDerivedKind] at h

/-- C22: a response component with `req` needs the request. -/
theorem C22_response_req_without_request (s : Response) (p : SigParams) (i : CId) (hi : i ∈ p.covered)
    (hr : CParam.req ∈ i.params) : ∃ e, buildBase (.res s) p none = .err e := by
  rw [buildBase_fails]
  refine ⟨i, hi, ?_⟩
  rintro v ⟨c, h, _⟩
  unfold extractFor at h
  rw [if_pos (by simpa using hr)] at h
  simp [Msg.isReq] at h

/-- C22: a derived component of a response, other than `@status` and `@signature-params`, needs `req`. -/
theorem C22_response_derived_needs_req (s : Response) (p : SigParams) (rf : Option Request) (d : Derived) (ps : List CParam)
    (hi : ⟨.derived d, ps⟩ ∈ p.covered) (hd : d ≠ .status ∧ d ≠ .signatureParams) (hr : CParam.req ∉ ps) :
    ∃ e, buildBase (.res s) p rf = .err e := by
  rw [buildBase_fails]
  refine ⟨_, hi, ?_⟩
  rintro v ⟨c, h, _⟩
  unfold extractFor at h
  rw [if_neg (by simpa using hr)] at h
  unfold extractComponent extractDerived at h
  simp only at h
  obtain ⟨_, _, h⟩ := Res.bind_eq_ok.1 h
  simp [checkDerivedKind, hd.1, hd.2, hr] at h

/-- C22: `@status` cannot have `req`. -/
theorem C22_response_status_req (s : Response) (p : SigParams) (rf : Option Request) (ps : List CParam)
    (hi : ⟨.derived .status, ps⟩ ∈ p.covered) (hr : CParam.req ∈ ps) : ∃ e, buildBase (.res s) p rf = .err e := by
  cases rf with
  | none => exact C22_response_req_without_request s p _ hi hr
  | some r =>
    rw [buildBase_fails]
    refine ⟨_, hi, ?_⟩
    rintro v ⟨c, h, _⟩
    unfold extractFor at h
    rw [if_pos (by simpa using hr), if_neg (by simp [Msg.isReq])] at h
    unfold extractComponent extractDerived at h
    simp only at h
    obtain ⟨_, _, h⟩ := Res.bind_eq_ok.1 h
    simp [checkDerivedKind] at h

/-- The rules of C22 for one id, on a request. -/
def RequestRule (i : CId) : Prop := CParam.req ∉ i.params ∧ i.name ≠ .derived .status
/-- The rules of C22 for one id, on a response. -/
def ResponseRule (rf : Option Request) (i : CId) : Prop :=
  (CParam.req ∈ i.params → rf.isSome ∧ i.name ≠ .derived .status) ∧
  (CParam.req ∉ i.params → ∀ d, i.name = .derived d → d = .status ∨ d = .signatureParams)

/-- C22, the other direction: these rules are the only ones on ids without other parameters. A base is built from fields of
visible text and derived components other than `@query-param` and `@signature-params` whenever the rules hold. -/
theorem C22_rules_suffice {m : Msg} {p : SigParams} {rf : Option Request}
    (hw : WfHeaders m.headers) (hf : ∀ r, rf = some r → WfHeaders r.headers)
    (hreqRule : m.isReq = true → ∀ i ∈ p.covered, RequestRule i)
    (hresRule : m.isReq = false → ∀ i ∈ p.covered, ResponseRule rf i)
    (hps : ∀ i ∈ p.covered, ∀ q ∈ i.params, q = .req)
    (hd : ∀ i ∈ p.covered, i.name ≠ .derived .queryParam ∧ i.name ≠ .derived .signatureParams)
    (ht : ∀ kv ∈ m.headers, (hvToStr kv.2).isSome) (htr : ∀ r, rf = some r → ∀ kv ∈ r.headers, (hvToStr kv.2).isSome) :
    ∃ b, buildBase m p rf = .ok b := by
  cases hb : buildBase m p rf with
  | ok b => exact ⟨b, rfl⟩
  | panic => exact absurd hb (buildBase_ne_panic _ _ _)
  | err e =>
    exfalso
    obtain ⟨i, hi, hnone⟩ := buildBase_fails.1 ⟨e, hb⟩
    have texts : ∀ (h : Headers), (∀ kv ∈ h, (hvToStr kv.2).isSome) → ∀ f, ∃ ts, LineTexts (fieldLines h f) ts := by
      intro h hh f
      have : ∀ l ∈ fieldLines h f, (hvToStr l).isSome := by
        intro l hl
        obtain ⟨kv, hkv, rfl⟩ := List.mem_map.1 hl
        exact hh kv (List.mem_of_mem_filter hkv)
      unfold LineTexts
      generalize fieldLines h f = ls at this
      induction ls with
      | nil => exact ⟨[], .nil⟩
      | cons l t ih =>
        obtain ⟨x, hx⟩ := Option.isSome_iff_exists.1 (this l (by simp))
        obtain ⟨xs, hxs⟩ := ih (fun l hl => this l (by simp [hl]))
        exact ⟨x :: xs, .cons hx hxs⟩
    have applied : ∀ (ps : List CParam) vs, (∀ q ∈ ps, q = .req) → Applied ps vs vs := by
      intro ps vs h
      induction ps with
      | nil => exact .done _
      | cons q t ih =>
        obtain rfl := h q (by simp)
        exact .req (ih (fun q hq => h q (by simp [hq])))
    have field : ∀ (m : Msg) f, (∀ kv ∈ m.headers, (hvToStr kv.2).isSome) → i.name = .field f → ∃ v, ValueIn m i v := by
      intro m f hh hf
      obtain ⟨n, ps⟩ := i
      simp only at hf; subst hf
      obtain ⟨ts, h1⟩ := texts m.headers hh f
      exact ⟨_, ts, ts, h1, applied ps ts (hps _ hi), rfl⟩
    have derivedReq : ∀ (r : Request) d, i.name = .derived d → d ≠ .status → ∃ v, ValueIn (.req r) i v := by
      intro r d hn hs
      have h2 := hd i hi
      have h3 := hps i hi
      obtain ⟨n, ps⟩ := i
      simp only at hn h2; subst hn
      have h3 : DerivedParams d ps := fun q hq => Or.inl (h3 q hq)
      unfold ValueIn
      simp only [h3, true_and]
      cases d <;> simp_all [RequestValue]
    have hv : ∃ v, HasValue m rf i v := by
      unfold HasValue
      by_cases hreq : CParam.req ∈ i.params
      · rw [show (fun v => if CParam.req ∈ i.params then ∃ s r, m = .res s ∧ rf = some r ∧ ValueIn (.req r) i v
          else ValueIn m i v) = fun v => ∃ s r, m = .res s ∧ rf = some r ∧ ValueIn (.req r) i v from by funext v; rw [if_pos hreq]]
        cases m with
        | req r => exact absurd hreq (hreqRule rfl i hi).1
        | res s =>
          obtain ⟨h1, h2⟩ := (hresRule rfl i hi).1 hreq
          obtain ⟨r, rfl⟩ := Option.isSome_iff_exists.1 h1
          have : ∃ v, ValueIn (.req r) i v := by
            cases hn : i.name with
            | field f => exact field (.req r) f (htr r rfl) hn
            | derived d => exact derivedReq r d hn (fun e => h2 (by rw [hn, e]))
          obtain ⟨v, hv⟩ := this
          exact ⟨v, s, r, rfl, rfl, hv⟩
      · rw [show (fun v => if CParam.req ∈ i.params then ∃ s r, m = .res s ∧ rf = some r ∧ ValueIn (.req r) i v
          else ValueIn m i v) = fun v => ValueIn m i v from by funext v; rw [if_neg hreq]]
        cases hn : i.name with
        | field f => exact field m f ht hn
        | derived d =>
          cases m with
          | req r => exact derivedReq r d hn (fun e => (hreqRule rfl i hi).2 (by rw [hn, e]))
          | res s =>
            have h2 := (hresRule rfl i hi).2 hreq d hn
            have h4 := (hd i hi).2
            have h3 : i.params = [] := by
              cases hp : i.params with
              | nil => rfl
              | cons q t => exact absurd (by rw [hp, ← hps i hi q (by rw [hp]; simp)]; simp) hreq
            have : d = .status := h2.resolve_right (fun e => h4 (by rw [hn, e]))
            subst this
            obtain ⟨n, ps⟩ := i
            simp only at hn h3; subst hn; subst h3
            exact ⟨_, rfl, rfl⟩
    obtain ⟨v, hv⟩ := hv
    exact hnone v ((extracts_iff hw hf i v).2 hv)

def exParams (ids : List CId) : SigParams := { covered := ids }

example : ∃ e, buildBase (.req exReq) (exParams [⟨.field (c! "date"), []⟩, ⟨.derived .method, [.req]⟩]) none = .err e :=
  C22_request_req _ _ _ ⟨.derived .method, [.req]⟩ (by decide) (by decide)
example : ∃ b, buildBase (.res exRes) (exParams [⟨.field (c! "date"), []⟩, ⟨.derived .method, [.req]⟩, ⟨.derived .status, []⟩])
    (some exReq) = .ok b :=
  C22_rules_suffice exRes_wf (by rintro r ⟨⟩; exact exReq_wf) (by intro h; cases h)
    (by
      intro _ i hi
      simp only [exParams, List.mem_cons, List.not_mem_nil, or_false] at hi
      rcases hi with rfl | rfl | rfl <;> simp [ResponseRule])
    (by decide) (by decide) (by decide) (by rintro r ⟨⟩; decide)

/-! ### C23, C26: what a base depends on -/

/-- The two messages agree on the part a component name refers to. -/
def SameSource (m m' : Msg) : CName → Prop
  | .field f => fieldLines m.headers f = fieldLines m'.headers f
  | .derived .status => m.status = m'.status
  | .derived .signatureParams => fieldLines m.headers (c! "signature-input") = fieldLines m'.headers (c! "signature-input")
  | .derived .method => m.method = m'.method
  | .derived .requestTarget => m.method = m'.method ∧ m.uri = m'.uri
  | .derived _ => m.uri = m'.uri

theorem extractComponent_congr {m m' : Msg} (hw : WfHeaders m.headers) (hw' : WfHeaders m'.headers) (hk : m.isReq = m'.isReq)
    {i : CId} (h : SameSource m m' i.name) : extractComponent m i = extractComponent m' i := by
  obtain ⟨n, ps⟩ := i
  cases n with
  | field f =>
    unfold extractComponent extractHttpField headerTexts
    simp only
    rw [getAll_fieldLines hw, getAll_fieldLines hw', show fieldLines m.headers f = fieldLines m'.headers f from h]
  | derived d =>
    unfold extractComponent extractDerived
    simp only
    have h1 : checkDerivedParams m d ps = checkDerivedParams m' d ps := by
      clear h
      induction ps with
      | nil => rfl
      | cons p t ih =>
        simp only [checkDerivedParams]
        rw [ih]
        congr 1
        cases p <;> simp only [checkDerivedParam, hk]
    have h2 : checkDerivedKind m d ps = checkDerivedKind m' d ps := by
      cases m <;> cases m' <;> first | rfl | (simp [Msg.isReq] at hk)
    have h3 : derivedValues m d = derivedValues m' d := by
      cases d <;> simp only [SameSource] at h <;> simp only [derivedValues]
      case signatureParams =>
        rw [sigParams_values hw, sigParams_values hw', h]
      case requestTarget => rw [h.1, h.2]
      all_goals rw [h]
    rw [h1, h2, h3]

/-- The general form: the base depends on each message only through the parts its covered ids refer to. -/
theorem buildBase_congr {m m' : Msg} {rf rf' : Option Request} {p : SigParams}
    (hw : WfHeaders m.headers) (hw' : WfHeaders m'.headers) (hk : m.isReq = m'.isReq)
    (hr : rf.isSome = rf'.isSome) (hf : ∀ r, rf = some r → WfHeaders r.headers) (hf' : ∀ r, rf' = some r → WfHeaders r.headers)
    (h1 : ∀ i ∈ p.covered, CParam.req ∉ i.params → SameSource m m' i.name)
    (h2 : ∀ i ∈ p.covered, CParam.req ∈ i.params → ∀ r r', rf = some r → rf' = some r' → SameSource (.req r) (.req r') i.name) :
    buildBase m p rf = buildBase m' p rf' := by
  unfold buildBase
  rw [Res.collect_congr]
  intro i hi
  by_cases hreq : CParam.req ∈ i.params
  · rw [extractFor_req hreq, extractFor_req hreq, hk]
    cases m'.isReq with
    | true => rfl
    | false =>
      simp only [Bool.false_eq_true, if_false]
      cases rf with
      | none => cases rf' with
        | none => rfl
        | some r' => cases hr
      | some r => cases rf' with
        | none => cases hr
        | some r' => exact extractComponent_congr (m := .req r) (m' := .req r') (hf r rfl) (hf' r' rfl) rfl (h2 i hi hreq r r' rfl rfl)
  · rw [extractFor_noreq hreq, extractFor_noreq hreq]
    exact extractComponent_congr hw hw' hk (h1 i hi hreq)

/-- C23: the base of a response depends on the response only through ids without `req` and on the request only through ids
with `req`. -/
theorem C23_sources {s s' : Response} {r r' : Request} {p : SigParams}
    (hs : WfHeaders s.headers) (hs' : WfHeaders s'.headers) (hr : WfHeaders r.headers) (hr' : WfHeaders r'.headers)
    (h1 : ∀ i ∈ p.covered, CParam.req ∉ i.params → SameSource (.res s) (.res s') i.name)
    (h2 : ∀ i ∈ p.covered, CParam.req ∈ i.params → SameSource (.req r) (.req r') i.name) :
    buildBase (.res s) p (some r) = buildBase (.res s') p (some r') :=
  buildBase_congr hs hs' rfl rfl (by rintro _ ⟨⟩; exact hr) (by rintro _ ⟨⟩; exact hr') h1
    (by rintro i hi hreq _ _ ⟨⟩ ⟨⟩; exact h2 i hi hreq)

/-- C23: without `req` among the covered ids the request does not matter, not even its presence. -/
theorem C23_request_irrelevant {s : Response} {rf rf' : Option Request} {p : SigParams}
    (h : ∀ i ∈ p.covered, CParam.req ∉ i.params) : buildBase (.res s) p rf = buildBase (.res s) p rf' := by
  unfold buildBase
  rw [Res.collect_congr]
  intro i hi
  unfold extractFor
  rw [if_neg (by simpa using h i hi), if_neg (by simpa using h i hi)]

/-- C23: the value of an id with `req` is the value the same id has in the request; of an id without, the value in the response. -/
theorem C23_value {s : Response} {r : Request} (hs : WfHeaders s.headers) (hr : WfHeaders r.headers) (i : CId) (v : Str) :
    Extracts (.res s) (some r) i v ↔ (CParam.req ∈ i.params ∧ ValueIn (.req r) i v) ∨ (CParam.req ∉ i.params ∧ ValueIn (.res s) i v) := by
  rw [extracts_iff (m := .res s) hs (by rintro _ ⟨⟩; exact hr)]
  unfold HasValue
  by_cases h : CParam.req ∈ i.params
  · rw [if_pos h]
    constructor
    · rintro ⟨_, _, h1, h2, h3⟩; injection h2 with h2; subst h2; exact Or.inl ⟨h, h3⟩
    · rintro (⟨_, h3⟩ | ⟨h', _⟩)
      · exact ⟨s, r, rfl, rfl, h3⟩
      · exact absurd h h'
  · rw [if_neg h]; simp [h]

/-- `date` without `req` is the response's date, with `req` the request's date. -/
example : Extracts (.res exRes) (some exReq) ⟨.field (c! "date"), []⟩ (c! "Wed") ∧
    Extracts (.res exRes) (some exReq) ⟨.field (c! "date"), [.req]⟩ (c! "Tue") :=
  ⟨⟨⟨⟨.field (c! "date"), []⟩, .plain (c! "Wed")⟩, by decide, rfl, rfl⟩,
   ⟨⟨⟨.field (c! "date"), [.req]⟩, .plain (c! "Tue")⟩, by decide, rfl, rfl⟩⟩

/-- C26: only the sequence of values of each field matters. -/
theorem C26_field_sequences {r r' : Request} {p : SigParams} {rf : Option Request} (hw : WfHeaders r.headers) (hw' : WfHeaders r'.headers)
    (hm : r.method = r'.method) (hu : r.uri = r'.uri) (hl : ∀ f, fieldLines r.headers f = fieldLines r'.headers f) :
    buildBase (.req r) p rf = buildBase (.req r') p rf := by
  have key : ∀ n, SameSource (.req r) (.req r') n := by
    intro n
    cases n with
    | field f => exact hl f
    | derived d => cases d <;> simp [SameSource, Msg.status, Msg.method, Msg.uri, Msg.headers, hm, hu, hl]
  unfold buildBase
  rw [Res.collect_congr]
  intro i hi
  unfold extractFor
  split
  · rfl
  · exact extractComponent_congr (m := .req r) (m' := .req r') hw hw' rfl (key _)

/-- C26 for responses. -/
theorem C26_field_sequences_response {s s' : Response} {p : SigParams} {rf : Option Request} (hw : WfHeaders s.headers)
    (hw' : WfHeaders s'.headers) (hst : s.status = s'.status) (hl : ∀ f, fieldLines s.headers f = fieldLines s'.headers f) :
    buildBase (.res s) p rf = buildBase (.res s') p rf := by
  have key : ∀ n, SameSource (.res s) (.res s') n := by
    intro n
    cases n with
    | field f => exact hl f
    | derived d => cases d <;> simp [SameSource, Msg.status, Msg.method, Msg.uri, Msg.headers, hst, hl]
  unfold buildBase
  rw [Res.collect_congr]
  intro i hi
  unfold extractFor
  split
  · rfl
  · exact extractComponent_congr (m := .res s) (m' := .res s') hw hw' rfl (key _)

/-- C26: exchanging neighbouring lines of different fields changes no field's sequence; every reordering that keeps the relative
order of equal names is made of such exchanges. -/
theorem C26_exchange (h1 h2 : Headers) (a b : Str × Bytes) (hne : lower a.1 ≠ lower b.1) (f : Str) :
    fieldLines (h1 ++ a :: b :: h2) f = fieldLines (h1 ++ b :: a :: h2) f := by
  unfold fieldLines
  simp only [List.filter_append, List.filter_cons]
  by_cases ha : lower a.1 = lower f
  · have hb : ¬ lower b.1 = lower f := fun e => hne (ha.trans e.symm)
    simp [ha, hb]
  · simp [ha]

/-- C26: ids that differ in letter case select the same value. -/
theorem C26_case {m : Msg} {rf : Option Request} (hw : WfHeaders m.headers) (hf : ∀ r, rf = some r → WfHeaders r.headers)
    (f g : Str) (ps : List CParam) (h : lower f = lower g) (v : Str) :
    Extracts m rf ⟨.field f, ps⟩ v ↔ Extracts m rf ⟨.field g, ps⟩ v := by
  rw [extracts_iff hw hf, extracts_iff hw hf]
  unfold HasValue ValueIn FieldValue fieldLines
  simp only [h]

example : Extracts (.req exReq) none ⟨.field (c! "X-List"), []⟩ (c! "1,  2, a;q=1") :=
  (C26_case (m := .req exReq) exReq_wf (by simp) (c! "X-List") (c! "x-list") [] (by decide) _).2
    ⟨⟨⟨.field (c! "x-list"), []⟩, .plain (c! "1,  2, a;q=1")⟩, by decide, rfl, rfl⟩

/-! ### C25: field values -/

/-- C25: without parameters the value is the field's lines in order, joined with ", ". -/
theorem C25_value {m : Msg} {rf : Option Request} (hw : WfHeaders m.headers) (hf : ∀ r, rf = some r → WfHeaders r.headers)
    (f v : Str) :
    Extracts m rf ⟨.field f, []⟩ v ↔ ∃ ts, LineTexts (fieldLines m.headers f) ts ∧ v = join (c! ", ") ts := by
  rw [extracts_iff hw hf]
  unfold HasValue
  rw [if_neg (by simp)]
  unfold ValueIn FieldValue
  constructor
  · rintro ⟨ts, out, h1, h2, h3⟩; cases h2; exact ⟨ts, h1, h3⟩
  · rintro ⟨ts, h1, h2⟩; exact ⟨ts, ts, h1, .done _, h2⟩

/-- C25 with `req`: the same of the request. -/
theorem C25_value_req {s : Response} {r : Request} (hw : WfHeaders s.headers) (hr : WfHeaders r.headers) (f v : Str) :
    Extracts (.res s) (some r) ⟨.field f, [.req]⟩ v ↔ ∃ ts, LineTexts (fieldLines r.headers f) ts ∧ v = join (c! ", ") ts := by
  rw [C23_value hw hr]
  simp only [List.mem_singleton, not_true_eq_false, false_and, or_false, true_and]
  unfold ValueIn FieldValue
  constructor
  · rintro ⟨ts, out, h1, h2, h3⟩; cases h2 with | req h2 => cases h2; exact ⟨ts, h1, h3⟩
  · rintro ⟨ts, h1, h2⟩; exact ⟨ts, ts, h1, .req (.done _), h2⟩

/-- C25: a line with a byte that is not visible ASCII, space or tab makes signing and verifying fail, whatever the parameters. -/
theorem C25_not_visible {m : Msg} {p : SigParams} {rf : Option Request} (hw : WfHeaders m.headers) (f : Str) (ps : List CParam)
    (hreq : CParam.req ∉ ps) (hi : ⟨.field f, ps⟩ ∈ p.covered) (l : Bytes) (hl : l ∈ fieldLines m.headers f) (x : UInt8) (hx : x ∈ l)
    (hb : ¬ (0x20 ≤ x.toNat ∧ x.toNat ≤ 0x7e) ∧ x.toNat ≠ 9) : ∃ e, buildBase m p rf = .err e := by
  rw [buildBase_fails]
  refine ⟨_, hi, ?_⟩
  rintro v ⟨c, h, _⟩
  unfold extractFor at h
  rw [if_neg (by simpa using hreq)] at h
  unfold extractComponent at h
  obtain ⟨w, ⟨ts, out, h1, h2⟩, _⟩ := (extractHttpField_ok hw f ps c).1 h
  clear h2
  have : ∃ t, hvToStr l = some t := by
    unfold LineTexts at h1
    generalize fieldLines m.headers f = ls at h1 hl
    induction h1 with
    | nil => simp at hl
    | cons h _ ih =>
      rcases List.mem_cons.1 hl with rfl | hl
      · exact ⟨_, h⟩
      · exact ih hl
  obtain ⟨t, ht⟩ := this
  unfold hvToStr at ht
  split at ht
  · rename_i ha
    rw [List.all_eq_true] at ha
    have := ha x hx
    simp only [hvVisible, Bool.or_eq_true, Bool.and_eq_true, decide_eq_true_eq, beq_iff_eq] at this
    omega
  · cases ht

/-- C25: the text of a visible line has exactly the line's bytes. -/
theorem C25_line_text (l : Bytes) (t : Str) :
    hvToStr l = some t ↔ utf8 t = l ∧ ∀ c ∈ t, Printable c ∨ c = '\t' := by
  constructor
  · exact hvToStr_some
  · rintro ⟨rfl, h⟩
    cases hs : hvToStr (utf8 t) with
    | some s => rw [utf8_inj (hvToStr_some hs).1]
    | none =>
      exfalso
      unfold hvToStr at hs
      split at hs
      · cases hs
      rename_i hn
      apply hn
      have hlt : ∀ c ∈ t, c.toNat < 128 := by
        intro c hc
        rcases h c hc with h | h
        · unfold Printable at h; omega
        · subst h; decide
      rw [utf8_ascii hlt, List.all_eq_true]
      intro x hx
      obtain ⟨c, hc, rfl⟩ := List.mem_map.1 hx
      simp only [hvVisible, char_u8 (hlt c hc)]
      rcases h c hc with h | h
      · unfold Printable at h
        have : c.toNat < 127 := by omega
        simp [h.1, this]
      · subst h; decide

example : ∃ e, buildBase (.req { exReq with headers := [(c! "date", [84, 200])] }) (exParams [⟨.field (c! "Date"), []⟩]) none = .err e := by
  refine C25_not_visible ?_ (c! "Date") [] (by simp) (by decide) [84, 200] (by decide) 200 (by decide) (by decide)
  intro kv hkv
  have hkv : kv ∈ [(c! "date", ([84, 200] : Bytes))] := hkv
  simp only [List.mem_singleton] at hkv; subst hkv; exact ⟨by decide, by decide, by decide⟩

/-! ### C29: query parameters -/

/-- C29: `@query-param;name="n"` is the raw text after `n=` of each piece of the query that starts with `n=`, in order. -/
theorem C29_value {r : Request} (hw : WfHeaders r.headers) (n v : Str) :
    Extracts (.req r) none ⟨.derived .queryParam, [.name n]⟩ v ↔
      pieces (r.uri.query.getD []) ≠ [] ∧ v = join (c! ", ") (queryValues n (pieces (r.uri.query.getD []))) := by
  rw [extracts_iff (m := .req r) hw (by simp)]
  unfold HasValue
  rw [if_neg (by simp)]
  unfold ValueIn RequestValue
  simp only [List.findSome?_cons, CParam.nameOf, Option.some.injEq, exists_eq_left']
  constructor
  · rintro ⟨_, h⟩; exact h
  · intro h; exact ⟨by intro p hp; simp at hp; exact Or.inr ⟨rfl, n, hp⟩, h⟩

/-- C29: the piece `n=w` (where `n` has no `=`) contributes `w`, another piece contributes nothing. -/
theorem C29_piece (n p : Str) :
    queryValues n [p] = (match splitOnce '=' p with | some (k, w) => if k = n then [w] else [] | none => []) := by
  unfold queryValues
  rw [List.filterMap_cons]
  by_cases h : (n ++ ['=']).isPrefixOf p = true ∧ '=' ∉ n
  · rw [if_pos h, (splitOnce_name n p _).2 ⟨h, rfl⟩]
    simp
  · rw [if_neg h]
    cases hs : splitOnce '=' p with
    | none => rfl
    | some kw =>
      obtain ⟨k, w⟩ := kw
      simp only [List.filterMap_nil]
      rw [if_neg]
      rintro rfl
      exact h ((splitOnce_name k p w).1 hs).1

/-- C29: without a name, or with a query that has no pieces, signing and verifying fail. -/
theorem C29_fails {r : Request} {p : SigParams} {rf : Option Request} (ps : List CParam)
    (hi : ⟨.derived .queryParam, ps⟩ ∈ p.covered) (h : (∀ n, CParam.name n ∉ ps) ∨ pieces (r.uri.query.getD []) = []) :
    ∃ e, buildBase (.req r) p rf = .err e := by
  rw [buildBase_fails]
  refine ⟨_, hi, ?_⟩
  rintro v ⟨c, hx, _⟩
  by_cases hr : CParam.req ∈ ps
  · rw [extractFor_req_request hr] at hx; cases hx
  rw [extractFor_noreq hr] at hx
  unfold extractComponent extractDerived at hx
  simp only at hx
  obtain ⟨_, hp, hx⟩ := Res.bind_eq_ok.1 hx
  obtain ⟨_, _, hx⟩ := Res.bind_eq_ok.1 hx
  obtain ⟨vs, hv, hx⟩ := Res.bind_eq_ok.1 hx
  rw [Res.mapErr_eq_ok] at hx
  have hvs : vs = pieces (r.uri.query.getD []) := by
    simp only [derivedValues, Msg.uri, Res.bind_ok] at hv
    injection hv with hv; exact hv.symm
  subst hvs
  have hdp : DerivedParams .queryParam ps := by
    intro q hq
    rcases (checkDerivedParams_ok _ _ _).1 hp q hq with ⟨h, _⟩ | h
    · exact Or.inl h
    · exact Or.inr h
  obtain ⟨hne, w, h3, rfl⟩ := (build_derived _ ps _ hdp c).1 hx
  rcases h with h | h
  · simp only [derivedValue] at h3
    split at h3
    · cases h3
    · rename_i n hn
      obtain ⟨q, hq, hq2⟩ := List.exists_of_findSome?_eq_some hn
      cases q with
      | name m => exact h m hq
      | _ => simp [CParam.nameOf] at hq2
  · exact hne h

example : Extracts (.req exReq) none ⟨.derived .queryParam, [.name (c! "x")]⟩ (c! "1, 3") :=
  (C29_value exReq_wf _ _).2 (by decide)

/-! ### C30: derived components -/

/-- C30: the derived components of a request. -/
theorem C30_request {r : Request} (hw : WfHeaders r.headers) (v : Str) :
    (Extracts (.req r) none ⟨.derived .method, []⟩ v ↔ v = r.method.map Char.toUpper) ∧
    (Extracts (.req r) none ⟨.derived .authority, []⟩ v ↔ v = (r.uri.authority.getD []).map Char.toLower) ∧
    (Extracts (.req r) none ⟨.derived .scheme, []⟩ v ↔ v = (r.uri.scheme.getD []).map Char.toLower) ∧
    (Extracts (.req r) none ⟨.derived .path, []⟩ v ↔ v = if r.uri.path = [] then c! "/" else r.uri.path) ∧
    (Extracts (.req r) none ⟨.derived .query, []⟩ v ↔ v = '?' :: r.uri.query.getD []) ∧
    (Extracts (.req r) none ⟨.derived .targetUri, []⟩ v ↔ v = r.uri.toStr) ∧
    (Extracts (.req r) none ⟨.derived .requestTarget, []⟩ v ↔ v =
      if r.method = c! "CONNECT" then r.uri.authority.getD []
      else if r.method = c! "OPTIONS" then c! "*" else r.uri.pathAndQuery.getD []) := by
  have key : ∀ d, Extracts (.req r) none ⟨.derived d, []⟩ v ↔ RequestValue r d [] v := by
    intro d
    rw [extracts_iff (m := .req r) hw (by simp)]
    unfold HasValue
    rw [if_neg (by simp)]
    unfold ValueIn
    simp only [DerivedParams, List.not_mem_nil, false_implies, implies_true, true_and]
  simp only [key]
  exact ⟨Iff.rfl, Iff.rfl, Iff.rfl, Iff.rfl, Iff.rfl, Iff.rfl, Iff.rfl⟩

/-- C30: the status of a response. -/
theorem C30_status {s : Response} {rf : Option Request} (v : Str) :
    Extracts (.res s) rf ⟨.derived .status, []⟩ v ↔ v = natStr s.status := by
  constructor
  · rintro ⟨c, h, _, rfl⟩
    have : extractFor (.res s) rf ⟨.derived .status, []⟩ = .ok ⟨⟨.derived .status, []⟩, .plain (natStr s.status)⟩ := rfl
    rw [this] at h; injection h with h; subst h; rfl
  · rintro rfl
    exact ⟨⟨⟨.derived .status, []⟩, .plain (natStr s.status)⟩, rfl, rfl, rfl⟩

/-- C30: the decimal text of a status determines it. -/
theorem C30_status_injective (a b : Nat) (h : natStr a = natStr b) : a = b := natStr_inj h

/-- C30: the same derived values, of the request, with `req` on a response. -/
theorem C30_response_req {s : Response} {r : Request} (hs : WfHeaders s.headers) (hr : WfHeaders r.headers) (d : Derived) (v : Str)
    (hd : d ≠ .queryParam) :
    Extracts (.res s) (some r) ⟨.derived d, [.req]⟩ v ↔ Extracts (.req r) none ⟨.derived d, []⟩ v := by
  rw [C23_value hs hr, extracts_iff (m := .req r) hr (by simp)]
  unfold HasValue
  rw [if_neg (by simp)]
  unfold ValueIn DerivedParams
  cases d <;> simp_all [RequestValue]

example : Extracts (.req exReq) none ⟨.derived .method, []⟩ (c! "POST") ∧
    Extracts (.req exReq) none ⟨.derived .authority, []⟩ (c! "example.com") ∧
    Extracts (.req exReq) none ⟨.derived .targetUri, []⟩ (c! "https://Example.COM/a b?x=1&y=2&x=3&z&=q&x") ∧
    Extracts (.res exRes) none ⟨.derived .status, []⟩ (c! "404") :=
  ⟨(C30_request exReq_wf _).1.2 (by decide), (C30_request exReq_wf _).2.1.2 (by decide),
   (C30_request exReq_wf _).2.2.2.2.2.1.2 (by decide), (C30_status _).2 (by decide)⟩

/-! ### C47: absent fields -/

/-- C47 is false of the code: an absent field counts as an empty value, also with `req`, `key`, or `sf` parameters. -/
theorem C47_absent_is_empty_partial {m : Msg} (hw : WfHeaders m.headers) (f : Str) (ps : List CParam)
    (hp : ∀ q ∈ ps, q = .sf ∨ ∃ k, q = .key k) (ha : fieldLines m.headers f = []) : Extracts m none ⟨.field f, ps⟩ [] := by
  rw [extracts_iff hw (by simp)]
  unfold HasValue
  rw [if_neg (by intro h; rcases hp _ h with h | ⟨k, h⟩ <;> cases h)]
  show FieldValue m.headers f ps []
  unfold FieldValue
  rw [ha]
  refine ⟨[], [], .nil, ?_, rfl⟩
  clear ha
  induction ps with
  | nil => exact .done _
  | cons q t ih =>
    have ih := ih (fun q hq => hp q (by simp [hq]))
    rcases hp q (by simp) with rfl | ⟨k, rfl⟩
    · exact .sf .nil ih
    · exact .key ⟨[], .nil, rfl⟩ ih

/-- C47 is false of the code: a message without the field and the message with one empty line of it have the same base, for every
list of covered ids in which the field is covered without `sf`. So a signature over an absent header verifies on both. -/
theorem C47_false (m : Msg) (p : SigParams) (rf : Option Request) (f : Str) (hw : WfHeaders m.headers) (hwf : WfName f)
    (ha : fieldLines m.headers f = []) (hs : f ≠ c! "signature-input")
    (hp : ∀ ps, ∀ g, ⟨.field g, ps⟩ ∈ p.covered → lower g = lower f → ps = []) :
    buildBase (m.withHeaders ((f, []) :: m.headers)) p rf = buildBase m p rf := by
  have hw' : WfHeaders (m.withHeaders ((f, []) :: m.headers)).headers := by
    have : (m.withHeaders ((f, []) :: m.headers)).headers = (f, []) :: m.headers := by cases m <;> rfl
    rw [this]
    intro kv hkv
    rcases List.mem_cons.1 hkv with rfl | hkv
    · exact hwf
    · exact hw kv hkv
  have hh : (m.withHeaders ((f, []) :: m.headers)).headers = (f, []) :: m.headers := by cases m <;> rfl
  have hk : (m.withHeaders ((f, []) :: m.headers)).isReq = m.isReq := by cases m <;> rfl
  have hother : ∀ g, lower g ≠ lower f → fieldLines ((f, []) :: m.headers) g = fieldLines m.headers g := by
    intro g hg
    unfold fieldLines
    rw [List.filter_cons, if_neg (by simpa using Ne.symm hg)]
  unfold buildBase
  rw [Res.collect_congr]
  intro i hi
  by_cases hreq : CParam.req ∈ i.params
  · rw [extractFor_req hreq, extractFor_req hreq, hk]
  rw [extractFor_noreq hreq, extractFor_noreq hreq]
  obtain ⟨n, ps⟩ := i
  cases n with
  | field g =>
    by_cases hg : lower g = lower f
    · obtain rfl := hp ps g hi hg
      have e0 : fieldLines m.headers g = [] := by unfold fieldLines at ha ⊢; rw [hg]; exact ha
      have e1 : fieldLines ((f, []) :: m.headers) g = [[]] := by
        unfold fieldLines at e0 ⊢
        rw [List.filter_cons, if_pos (by simpa using hg.symm), List.map_cons, e0]
      unfold extractComponent extractHttpField headerTexts
      simp only
      rw [getAll_fieldLines hw', getAll_fieldLines hw, hh, e0, e1]
      rfl
    · apply extractComponent_congr hw' hw hk
      simp only [SameSource, hh]
      exact hother g hg
  | derived d =>
    apply extractComponent_congr hw' hw hk
    cases d
    case signatureParams =>
      simp only [SameSource, hh]
      apply hother
      rw [WfName.lower hwf]
      exact fun e => hs (e ▸ rfl)
    all_goals (cases m <;> simp [SameSource, Msg.withHeaders, Msg.status, Msg.method, Msg.uri])

example : Extracts (.req exReq) none ⟨.field (c! "content-digest"), []⟩ [] :=
  C47_absent_is_empty_partial (m := .req exReq) exReq_wf _ _ (by simp) (by decide)

/-! ### C48: `@request-target` -/

/-- C48 for methods other than OPTIONS and CONNECT: the value is the path and query, so equal values mean equal targets. -/
theorem C48_binds_partial {r r' : Request} (hw : WfHeaders r.headers) (hw' : WfHeaders r'.headers)
    (h1 : r.method ≠ c! "CONNECT" ∧ r.method ≠ c! "OPTIONS") (h2 : r'.method ≠ c! "CONNECT" ∧ r'.method ≠ c! "OPTIONS") (v : Str)
    (h : Extracts (.req r) none ⟨.derived .requestTarget, []⟩ v) (h' : Extracts (.req r') none ⟨.derived .requestTarget, []⟩ v) :
    r.uri.pathAndQuery.getD [] = r'.uri.pathAndQuery.getD [] := by
  have e1 := (C30_request hw v).2.2.2.2.2.2.1 h
  have e2 := (C30_request hw' v).2.2.2.2.2.2.1 h'
  rw [if_neg h1.1, if_neg h1.2] at e1
  rw [if_neg h2.1, if_neg h2.2] at e2
  rw [← e1, e2]

/-- C48 for CONNECT: the value is the authority. -/
theorem C48_connect {r r' : Request} (hw : WfHeaders r.headers) (hw' : WfHeaders r'.headers)
    (h1 : r.method = c! "CONNECT") (h2 : r'.method = c! "CONNECT") (v : Str)
    (h : Extracts (.req r) none ⟨.derived .requestTarget, []⟩ v) (h' : Extracts (.req r') none ⟨.derived .requestTarget, []⟩ v) :
    r.uri.authority.getD [] = r'.uri.authority.getD [] := by
  have e1 := (C30_request hw v).2.2.2.2.2.2.1 h
  have e2 := (C30_request hw' v).2.2.2.2.2.2.1 h'
  rw [if_pos h1] at e1
  rw [if_pos h2] at e2
  rw [← e1, e2]

/-- C48: a CONNECT request and a request with another method never have the same value (an authority is not empty and does not
start with `/` or `*`). -/
theorem C48_connect_apart {r r' : Request} (hw : WfHeaders r.headers) (hw' : WfHeaders r'.headers)
    (h1 : r.method = c! "CONNECT") (h2 : r'.method ≠ c! "CONNECT") (a : Str) (ha : r.uri.authority = some a)
    (hs : a ≠ [] ∧ a.head? ≠ some '/' ∧ a.head? ≠ some '*') (v : Str)
    (h : Extracts (.req r) none ⟨.derived .requestTarget, []⟩ v) : ¬ Extracts (.req r') none ⟨.derived .requestTarget, []⟩ v := by
  intro h'
  have e1 := (C30_request hw v).2.2.2.2.2.2.1 h
  have e2 := (C30_request hw' v).2.2.2.2.2.2.1 h'
  rw [if_pos h1, ha] at e1
  rw [if_neg h2] at e2
  simp only [Option.getD_some] at e1
  subst e1
  split at e2
  · rw [e2] at hs; simp at hs
  · unfold Uri.pathAndQuery at e2
    split at e2
    · simp only [Option.getD_some] at e2
      split at e2
      · rw [e2] at hs; simp at hs
      · split at e2
        · rename_i hc
          rw [e2] at hs
          rcases hc with rfl | rfl <;> simp at hs
        · rw [e2] at hs; simp at hs
    · exact hs.1 e2

/-- C48 is false for OPTIONS: all OPTIONS requests have the same value. -/
theorem C48_options {r : Request} (hw : WfHeaders r.headers) (h1 : r.method = c! "OPTIONS") :
    Extracts (.req r) none ⟨.derived .requestTarget, []⟩ (c! "*") := by
  refine (C30_request hw _).2.2.2.2.2.2.2 ?_
  rw [h1, if_neg (by decide), if_pos rfl]

/-- C48 is false: two OPTIONS requests with different targets and the same value. -/
theorem C48_false : ∃ r r' : Request, r.uri.pathAndQuery ≠ r'.uri.pathAndQuery ∧
    ∃ v, Extracts (.req r) none ⟨.derived .requestTarget, []⟩ v ∧ Extracts (.req r') none ⟨.derived .requestTarget, []⟩ v :=
  ⟨{ exReq with method := c! "OPTIONS" }, { exReq with method := c! "OPTIONS", uri := { exUri with pathData := c! "/other" } },
   by decide, c! "*", C48_options exReq_wf rfl, C48_options exReq_wf rfl⟩

example : Extracts (.req exReq) none ⟨.derived .requestTarget, []⟩ (c! "/a b?x=1&y=2&x=3&z&=q&x") :=
  (C30_request exReq_wf _).2.2.2.2.2.2.2 (by decide)

end Verif
