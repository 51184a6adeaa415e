import Verif.Props.C74
import Verif.Props.C58
import Verif.Props.C22
/-!
C77 What the accessors of public types say: `add_req_param`, `key` and `as_field_value` of a component, and `keyid`, `alg`, `nonce`
and `covered_components` of a signature base.
-/
namespace Verif
open Sfv Spec

/-! ### `add_req_param` -/

theorem addReq_of_mem {i : CId} (h : .req ∈ i.params) : i.addReq = i := by
  obtain ⟨n, ps⟩ := i
  simp only [CId.addReq, isInsert] at h ⊢
  simp [h]

theorem addReq_of_not_mem {i : CId} (h : .req ∉ i.params) : i.addReq = ⟨i.name, i.params ++ [.req]⟩ := by
  obtain ⟨n, ps⟩ := i
  simp only [CId.addReq, isInsert] at h ⊢
  simp [h]

/-- C77: the text of the identifier gets `;req` at the end, once. -/
theorem C77_req_text (i : CId) :
    (.req ∉ i.params → idText i.addReq = idText i ++ c! ";req") ∧ (.req ∈ i.params → i.addReq = i) ∧ i.addReq.addReq = i.addReq := by
  refine ⟨fun h => ?_, addReq_of_mem, ?_⟩
  · rw [addReq_of_not_mem h]
    unfold idText
    simp [paramText]
  · by_cases h : .req ∈ i.params
    · rw [addReq_of_mem h, addReq_of_mem h]
    · exact addReq_of_mem (by rw [addReq_of_not_mem h]; simp)

/-- C77: it can be written to a header as before. -/
theorem C77_req_safe (i : CId) : SafeId i.addReq ↔ SafeId i := by
  by_cases h : .req ∈ i.params
  · rw [addReq_of_mem h]
  · rw [addReq_of_not_mem h]
    constructor
    · rintro ⟨⟨h1, h2, h3, h4⟩, h5, h6, h7⟩
      refine ⟨⟨?_, fun n hn => h2 n (by simp [hn]), ?_, h4⟩, h5, fun k hk => h6 k (by simp [hk]), fun k hk => h7 k (by simp [hk])⟩
      · simp only [List.map_append] at h1
        exact (List.nodup_append.1 h1).1
      · intro hx; apply h3; simpa using hx
    · rintro ⟨⟨h1, h2, h3, h4⟩, h5, h6, h7⟩
      refine ⟨⟨?_, fun n hn => h2 n (by simpa using hn), ?_, h4⟩, h5, fun k hk => h6 k (by simpa using hk), fun k hk => h7 k (by simpa using hk)⟩
      · simp only [List.map_append, List.nodup_append, h1, true_and]
        refine ⟨by simp, ?_⟩
        intro a ha b hb e
        obtain ⟨p, hp, rfl⟩ := List.mem_map.1 ha
        simp only [List.map_cons, List.map_nil, List.mem_singleton] at hb
        subst hb
        cases p <;> simp [paramLabel] at e
        exact h hp
      · intro hx; apply h3; simpa using hx

theorem applied_append_req {ps : List CParam} {vs out : List Str} : Applied (ps ++ [.req]) vs out ↔ Applied ps vs out := by
  constructor
  · intro h
    generalize hq : ps ++ [CParam.req] = qs at h
    induction h generalizing ps with
    | done => simp at hq
    | req h ih =>
      cases ps with
      | nil => simp at hq; subst hq; exact h
      | cons p t => injection hq with e1 e2; subst e1; exact .req (ih e2)
    | sf h1 h ih =>
      cases ps with
      | nil => simp at hq
      | cons p t => injection hq with e1 e2; subst e1; exact .sf h1 (ih e2)
    | key h1 h ih =>
      cases ps with
      | nil => simp at hq
      | cons p t => injection hq with e1 e2; subst e1; exact .key h1 (ih e2)
  · intro h
    induction h with
    | done => exact .req (.done _)
    | req _ ih => exact .req ih
    | sf h1 _ ih => exact .sf h1 ih
    | key h1 _ ih => exact .key h1 ih

/-- C77: a response that covers the identifier with `req` takes the value that the request has for it. -/
theorem C77_req_value {s : Response} {r : Request} (hs : WfHeaders s.headers) (hr : WfHeaders r.headers) {i : CId} (h : .req ∉ i.params) (v : Str) :
    Extracts (.res s) (some r) i.addReq v ↔ Extracts (.req r) none i v := by
  rw [extracts_iff (m := .res s) hs (by rintro _ ⟨⟩; exact hr), extracts_iff (m := .req r) hr (by simp)]
  rw [addReq_of_not_mem h]
  unfold HasValue
  rw [if_pos (by simp), if_neg h]
  have e : ValueIn (.req r) ⟨i.name, i.params ++ [.req]⟩ v ↔ ValueIn (.req r) i v := by
    obtain ⟨n, ps⟩ := i
    cases n with
    | field f =>
      unfold ValueIn FieldValue
      simp only [applied_append_req]
    | derived d =>
      have e1 : DerivedParams d (ps ++ [.req]) ↔ DerivedParams d ps := by
        unfold DerivedParams
        simp only [List.mem_append, List.mem_singleton]
        constructor
        · intro hx p hp; exact hx p (Or.inl hp)
        · rintro hx p (hp | rfl)
          · exact hx p hp
          · exact Or.inl rfl
      have e2 : RequestValue r d (ps ++ [.req]) v ↔ RequestValue r d ps v := by
        cases d <;> simp [RequestValue, CParam.nameOf]
      show DerivedParams d (ps ++ [.req]) ∧ RequestValue r d (ps ++ [.req]) v ↔ DerivedParams d ps ∧ RequestValue r d ps v
      rw [e1, e2]
  constructor
  · rintro ⟨_, r', _, e', hx⟩; cases e'; exact e.1 hx
  · intro hx; exact ⟨s, r, rfl, rfl, e.2 hx⟩

/-- C77: on a request there is no such component. -/
theorem C77_req_request (r : Request) (rf : Option Request) (i : CId) (v : Str) : ¬ Extracts (.req r) rf i.addReq v := by
  rintro ⟨c, h, _⟩
  have : i.addReq.params.contains .req = true := by
    by_cases h : .req ∈ i.params
    · rw [addReq_of_mem h]; simpa using h
    · rw [addReq_of_not_mem h]; simp
  unfold extractFor at h
  rw [if_pos this] at h
  cases h

/-! ### `key` and `as_field_value` -/

/-- The message a component is taken from. -/
def Source (m : Msg) (rf : Option Request) (i : CId) (src : Msg) : Prop :=
  if .req ∈ i.params then ∃ s r, m = .res s ∧ rf = some r ∧ src = .req r else src = m

theorem extractFor_source {m : Msg} {rf : Option Request} {i : CId} {c : Component} :
    extractFor m rf i = .ok c ↔ ∃ src, Source m rf i src ∧ extractComponent src i = .ok c := by
  unfold extractFor Source
  by_cases h : .req ∈ i.params
  · rw [if_pos (by simpa using h)]
    simp only [if_pos h]
    cases m with
    | req r => simp [Msg.isReq]
    | res s => cases rf <;> simp [Msg.isReq]
  · rw [if_neg (by simpa using h)]
    simp [h]

theorem build_key {i : CId} {vs : List Str} {c : Component} (h : Component.build i vs = .ok c) :
    (i.name ≠ .derived .signatureParams → ∃ s, c.value = .plain s) ∧
    (i.name = .derived .signatureParams → ∃ v t k w, vs = v :: t ∧ splitOnce '=' (trim v) = some (k, w) ∧ c.value = .keyValue k w) := by
  obtain ⟨n, ps⟩ := i
  cases n with
  | field f =>
    refine ⟨fun _ => ?_, by simp⟩
    obtain ⟨vs', _, h2⟩ := Res.bind_eq_ok.1 (show buildField _ vs = .ok c from h)
    cases h2
    exact ⟨_, rfl⟩
  | derived d =>
    have h : buildDerived ⟨.derived d, ps⟩ vs = .ok c := h
    unfold buildDerived at h
    simp only at h
    split at h
    · cases h
    split at h
    · cases h
    obtain ⟨v, h1, h2⟩ := Res.bind_eq_ok.1 h
    cases h2
    cases vs with
    | nil => contradiction
    | cons x t =>
      cases d <;> simp only [derivedValue] at h1
      case queryParam => split at h1 <;> cases h1; simp
      case signatureParams =>
        split at h1
        · cases h1
        · rename_i k w e
          cases h1
          simp [e]
      all_goals cases h1; simp

/-- C77: only a component `@signature-params` has a key. For any other the field value is the value. -/
theorem C77_no_key {m : Msg} {rf : Option Request} {i : CId} {c : Component} (h : extractFor m rf i = .ok c)
    (hi : i.name ≠ .derived .signatureParams) : c.value.key = none ∧ c.value.asFieldValue = c.value.disp := by
  obtain ⟨src, _, h⟩ := extractFor_source.1 h
  have : ∃ vs, Component.build i vs = .ok c := by
    unfold extractComponent extractHttpField extractDerived at h
    split at h
    · split at h
      · cases h
      · obtain ⟨vs, _, h2⟩ := Res.bind_eq_ok.1 h
        exact ⟨vs, Res.mapErr_eq_ok.1 h2⟩
    · split at h
      · cases h
      · obtain ⟨_, _, h⟩ := Res.bind_eq_ok.1 h
        obtain ⟨_, _, h⟩ := Res.bind_eq_ok.1 h
        obtain ⟨vs, _, h2⟩ := Res.bind_eq_ok.1 h
        exact ⟨vs, Res.mapErr_eq_ok.1 h2⟩
  obtain ⟨vs, h⟩ := this
  obtain ⟨s, hs⟩ := (build_key h).1 hi
  rw [hs]
  exact ⟨rfl, rfl⟩

/-- C77: for `@signature-params` the key and the value are what stands before and after the first `=` of the first line of
Signature-Input, and the field value is all of that line. -/
theorem C77_key {m : Msg} {rf : Option Request} {i : CId} {c : Component} (h : extractFor m rf i = .ok c)
    (hi : i.name = .derived .signatureParams) (hw : WfHeaders m.headers) (hf : ∀ r, rf = some r → WfHeaders r.headers) :
    ∃ src l t k, Source m rf i src ∧ (fieldLines src.headers (c! "signature-input")).head? = some l ∧ Wire.LineText l t ∧
      c.value.key = some k ∧ '=' ∉ k ∧ c.value.asFieldValue = k ++ c! "=" ++ c.value.disp ∧ Wire.Trimmed t c.value.asFieldValue := by
  obtain ⟨src, hsrc, h⟩ := extractFor_source.1 h
  have hws : WfHeaders src.headers := by
    unfold Source at hsrc
    split at hsrc
    · obtain ⟨s, r, _, e2, rfl⟩ := hsrc
      exact hf r e2
    · rw [hsrc]; exact hw
  unfold extractComponent extractDerived at h
  rw [hi] at h
  simp only at h
  obtain ⟨_, _, h⟩ := Res.bind_eq_ok.1 h
  obtain ⟨_, _, h⟩ := Res.bind_eq_ok.1 h
  obtain ⟨vs, h1, h2⟩ := Res.bind_eq_ok.1 h
  obtain ⟨v, t, k, w, hvs, hsp, hc⟩ := (build_key (Res.mapErr_eq_ok.1 h2)).2 hi
  unfold derivedValues at h1
  simp only [Res.ok.injEq] at h1
  rw [getAll_fieldLines hws, hvs] at h1
  cases hl : fieldLines src.headers hSignatureInput with
  | nil => rw [hl] at h1; simp at h1
  | cons l ls =>
    rw [hl] at h1
    simp only [List.map_cons, List.cons.injEq] at h1
    obtain ⟨hs, hk⟩ := splitOnce_some hsp
    cases ht : hvToStr l with
    | none =>
      rw [ht] at h1
      simp only [Option.getD_none] at h1
      rw [← h1.1] at hs
      have e : trim ([] : Str) = [] := by decide
      rw [e] at hs
      simp at hs
    | some x =>
      rw [ht] at h1
      simp only [Option.getD_some] at h1
      refine ⟨src, l, x, k, hsrc, by show (fieldLines src.headers hSignatureInput).head? = _; rw [hl]; rfl, lineText_iff.2 ht, ?_, hk, ?_, ?_⟩
      · rw [hc]; rfl
      · rw [hc]; simp [CValue.asFieldValue, CValue.disp]
      · rw [trimmed_iff, hc, h1.1, hs]; rfl

/-- C77: a component read from a line of text has no key, and its field value is the text after the first colon. -/
theorem C77_line {s : Str} {c : Component} (h : Component.ofStr s = .ok c) : c.value.key = none ∧
    ∃ a b, s = a ++ c! ":" ++ b ∧ ':' ∉ a ∧ Wire.Trimmed b c.value.asFieldValue := by
  unfold Component.ofStr at h
  split at h
  · cases h
  · rename_i a b e
    simp only at h
    split at h
    · obtain ⟨id, _, h2⟩ := Res.bind_eq_ok.1 h
      cases h2
      obtain ⟨rfl, hn⟩ := splitOnce_some e
      exact ⟨rfl, a, b, by simp, hn, trimmed_iff.2 rfl⟩
    · cases h

/-! ### The accessors of a signature base -/

/-- C77: the parameters a signature base shows are those its last line says. -/
theorem C77_base {m : Msg} {p : SigParams} {rf : Option Request} {b : SigBase} (h : buildBase m p rf = .ok b) (hp : SafeParams p) :
    ∃ pre text, b.disp = pre ++ c! "\"@signature-params\": " ++ text ∧ (pre = [] ∨ pre.getLast? = some '\n') ∧
      ∃ q, Wire.SigParamsText text q ∧ b.keyid = q.keyid ∧ b.alg = q.alg ∧ b.nonce = q.nonce ∧ b.covered = q.covered ∧ q = p := by
  obtain ⟨rfl, _⟩ := buildBase_ok.1 h
  refine ⟨b.lines.flatMap (fun l => l.disp ++ ['\n']), b.params.disp, by simp [SigBase.disp], ?_, b.params,
    sigParamsText_iff.2 (params_ofStr_disp hp), rfl, rfl, rfl, rfl, rfl⟩
  rcases List.eq_nil_or_concat b.lines with e | ⟨l, x, e⟩
  · left; rw [e]; rfl
  · right; rw [e]; simp

/-! ### Examples -/

example : (CId.addReq ⟨.field (c! "date"), [.sf]⟩) = ⟨.field (c! "date"), [.sf, .req]⟩ := by decide
example : idText (CId.addReq ⟨.field (c! "date"), [.sf]⟩) = c! "\"date\";sf;req" := by decide

/-- The request of the examples; its Signature-Input line has two `=` and blanks around. -/
def c77Req : Request :=
  { method := c! "GET", uri := ⟨some (c! "https"), some (c! "a.example"), c! "/p", none⟩,
    headers := [(c! "signature-input", utf8 (c! " s1=(\"@method\");alg=\"x\" "))], body := .data [] }

/-- A response to it. -/
def c77Res : Response := { status := 200, headers := [], body := .data [] }

/-- `@signature-params` from a request, and with `req` from the request of a response. -/
example : extractFor (.req c77Req) none ⟨.derived .signatureParams, []⟩ =
    .ok ⟨⟨.derived .signatureParams, []⟩, .keyValue (c! "s1") (c! "(\"@method\");alg=\"x\"")⟩ := by decide +kernel
example : extractFor (.res c77Res) (some c77Req) (CId.addReq ⟨.derived .signatureParams, []⟩) =
    .ok ⟨⟨.derived .signatureParams, [.req]⟩, .keyValue (c! "s1") (c! "(\"@method\");alg=\"x\"")⟩ := by decide +kernel

/-- A component without a key. -/
example : extractFor (.res c77Res) (some c77Req) (CId.addReq ⟨.derived .method, []⟩) =
    .ok ⟨⟨.derived .method, [.req]⟩, .plain (c! "GET")⟩ := by decide +kernel
example : Extracts (.res c77Res) (some c77Req) (CId.addReq ⟨.derived .method, []⟩) (c! "GET") :=
  (C77_req_value (s := c77Res) (r := c77Req) (i := ⟨.derived .method, []⟩) (by intro kv h; cases h)
    (by intro kv h; simp only [c77Req, List.mem_singleton] at h; subst h; exact ⟨by decide, by decide, by decide⟩) (by decide) _).2 ⟨_, rfl, by decide⟩

/-- A line of text. -/
example : Component.ofStr (c! "\"date\";req:  a: b ") = .ok ⟨⟨.field (c! "date"), [.req]⟩, .plain (c! "a: b")⟩ := by decide +kernel

/-- A signature base. -/
example : ∃ b, buildBase (.req c77Req) { covered := [⟨.derived .method, []⟩], alg := some (c! "x"), nonce := some (c! "n") } none = .ok b ∧
    b.alg = some (c! "x") ∧ b.nonce = some (c! "n") ∧ b.keyid = none ∧ b.covered = [⟨.derived .method, []⟩] := ⟨_, by rfl, by rfl, by rfl, by rfl, by rfl⟩

end Verif
