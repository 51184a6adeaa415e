import Verif.Proofs.RfcExact
import Verif.Spec.RfcExact
import Verif.Props.C58
/-!
C76: exactly when the library signs the base of RFC 9421. `C62_same_base_partial` gives conditions that suffice; these are the
conditions that are needed as well.
-/
namespace Verif
open Sfv Spec Rfc9421

/-- The library knows the component, writes its identifier as the RFC does and takes the value of the RFC. -/
def Agrees (c : Ctx) (m : Msg) (rf : Option Request) (i : Item) : Prop :=
  ∃ id v, SafeId id ∧ serItem i = idText id ∧ HasValue m rf id v ∧ value c m rf i = some v

theorem agrees_of_lines {c : Ctx} {m : Msg} {rf : Option Request} {ids : List CId} {vs ws : List Str} (hs : ∀ i ∈ ids, SafeId i)
    (h1 : List.Forall₂ (fun i v => value c m rf i = some v) (ids.map idItem) vs) (h2 : List.Forall₂ (HasValue m rf) ids ws)
    (h : (List.zip (ids.map idItem) vs).map (fun x => serItem x.1 ++ c! ": " ++ x.2) =
      List.zipWith (fun i v => i.disp ++ c! ": " ++ v) ids ws) : ∀ i ∈ ids.map idItem, Agrees c m rf i := by
  induction h2 generalizing vs with
  | nil => simp
  | @cons id w ids ws hx _ ih =>
    cases h1 with
    | @cons _ v _ vs hv h1 =>
      simp only [List.map_cons, List.zip_cons_cons, List.zipWith_cons_cons, List.cons.injEq] at h
      have hd := disp_eq_ser (hs id (by simp))
      rw [hd, List.append_assoc, List.append_assoc] at h
      have := List.append_cancel_left (List.append_cancel_left h.1)
      subst this
      intro i hi
      rcases List.mem_cons.1 hi with rfl | hi
      · exact ⟨id, v, hs id (by simp), by rw [← C58_id_text, hd], hx, hv⟩
      · exact ih (fun i hi => hs i (by simp [hi])) h1 h.2 i hi

theorem lines_of_agrees {c : Ctx} {m : Msg} {rf : Option Request} {items : List Item} {vs : List Str} (hl : ∀ i ∈ items, LegalItem i)
    (h1 : List.Forall₂ (fun i v => value c m rf i = some v) items vs) (ha : ∀ i ∈ items, Agrees c m rf i) :
    ∃ ids : List CId, ids.map idItem = items ∧ (∀ i ∈ ids, SafeId i) ∧ List.Forall₂ (HasValue m rf) ids vs ∧
      List.zipWith (fun i v => i.disp ++ c! ": " ++ v ++ c! "\n") ids vs =
        (List.zip items vs).map (fun x => serItem x.1 ++ c! ": " ++ x.2 ++ c! "\n") := by
  induction h1 with
  | nil => exact ⟨[], rfl, by simp, .nil, rfl⟩
  | @cons i v items vs hv _ ih =>
    obtain ⟨ids, a1, a2, a3, a4⟩ := ih (fun i hi => hl i (by simp [hi])) (fun i hi => ha i (by simp [hi]))
    obtain ⟨id, w, b1, b2, b3, b4⟩ := ha i (by simp)
    rw [hv] at b4
    injection b4 with b4; subst b4
    rw [← C58_id_text] at b2
    have e : idItem id = i := Rfc.serItem_inj (idItem_legal b1) (hl i (by simp)) (by rw [b2, disp_eq_ser b1])
    refine ⟨id :: ids, by rw [List.map_cons, e, a1], ?_, .cons b3 a3, ?_⟩
    · intro j hj
      rcases List.mem_cons.1 hj with rfl | hj
      · exact b1
      · exact a2 j hj
    · rw [List.zipWith_cons_cons, List.zip_cons_cons, List.map_cons, a4, b2]

/-- C76: for a member of Signature-Input with a base by the RFC, the library signs and verifies that base exactly if the signature
parameters are in its order and form, and it agrees on every covered component. -/
theorem C76_exact {c : Ctx} {m : Msg} {rf : Option Request} {l : InnerList} {t : Str} (hm : WfMsg m) (hf : ∀ r, rf = some r → WfRequest r)
    (hc : OneLine c.scheme) (hl : LegalEntry (.inner l)) (h : base c m rf l = some t) :
    codeBase m rf l = some t ↔ UsualParams l.params ∧ ∀ i ∈ l.items, Agrees c m rf i := by
  have hw := WfMsg.wfHeaders hm
  have hf' : ∀ r, rf = some r → WfHeaders r.headers := fun r hr => (hf r hr).headers
  obtain ⟨hp, vs, hvs, ht⟩ := Rfc.base_lines h
  constructor
  · intro hcb
    unfold codeBase at hcb
    split at hcb
    case h_2 => cases hcb
    rename_i p hpe
    split at hcb
    case h_2 => cases hcb
    rename_i b hb
    injection hcb with hcb
    have hone := C08_parsed_one_line _ hl p hpe
    obtain ⟨ws, h1, _, h3⟩ := C38_layout hm hf hone hb
    rw [hcb, ht] at h3
    have h4 := Rfc.splitOn_rfc ((List.zip l.items vs).map (fun x => (serItem x.1, x.2))) (c! "\"@signature-params\": " ++ serInner l) (by
      intro x hx
      obtain ⟨⟨i, v⟩, hy, rfl⟩ := List.mem_map.1 hx
      obtain ⟨hi, hv⟩ := List.of_mem_zip hy
      obtain ⟨j, _, hj⟩ := forall₂_mem_right hvs v hv
      exact ⟨printable_oneLine (serItem_printable (hl.1 i hi)), Rfc.rfcValue_oneLine hc hm hf hj⟩)
      (oneLine_append (by decide) (printable_oneLine (serEntry_printable hl)))
    rw [List.map_map] at h4
    have h5 := h4.symm.trans h3
    rw [List.map_map] at h5
    obtain ⟨h6, h7⟩ := List.append_inj' h5 rfl
    have h8 : p.disp = serInner l := by simpa using h7.symm
    have hs : SafeParams p := (C74_params p).1 (by rw [h8, Rfc.ofStr_serInner hl]; exact hpe)
    have he : l = ⟨p.covered.map idItem, paramsKV p⟩ := by
      have e1 : serList [.inner l] = some (serInner l) := by simp [serList, serEntry]
      have e2 : serList [paramsEntry p] = some (serInner l) := by
        rw [← h8, params_disp_eq hs]; simp [serList]
      have := C32_serialization_injective.1 [.inner l] [paramsEntry p] (by simpa [LegalList] using hl)
        (by simpa [LegalList] using paramsEntry_legal hs) (e1.trans e2.symm)
      simpa [paramsEntry] using this
    subst he
    refine ⟨Rfc.paramsKV_usual hs, ?_⟩
    refine agrees_of_lines hs.ids hvs h1 ?_
    simpa [Function.comp_def] using h6
  · rintro ⟨hu, ha⟩
    obtain ⟨ids, a1, a2, a3, a4⟩ := lines_of_agrees hl.1 hvs ha
    obtain ⟨items, ps⟩ := l
    simp only at a1 a4 ht hp hu
    subst a1
    have hd : ids.Pairwise (fun a b => ¬ SameId a b) := by
      rw [List.pairwise_map] at hp
      exact hp.imp (fun hn hs => hn (Rfc.same_idItem hs))
    obtain ⟨p, rfl, rfl, hs⟩ := Rfc.params_core hu ids a2 hd
    refine codeBase_of hw hf' (ofEntry_paramsEntry hs) ⟨vs, a3, ?_⟩
    rw [ht, ← a4, baseText, params_disp_eq hs, List.append_assoc]; rfl

/-! ### The conditions written out, for components without `sf` and `key` -/

section
variable {c : Ctx}

theorem requestValue_params {r : Request} {d : Derived} (hd : d ≠ .queryParam) (ps qs : List CParam) (v : Str) :
    RequestValue r d ps v ↔ RequestValue r d qs v := by
  cases d <;> first | exact Iff.rfl | exact absurd rfl hd

theorem request_exact {r : Request} {name : Str} {w : Wants} {cps : List CParam} {v : Str} (hw : WfHeaders r.headers) (hc : c.scheme ≠ [])
    (ha : rfcValue c r (c! "@authority") ≠ some []) (hr : Rfc.Reads w cps) (h : requestValue c r name w = some v) :
    ∃ d : Derived, d.toStr = name ∧ SafeId ⟨.derived d, cps⟩ ∧ (ValueIn (.req r) ⟨.derived d, cps⟩ v ↔ ExactRequest c r name w) := by
  unfold requestValue at h
  split at h
  · cases h
  rename_i h0
  simp only [not_or] at h0
  obtain ⟨hsf, hbs, htr, hkey⟩ := h0
  have hnosf : CParam.sf ∉ cps := fun e => hsf (hr.sf.2 e)
  have hnobs : CParam.bs ∉ cps := fun e => hbs (hr.bs.2 e)
  have hnotr : CParam.tr ∉ cps := fun e => htr (hr.tr.2 e)
  have hnokey : ∀ k, CParam.key k ∉ cps := by
    intro k hk; rw [← hr.key] at hk; rw [hk] at hkey; exact hkey rfl
  have build : ∀ d : Derived, (∀ n, CParam.name n ∈ cps → d = .queryParam ∧ SafeText n) →
      SafeId ⟨.derived d, cps⟩ ∧ DerivedParams d cps := fun d hd =>
    ⟨{ distinct := hr.distinct
       name := fun n hn => by show CName.derived d = _; rw [(hd n hn).1]
       fieldOnly := by
         rintro (e | e | e | ⟨k, e⟩)
         exacts [absurd e hnosf, absurd e hnobs, absurd e hnotr, absurd e (hnokey k)]
       noAt := by intro f hf; cases hf
       nameText := by intro f hf; cases hf
       keyText := fun k hk => absurd hk (hnokey k)
       nameParam := fun n hn => (hd n hn).2 }, by
      intro p hp
      cases p with
      | req => exact Or.inl rfl
      | name n => exact Or.inr ⟨(hd n hp).1, n, rfl⟩
      | sf => exact absurd hp hnosf
      | bs => exact absurd hp hnobs
      | tr => exact absurd hp hnotr
      | key k => exact absurd hp (hnokey k)⟩
  by_cases hqn : name = c! "@query-param"
  · rw [if_pos hqn] at h
    obtain ⟨n, hn, h⟩ := Option.bind_eq_some_iff.1 h
    have only : ∀ n', CParam.name n' ∈ cps → n' = n := by
      intro n' h2
      rw [← hr.name, hn] at h2
      injection h2 with e; exact e.symm
    have hsafe : SafeText n := by
      unfold queryParam at h
      split at h
      · rename_i kv hf
        have hmem : kv ∈ [kv] := by simp
        rw [← hf, List.mem_filter] at hmem
        have hkn : reencode kv.1 = n := by simpa using hmem.2
        rw [← hkn]; exact Rfc.formEncode_safe _
      · cases h
    obtain ⟨b1, b2⟩ := build .queryParam (fun n' h2 => ⟨rfl, by rw [only n' h2]; exact hsafe⟩)
    refine ⟨.queryParam, hqn.symm, b1, ?_⟩
    have hfs : cps.findSome? CParam.nameOf = some n := by
      have hin := (hr.name n).1 hn
      cases hfs : cps.findSome? CParam.nameOf with
      | none =>
        rw [List.findSome?_eq_none_iff] at hfs
        exact absurd (hfs _ hin) (by simp [CParam.nameOf])
      | some n' =>
        obtain ⟨q, hq, hq2⟩ := List.exists_of_findSome?_eq_some hfs
        cases q with
        | name k =>
          simp only [CParam.nameOf, Option.some.injEq] at hq2
          rw [← hq2, only k hq]
        | _ => simp [CParam.nameOf] at hq2
    have e1 : ValueIn (.req r) ⟨.derived .queryParam, cps⟩ v ↔ Extracts (.req r) none ⟨.derived .queryParam, [.name n]⟩ v := by
      rw [extracts_iff (m := .req r) hw (by simp)]
      unfold HasValue ValueIn
      have e2 : DerivedParams .queryParam [.name n] := by intro p hp; rw [List.mem_singleton.1 hp]; exact Or.inr ⟨rfl, n, rfl⟩
      simp only [List.mem_singleton, reduceCtorEq, if_false, b2, e2, true_and, RequestValue, hfs, List.findSome?_cons, CParam.nameOf]
    rw [e1, C73_query_param (c := c) hw (by rw [rfcQueryParam_eq]; exact h)]
    constructor
    · intro hx
      refine ⟨?_, ?_, ?_, ?_, ?_, ?_⟩
      · intro e; rw [hqn] at e; exact absurd e (by decide)
      · intro e; rw [hqn] at e; exact absurd e (by decide)
      · intro e; rw [hqn] at e; exact absurd e (by decide)
      · intro e; rw [hqn] at e; exact absurd e (by decide)
      · intro e; rw [hqn] at e; exact absurd e (by decide)
      · intro _ n' v' hn' hv'
        rw [hn] at hn'; injection hn' with hn'; subst hn'
        rw [h] at hv'; injection hv' with hv'; subst hv'
        exact hx
    · intro hx; exact hx.queryParam hqn n v hn h
  rw [if_neg hqn] at h
  split at h
  · cases h
  rename_i hnm
  have hnoname : ∀ n, CParam.name n ∉ cps := by
    intro n hn; rw [← hr.name] at hn; rw [hn] at hnm; exact hnm rfl
  have build := fun d => build d (fun n hn => absurd hn (hnoname n))
  have via : ∀ (d : Derived) (cond : Prop), d ≠ .queryParam → d.toStr = name → rfcValue c r name = some v → AgreesIff c r name d cond →
      (cond ↔ ExactRequest c r name w) →
      ∃ d : Derived, d.toStr = name ∧ SafeId ⟨.derived d, cps⟩ ∧ (ValueIn (.req r) ⟨.derived d, cps⟩ v ↔ ExactRequest c r name w) := by
    intro d cond hd hn hv ha he
    refine ⟨d, hn, (build d).1, ?_⟩
    rw [← he, ← ha v hv, extracts_iff (m := .req r) hw (by simp)]
    show DerivedParams d cps ∧ RequestValue r d cps v ↔ HasValue (.req r) none ⟨.derived d, []⟩ v
    have e : HasValue (.req r) none ⟨.derived d, []⟩ v ↔ DerivedParams d [] ∧ RequestValue r d [] v := by
      unfold HasValue; rw [if_neg (by simp)]; exact Iff.rfl
    rw [e, requestValue_params hd cps []]
    exact and_congr_left fun _ => iff_of_true (build d).2 (by intro p hp; cases hp)
  split at h
  · rename_i he
    subst he
    exact via .method _ (by simp) rfl h (C73_method hw) ⟨fun hx => { method := fun _ => hx, targetUri := fun e => absurd e (by decide), authority := fun e => absurd e (by decide), scheme := fun e => absurd e (by decide), requestTarget := fun e => absurd e (by decide), queryParam := fun e => absurd e (by decide) }, fun hx => hx.method rfl⟩
  split at h
  · rename_i he
    subst he
    exact via .targetUri _ (by simp) rfl h (C73_target_uri hw) ⟨fun hx => { method := fun e => absurd e (by decide), targetUri := fun _ => hx, authority := fun e => absurd e (by decide), scheme := fun e => absurd e (by decide), requestTarget := fun e => absurd e (by decide), queryParam := fun e => absurd e (by decide) }, fun hx => hx.targetUri rfl⟩
  split at h
  · rename_i he
    subst he
    exact via .authority _ (by simp) rfl h (C73_authority hw ha) ⟨fun hx => { method := fun e => absurd e (by decide), targetUri := fun e => absurd e (by decide), authority := fun _ => hx, scheme := fun e => absurd e (by decide), requestTarget := fun e => absurd e (by decide), queryParam := fun e => absurd e (by decide) }, fun hx => hx.authority rfl⟩
  split at h
  · rename_i he
    subst he
    exact via .scheme _ (by simp) rfl h (C73_scheme hw hc) ⟨fun hx => { method := fun e => absurd e (by decide), targetUri := fun e => absurd e (by decide), authority := fun e => absurd e (by decide), scheme := fun _ => hx, requestTarget := fun e => absurd e (by decide), queryParam := fun e => absurd e (by decide) }, fun hx => hx.scheme rfl⟩
  split at h
  · rename_i he
    subst he
    exact via .requestTarget _ (by simp) rfl h (C73_request_target hw) ⟨fun hx => { method := fun e => absurd e (by decide), targetUri := fun e => absurd e (by decide), authority := fun e => absurd e (by decide), scheme := fun e => absurd e (by decide), requestTarget := fun _ => hx, queryParam := fun e => absurd e (by decide) }, fun hx => hx.requestTarget rfl⟩
  split at h
  · rename_i he
    subst he
    exact via .path _ (by simp) rfl h (C73_path hw) ⟨fun _ => { method := fun e => absurd e (by decide), targetUri := fun e => absurd e (by decide), authority := fun e => absurd e (by decide), scheme := fun e => absurd e (by decide), requestTarget := fun e => absurd e (by decide), queryParam := fun e => absurd e (by decide) }, fun _ => trivial⟩
  split at h
  · rename_i he
    subst he
    exact via .query _ (by simp) rfl h (C73_query hw) ⟨fun _ => { method := fun e => absurd e (by decide), targetUri := fun e => absurd e (by decide), authority := fun e => absurd e (by decide), scheme := fun e => absurd e (by decide), requestTarget := fun e => absurd e (by decide), queryParam := fun e => absurd e (by decide) }, fun _ => trivial⟩
  · cases h

theorem applied_reqs {cps : List CParam} (h : ∀ p ∈ cps, p = .req) {vs out : List Str} : Applied cps vs out ↔ out = vs := by
  constructor
  · intro ha
    induction ha with
    | done => rfl
    | req _ ih => exact ih (fun p hp => h p (by simp [hp]))
    | sf _ _ _ => exact absurd (h .sf (by simp)) (by simp)
    | @key k _ _ _ _ _ _ _ => exact absurd (h (.key k) (by simp)) (by simp)
  · rintro rfl; exact Rfc.applied_req h _

theorem field_exact {m : Msg} {name : Str} {w : Wants} {cps : List CParam} {v : Str} (hw : WfHeaders m.headers) (hr : Rfc.Reads w cps)
    (hat : name.head? ≠ some '@') (hlow : lowerCase name = name) (hsf : w.sf = false) (hkey : w.key = none)
    (h : fieldValue c m.headers name w = some v) :
    SafeId ⟨.field name, cps⟩ ∧ (ValueIn m ⟨.field name, cps⟩ v ↔
      w.bs = false ∧ ∀ l ∈ fieldLines m.headers name, ∀ t, hvToStr l = some t → strip t = t) := by
  unfold fieldValue at h
  simp only at h
  split at h
  · cases h
  rename_i h0
  rw [not_or, not_or] at h0
  obtain ⟨hne, htr, hnm⟩ := h0
  have hname := Rfc.wfName_safe (Rfc.name_of_lines hw hlow hne)
  have hnoname : ∀ n, CParam.name n ∉ cps := by
    intro n hn
    rw [← hr.name] at hn
    rw [hn] at hnm; exact hnm rfl
  have hnotr : CParam.tr ∉ cps := fun e => htr (hr.tr.2 e)
  have hnokey : ∀ k, CParam.key k ∉ cps := by
    intro k hk; rw [← hr.key, hkey] at hk; cases hk
  have hnosf : CParam.sf ∉ cps := by intro e; rw [← hr.sf, hsf] at e; cases e
  refine ⟨{ distinct := hr.distinct
            name := fun n hn => absurd hn (hnoname n)
            fieldOnly := fun _ => ⟨name, rfl⟩
            noAt := by intro f hf; injection hf with hf; subst hf; exact hat
            nameText := by intro f hf; injection hf with hf; subst hf; exact hname
            keyText := fun k hk => absurd hk (hnokey k)
            nameParam := fun n hn => absurd hn (hnoname n) }, ?_⟩
  split at h
  · rename_i hbs
    refine iff_of_false ?_ (by rw [hbs]; simp)
    rintro ⟨ts, out, _, ha, _⟩
    have no : ∀ {ps vs out}, Applied ps vs out → .bs ∉ ps := by
      intro ps vs out h
      induction h with
      | done => simp
      | req _ ih => simp [ih]
      | sf _ _ ih => simp [ih]
      | key _ _ ih => simp [ih]
    exact no ha (hr.bs.1 hbs)
  · rename_i hbs
    have hnobs : CParam.bs ∉ cps := fun e => hbs (hr.bs.2 e)
    have which : ∀ p ∈ cps, p = .req := by
      intro p hp
      cases p with
      | req => rfl
      | sf => exact absurd hp hnosf
      | key k => exact absurd hp (hnokey k)
      | bs => exact absurd hp hnobs
      | tr => exact absurd hp hnotr
      | name n => exact absurd hp (hnoname n)
    obtain ⟨ts, hts, h⟩ := Option.bind_eq_some_iff.1 h
    rw [hkey, hsf] at h
    simp only [Bool.false_eq_true, if_false, Option.some.injEq] at h
    have hl : LineTexts (fieldLines m.headers name) ts := Rfc.allSome_texts hts
    have e1 : ValueIn m ⟨.field name, cps⟩ v ↔ v = join (c! ", ") ts := by
      constructor
      · rintro ⟨ts', out, a, b, rfl⟩
        rw [(applied_reqs which).1 b, texts_det a hts]
      · rintro rfl; exact ⟨ts, ts, hl, (applied_reqs which).2 rfl, rfl⟩
    rw [e1, ← h, show combined ts = join (c! ", ") (ts.map strip) from Rfc.intercalate_eq _ _, join_strip_iff]
    constructor
    · intro hs
      refine ⟨by simpa using hbs, ?_⟩
      intro l hl' t ht
      obtain ⟨t', ht', e⟩ := forall₂_mem_left hl _ hl'
      rw [ht] at e; injection e with e; subst e
      exact hs _ ht'
    · rintro ⟨_, hs⟩ t ht
      obtain ⟨l, hl', e⟩ := forall₂_mem_right hl _ ht
      exact hs l hl' t e

theorem valueIn_exact {m : Msg} {name : Str} {w : Wants} {cps : List CParam} {v : Str} (hw : WfHeaders m.headers) (hc : c.scheme ≠ [])
    (ha : ∀ r, m = .req r → rfcValue c r (c! "@authority") ≠ some []) (hr : Rfc.Reads w cps) (hq : m.isReq = true ∨ w.req = false)
    (hsf : w.sf = false) (hkey : w.key = none) (h : valueIn c m name w = some v) :
    ∃ n : CName, nameText n = name ∧ SafeId ⟨n, cps⟩ ∧ (ValueIn m ⟨n, cps⟩ v ↔ ExactIn c m name w) := by
  unfold valueIn at h
  unfold ExactIn
  split at h
  · rename_i hat
    rw [if_pos hat]
    cases m with
    | req r =>
      obtain ⟨d, hd, h1, h2⟩ := request_exact hw hc (ha r rfl) hr h
      refine ⟨.derived d, hd, h1, h2.trans ⟨?_, fun hx => hx r rfl⟩⟩
      rintro hx r' ⟨⟩; exact hx
    | res s =>
      obtain ⟨d, hd, h1, h2, h3⟩ := Rfc.response_core hr (by simpa [Msg.isReq] using hq) h
      exact ⟨.derived d, hd, h1, iff_of_true ⟨h2, h3⟩ (by rintro r ⟨⟩)⟩
  · rename_i hat
    rw [if_neg hat]
    split at h
    · rename_i hl
      obtain ⟨h1, h2⟩ := field_exact hw hr hat hl hsf hkey h
      exact ⟨.field name, rfl, h1, h2⟩
    · cases h

theorem idItem_inj {a b : CId} (ha : SafeId a) (hb : SafeId b) (h : idItem a = idItem b) : a = b := by
  have h1 := ofStr_disp ha
  rw [disp_eq_ser ha, h, ← disp_eq_ser hb, ofStr_disp hb] at h1
  injection h1 with h1; exact h1.symm

/-- C76: one component without `sf` and `key`. -/
theorem C76_item {m : Msg} {rf : Option Request} {i : Item} {v : Str} (hm : WfHeaders m.headers) (hf : ∀ r, rf = some r → WfHeaders r.headers)
    (hc : c.scheme ≠ []) (ha : ∀ r, m = .req r ∨ rf = some r → rfcValue c r (c! "@authority") ≠ some []) (hl : LegalItem i) (hp : PlainItem i)
    (h : value c m rf i = some v) : Agrees c m rf i ↔ ExactItem c m rf i := by
  have h0 := h
  obtain ⟨b, ps⟩ := i
  unfold value at h
  split at h
  case h_2 => cases h
  rename_i name hb
  simp only at hb h; subst hb
  obtain ⟨w, hw', hv⟩ := Option.bind_eq_some_iff.1 h
  obtain ⟨cps, rfl, hr⟩ := Rfc.wants_reads hl.2.1 hw'
  have hsf : w.sf = false := by
    by_contra hx
    have := hr.sf.1 (by simpa using hx)
    exact (hp _ (List.mem_map_of_mem (f := paramKV) this)).1 rfl
  have hkey : w.key = none := by
    cases hk : w.key with
    | none => rfl
    | some k => exact absurd rfl (hp _ (List.mem_map_of_mem (f := paramKV) ((hr.key k).1 hk))).2
  have key : ∃ n : CName, nameText n = name ∧ SafeId ⟨n, cps⟩ ∧ (HasValue m rf ⟨n, cps⟩ v ↔
      if w.req then ∀ r, rf = some r → ExactIn c (.req r) name w else ExactIn c m name w) := by
    by_cases hq : w.req = true
    · rw [if_pos hq] at hv
      simp only [hq, if_true]
      cases m with
      | req _ => cases hv
      | res s =>
        cases rf with
        | none => cases hv
        | some r =>
          obtain ⟨n, hn, h1, h2⟩ := valueIn_exact (m := .req r) (hf r rfl) hc (by rintro r' ⟨⟩; exact ha r (Or.inr rfl)) hr (Or.inl rfl) hsf hkey hv
          refine ⟨n, hn, h1, ?_⟩
          unfold HasValue
          rw [if_pos (hr.req.1 hq)]
          constructor
          · rintro ⟨s', r', _, e, hx⟩ r'' e'
            cases e; cases e'; exact h2.1 hx
          · intro hx; exact ⟨s, r, rfl, rfl, h2.2 (hx r rfl)⟩
    · rw [if_neg hq] at hv
      obtain ⟨n, hn, h1, h2⟩ := valueIn_exact hm hc (fun r e => ha r (Or.inl e)) hr (Or.inr (by simpa using hq)) hsf hkey hv
      refine ⟨n, hn, h1, ?_⟩
      unfold HasValue
      rw [if_neg (fun e => hq (hr.req.2 e)), if_neg hq]
      exact h2
  obtain ⟨n, hn, h1, h2⟩ := key
  have hid : idItem ⟨n, cps⟩ = ⟨.str name, cps.map paramKV⟩ := by rw [idItem, hn]
  have e1 : Agrees c m rf ⟨.str name, cps.map paramKV⟩ ↔ HasValue m rf ⟨n, cps⟩ v := by
    constructor
    · rintro ⟨id, v', b1, b2, b3, b4⟩
      rw [h0] at b4; injection b4 with b4; subst b4
      rw [← C58_id_text, disp_eq_ser b1] at b2
      have := Rfc.serItem_inj hl (idItem_legal b1) b2
      rw [← hid] at this
      rw [idItem_inj h1 b1 this]; exact b3
    · intro hx
      exact ⟨_, v, h1, by rw [← C58_id_text, disp_eq_ser h1, hid], hx, h0⟩
  rw [e1, h2]
  constructor
  · intro hx name' w' e e'
    injection e with e; subst e
    rw [hw'] at e'; injection e' with e'; subst e'
    exact hx
  · intro hx; exact hx name w rfl hw'

/-- C76: a member of Signature-Input whose components have neither `sf` nor `key`: exactly when the library signs the base of the RFC. -/
theorem C76_plain {m : Msg} {rf : Option Request} {l : InnerList} {t : Str} (hm : WfMsg m) (hf : ∀ r, rf = some r → WfRequest r)
    (hc : OneLine c.scheme) (hc' : c.scheme ≠ []) (ha : ∀ r, m = .req r ∨ rf = some r → rfcValue c r (c! "@authority") ≠ some [])
    (hl : LegalEntry (.inner l)) (hp : ∀ i ∈ l.items, PlainItem i) (h : base c m rf l = some t) :
    codeBase m rf l = some t ↔ UsualParams l.params ∧ ∀ i ∈ l.items, ExactItem c m rf i := by
  rw [C76_exact hm hf hc hl h]
  obtain ⟨_, vs, hvs, _⟩ := Rfc.base_lines h
  refine and_congr_right fun _ => forall₂_congr fun i hi => ?_
  obtain ⟨v, _, hv⟩ := forall₂_mem_left hvs i hi
  exact C76_item (WfMsg.wfHeaders hm) (fun r hr => (hf r hr).headers) hc' ha (hl.1 i hi) (hp i hi) hv
end

/-! ### Cases on both sides -/

def x76 : Request := xReq "GET" none none "/p" (some "a=x%20y&b=x+y") [(c! "host", utf8 (c! "a.example"))]
def l76 (name : Str) (ips ps : Params) : InnerList := ⟨[⟨.str (c! "@path"), []⟩, ⟨.str name, ips⟩], ps⟩
def p76 : Params := [(c! "created", .int 1618884473), (c! "keyid", .str (c! "k"))]

theorem x76_wf : WfMsg (.req x76) :=
  ⟨xHost_wf, by decide, ⟨(by intro s h; cases h), (by intro s h; cases h), by decide, (by intro s h; cases h; decide)⟩⟩

theorem x76_ha : ∀ r, Msg.req x76 = .req r ∨ (none : Option Request) = some r → rfcValue xCtx r (c! "@authority") ≠ some [] := by
  rintro r (h | h)
  · injection h with h; subst h; decide +kernel
  · cases h

theorem str_legal {n : Str} (h : ∀ c ∈ n, Printable c) : LegalItem ⟨.str n, []⟩ := ⟨h, by simp, by simp⟩

theorem l76_legal {name : Str} {ips ps : Params} (h1 : LegalItem ⟨.str name, ips⟩) (h2 : LegalParams ps) : LegalEntry (.inner (l76 name ips ps)) := by
  refine ⟨?_, h2⟩
  intro i hi
  simp only [l76, List.mem_cons, List.not_mem_nil, or_false] at hi
  rcases hi with rfl | rfl
  · exact (str_legal (by decide))
  · exact h1

theorem p76_legal : LegalParams p76 := by
  refine ⟨by decide, ?_⟩
  intro kv hkv
  simp only [p76, List.mem_cons, List.not_mem_nil, or_false] at hkv
  rcases hkv with rfl | rfl
  · exact ⟨by decide, by show Int.natAbs 1618884473 < 10 ^ 15; decide⟩
  · exact ⟨by decide, by show ∀ c ∈ c! "k", Printable c; decide⟩

theorem p76_usual : UsualParams p76 := by
  refine ⟨by decide, ?_, ?_⟩
  · intro kv hkv hk
    simp only [p76, List.mem_cons, List.not_mem_nil, or_false] at hkv
    rcases hkv with rfl | rfl
    · exact ⟨1618884473, rfl, by decide⟩
    · exact absurd hk (by decide)
  · intro kv hkv hk hk'
    simp only [p76, List.mem_cons, List.not_mem_nil, or_false] at hkv
    rcases hkv with rfl | rfl
    · exact absurd rfl hk
    · exact ⟨c! "k", rfl, by decide⟩

theorem l76_exact {name : Str} {ips : Params} (ps : Params) (h : PlainItem ⟨.str name, ips⟩) (h1 : LegalItem ⟨.str name, ips⟩) (h2 : LegalParams ps) {t : Str}
    (hb : base xCtx (.req x76) none (l76 name ips ps) = some t) :
    codeBase (.req x76) none (l76 name ips ps) = some t ↔
      UsualParams ps ∧ ∀ i ∈ (l76 name ips ps).items, ExactItem xCtx (.req x76) none i :=
  C76_plain x76_wf (by simp) (by decide) (by decide) x76_ha (l76_legal h1 h2) (by
    intro i hi
    simp only [l76, List.mem_cons, List.not_mem_nil, or_false] at hi
    rcases hi with rfl | rfl
    · intro kv hkv; cases hkv
    · exact h) hb

theorem path_exact76 : ExactItem xCtx (.req x76) none ⟨.str (c! "@path"), []⟩ := by
  rintro name w ⟨⟩ ⟨⟩
  show ExactIn xCtx (.req x76) (c! "@path") _
  unfold ExactIn
  rw [if_pos (by rfl)]
  rintro r ⟨⟩
  refine ⟨?_, ?_, ?_, ?_, ?_, ?_⟩ <;> intro e <;> exact absurd e (by decide)

/-- `@path` and `@request-target` of a request in origin form: the same base. -/
example : ∃ t, base xCtx (.req x76) none (l76 (c! "@request-target") [] p76) = some t ∧
    codeBase (.req x76) none (l76 (c! "@request-target") [] p76) = some t := by
  refine ⟨_, rfl, (l76_exact p76 (by intro kv hkv; cases hkv) (str_legal (by decide)) p76_legal rfl).2 ⟨p76_usual, ?_⟩⟩
  intro i hi
  simp only [l76, List.mem_cons, List.not_mem_nil, or_false] at hi
  rcases hi with rfl | rfl
  · exact path_exact76
  · rintro name w ⟨⟩ ⟨⟩
    show ExactIn xCtx (.req x76) (c! "@request-target") _
    unfold ExactIn
    rw [if_pos (by rfl)]
    rintro r ⟨⟩
    refine ⟨?_, ?_, ?_, ?_, ?_, ?_⟩
    · intro e; exact absurd e (by decide)
    · intro e; exact absurd e (by decide)
    · intro e; exact absurd e (by decide)
    · intro e; exact absurd e (by decide)
    · intro _
      refine ⟨rfl, by decide, by decide, fun _ _ ch h => ?_⟩
      cases h; exact Or.inl rfl
    · intro e; exact absurd e (by decide)

/-- `@target-uri` of the same request: another base. -/
example : ∃ t, base xCtx (.req x76) none (l76 (c! "@target-uri") [] p76) = some t ∧
    codeBase (.req x76) none (l76 (c! "@target-uri") [] p76) ≠ some t := by
  obtain ⟨t, ht⟩ : ∃ t, base xCtx (.req x76) none (l76 (c! "@target-uri") [] p76) = some t := Option.isSome_iff_exists.1 (by decide +kernel)
  refine ⟨t, ht, fun h => ?_⟩
  have := ((l76_exact p76 (by intro kv hkv; cases hkv) (str_legal (by decide)) p76_legal ht).1 h).2 _ (by simp [l76]; exact Or.inr rfl)
  have := this _ _ rfl rfl
  rw [if_neg (by decide)] at this
  unfold ExactIn at this
  rw [if_pos (by rfl)] at this
  exact (this x76 rfl).targetUri rfl rfl

/-- Signature parameters in another order: another base. -/
example : ∃ t, base xCtx (.req x76) none (l76 (c! "@query") [] p76.reverse) = some t ∧
    codeBase (.req x76) none (l76 (c! "@query") [] p76.reverse) ≠ some t := by
  obtain ⟨t, ht⟩ : ∃ t, base xCtx (.req x76) none (l76 (c! "@query") [] p76.reverse) = some t := Option.isSome_iff_exists.1 (by decide +kernel)
  have hl : LegalParams p76.reverse := ⟨by decide, fun kv hkv => p76_legal.2 kv (List.mem_reverse.1 hkv)⟩
  refine ⟨t, ht, fun h => ?_⟩
  have := ((l76_exact p76.reverse (by intro kv hkv; cases hkv) (str_legal (by decide)) hl ht).1 h).1.order
  revert this; decide

end Verif
