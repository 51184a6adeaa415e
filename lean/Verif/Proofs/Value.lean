import Verif.Spec.Value
import Verif.Proofs.Http
import Mathlib.Data.List.Forall2
/-! The code computes `HasValue`. -/
namespace Verif
open Sfv Spec

/-! ### Field values -/

theorem tchar_of_lower {c : Char} (h : isTchar c.toLower = true) : isTchar c = true := by
  by_cases hc : 'A' ≤ c ∧ c ≤ 'Z'
  · simp [isTchar, isAlph, hc]
  · have : c.toLower = c := by
      unfold Char.toLower
      have hc' : ¬ (c.val ≥ 'A'.val ∧ c.val ≤ 'Z'.val) := hc
      simp only [hc', dite_false]
    rwa [this] at h

theorem lower_id {n : Str} (h : ∀ c ∈ n, ¬ ('A' ≤ c ∧ c ≤ 'Z')) : lower n = n := by
  unfold lower
  conv => rhs; rw [← List.map_id n]
  apply List.map_congr_left
  intro c hc
  unfold Char.toLower
  have hc' : ¬ (c.val ≥ 'A'.val ∧ c.val ≤ 'Z'.val) := h c hc
  simp only [hc', dite_false, id]

theorem _root_.Verif.Spec.WfName.lower {n : Str} (h : WfName n) : lower n = n := lower_id (fun c hc => (h.2.2 c hc).2)

theorem getAll_fieldLines {h : Headers} (hw : WfHeaders h) (n : Str) : h.getAll n = fieldLines h n := by
  unfold Headers.getAll fieldLines
  cases hk : hdrKey n with
  | some k =>
    unfold hdrKey at hk
    split at hk
    · injection hk with hk; subst hk
      simp only
      congr 1
      apply List.filter_congr
      intro kv hkv
      rw [WfName.lower (hw kv hkv)]
      simp [Bool.beq_eq_decide_eq]
    · cases hk
  | none =>
    unfold hdrKey at hk
    split at hk
    · cases hk
    rename_i hn
    simp only
    symm
    rw [List.map_eq_nil_iff, List.filter_eq_nil_iff]
    intro kv hkv he
    have hw' := hw kv hkv
    simp only [decide_eq_true_eq] at he
    rw [WfName.lower hw'] at he
    apply hn
    refine ⟨?_, ?_, ?_⟩
    · rintro rfl; exact hw'.1 he
    · have : n.length = kv.1.length := by rw [he]; simp [Verif.lower]
      rw [this]; exact hw'.2.1
    · rw [List.all_eq_true]
      intro c hc
      apply tchar_of_lower
      have : c.toLower ∈ kv.1 := by rw [he]; exact List.mem_map_of_mem hc
      exact (hw'.2.2 _ this).1

theorem headerTexts_ok {h : Headers} (hw : WfHeaders h) (n : Str) (ts : List Str) :
    headerTexts h n = .ok ts ↔ LineTexts (fieldLines h n) ts := by
  unfold headerTexts
  rw [getAll_fieldLines hw, Res.collect_ok_iff]
  unfold LineTexts
  simp only [Res.ofOption_eq_ok]

theorem sfValue_ok (v t : Str) : sfValue v = .ok t ↔ Canon v t := by
  unfold sfValue Canon
  cases hl : parseList v with
  | some l => simp [Res.ofOption_eq_ok]
  | none =>
    cases hd : parseDict v with
    | some d => simp [Res.ofOption_eq_ok]
    | none => simp

theorem handleSf_ok (vs out : List Str) : handleSf vs = .ok out ↔ List.Forall₂ Canon vs out := by
  unfold handleSf
  rw [Res.collect_ok_iff]
  simp only [sfValue_ok]

theorem imGet_lookup (d : Dict) (k : Str) : imGet d k = d.lookup k := by
  induction d with
  | nil => rfl
  | cons x t ih =>
    obtain ⟨k', v⟩ := x
    simp only [imGet, List.lookup_cons]
    by_cases h : k' = k
    · subst h; simp
    · rw [if_neg h, ih]
      have : (k == k') = false := by simpa using Ne.symm h
      rw [this]

theorem serList_one (e : Entry) : serList [e] = some (serEntry e) := rfl

theorem handleKey_ok (vs out : List Str) (k : Str) : handleKey vs k = .ok out ↔ Members k vs out := by
  unfold handleKey Members
  constructor
  · intro h
    obtain ⟨ds, h1, h2⟩ := Res.bind_eq_ok.1 h
    refine ⟨ds, ?_, ?_⟩
    · rw [Res.collect_ok_iff] at h1
      simpa only [Res.ofOption_eq_ok] using h1
    · clear h h1
      induction ds generalizing out with
      | nil => simp only [List.filterMap_nil, Res.collect] at h2; injection h2 with h2; exact h2.symm
      | cons d t ih =>
        rw [List.filterMap_cons] at h2 ⊢
        rw [← imGet_lookup]
        cases hg : imGet d k with
        | none => rw [hg] at h2; simp only [Option.map_none] at h2 ⊢; exact ih _ h2
        | some e =>
          rw [hg] at h2
          simp only [Option.map_some, serList_one, Res.collect_ok_iff] at h2 ⊢
          cases h2 with
          | cons h3 h4 =>
            rw [Res.ofOption_eq_ok] at h3
            injection h3 with h3; subst h3
            rw [← ih _ (Res.collect_ok_iff.2 h4)]
  · rintro ⟨ds, h1, rfl⟩
    have : Res.collect (fun v => Res.ofOption SigErr.invalidComponentParam (parseDict v)) vs = .ok ds := by
      rw [Res.collect_ok_iff]; simpa only [Res.ofOption_eq_ok] using h1
    rw [this]
    simp only [Res.bind_ok]
    rw [Res.collect_ok_iff]
    clear h1 this
    induction ds with
    | nil => exact List.Forall₂.nil
    | cons d t ih =>
      rw [List.filterMap_cons, List.filterMap_cons, imGet_lookup]
      cases d.lookup k with
      | none => exact ih
      | some e => exact List.Forall₂.cons rfl ih

theorem fieldParams_ok (ps : List CParam) : ∀ vs out, fieldParams ps vs = .ok out ↔ Applied ps vs out := by
  induction ps with
  | nil =>
    intro vs out
    simp only [fieldParams]
    constructor
    · intro h; injection h with h; subst h; exact .done _
    · intro h; cases h; rfl
  | cons p t ih =>
    intro vs out
    cases p with
    | sf =>
      simp only [fieldParams]
      constructor
      · intro h
        obtain ⟨mid, h1, h2⟩ := Res.bind_eq_ok.1 h
        exact .sf ((handleSf_ok _ _).1 h1) ((ih _ _).1 h2)
      · intro h
        cases h with
        | sf h1 h2 => rw [(handleSf_ok _ _).2 h1]; exact (ih _ _).2 h2
    | key k =>
      simp only [fieldParams]
      constructor
      · intro h
        obtain ⟨mid, h1, h2⟩ := Res.bind_eq_ok.1 h
        exact .key ((handleKey_ok _ _ _).1 h1) ((ih _ _).1 h2)
      · intro h
        cases h with
        | key h1 h2 => rw [(handleKey_ok _ _ _).2 h1]; exact (ih _ _).2 h2
    | req =>
      simp only [fieldParams]
      constructor
      · intro h; exact .req ((ih _ _).1 h)
      · intro h; cases h with | req h => exact (ih _ _).2 h
    | bs => simp only [fieldParams]; constructor <;> intro h <;> cases h
    | tr => simp only [fieldParams]; constructor <;> intro h <;> cases h
    | name n => simp only [fieldParams]; constructor <;> intro h <;> cases h

theorem buildField_ok (i : CId) (vs : List Str) (c : Component) :
    buildField i vs = .ok c ↔ ∃ out, Applied i.params vs out ∧ c = ⟨i, .plain (join (c! ", ") out)⟩ := by
  unfold buildField
  constructor
  · intro h
    obtain ⟨out, h1, h2⟩ := Res.bind_eq_ok.1 h
    injection h2 with h2
    exact ⟨out, (fieldParams_ok _ _ _).1 h1, h2.symm⟩
  · rintro ⟨out, h1, rfl⟩
    rw [(fieldParams_ok _ _ _).2 h1]; rfl

theorem extractHttpField_ok {m : Msg} (hw : WfHeaders m.headers) (f : Str) (ps : List CParam) (c : Component) :
    extractHttpField m ⟨.field f, ps⟩ = .ok c ↔ ∃ v, FieldValue m.headers f ps v ∧ c = ⟨⟨.field f, ps⟩, .plain v⟩ := by
  unfold extractHttpField FieldValue
  simp only
  constructor
  · intro h
    obtain ⟨ts, h1, h2⟩ := Res.bind_eq_ok.1 h
    rw [Res.mapErr_eq_ok] at h2
    obtain ⟨out, h3, rfl⟩ := (buildField_ok _ _ _).1 h2
    exact ⟨_, ⟨ts, out, (headerTexts_ok hw f ts).1 h1, h3, rfl⟩, rfl⟩
  · rintro ⟨v, ⟨ts, out, h1, h2, rfl⟩, rfl⟩
    rw [(headerTexts_ok hw f ts).2 h1]
    simp only [Res.bind_ok]
    rw [Res.mapErr_eq_ok]
    exact (buildField_ok _ _ _).2 ⟨out, h2, rfl⟩

/-! ### Derived values -/

theorem checkDerivedParams_ok (m : Msg) (d : Derived) (ps : List CParam) :
    checkDerivedParams m d ps = .ok () ↔ ∀ p ∈ ps, (p = .req ∧ m.isReq = true) ∨ (d = .queryParam ∧ ∃ n, p = .name n) := by
  induction ps with
  | nil => simp [checkDerivedParams]
  | cons p t ih =>
    simp only [checkDerivedParams, List.forall_mem_cons]
    rw [Res.bind_eq_ok, ← ih]
    have : ∀ u : Unit, checkDerivedParam m d p = .ok u ↔ ((p = .req ∧ m.isReq = true) ∨ (d = .queryParam ∧ ∃ n, p = .name n)) := by
      intro u
      cases p with
      | name n => simp only [checkDerivedParam]; split <;> simp_all
      | req => simp only [checkDerivedParam]; split <;> simp_all
      | _ => simp [checkDerivedParam]
    constructor
    · rintro ⟨u, h1, h2⟩; exact ⟨(this u).1 h1, h2⟩
    · rintro ⟨h1, h2⟩; exact ⟨(), (this ()).2 h1, h2⟩

theorem okDerived_of {d : Derived} {ps : List CParam} (h : DerivedParams d ps) : ps.all CParam.okDerived = true := by
  rw [List.all_eq_true]
  intro p hp
  rcases h p hp with rfl | ⟨_, n, rfl⟩ <;> rfl

theorem splitOnce_name (name p w : Str) : (splitOnce '=' p = some (name, w)) ↔
    ((name ++ ['=']).isPrefixOf p = true ∧ '=' ∉ name) ∧ p.drop (name.length + 1) = w := by
  constructor
  · intro h
    obtain ⟨rfl, hn⟩ := splitOnce_some h
    refine ⟨⟨?_, hn⟩, ?_⟩
    · rw [List.isPrefixOf_iff_prefix]; exact ⟨w, by simp⟩
    · rw [show name ++ '=' :: w = (name ++ ['=']) ++ w by simp, show name.length + 1 = (name ++ ['=']).length by simp,
        List.drop_left]
  · rintro ⟨⟨h1, h2⟩, h3⟩
    rw [List.isPrefixOf_iff_prefix] at h1
    obtain ⟨u, rfl⟩ := h1
    rw [show name.length + 1 = (name ++ ['=']).length by simp, List.drop_left] at h3
    subst h3
    rw [List.append_assoc]
    exact splitOnce_append u h2

theorem queryParamValue_eq (name : Str) (vs : List Str) : queryParamValue name vs = join (c! ", ") (queryValues name vs) := by
  unfold queryParamValue queryValues
  simp only
  congr 1
  induction vs with
  | nil => rfl
  | cons v t ih =>
    rw [List.filter_cons, List.filterMap_cons]
    by_cases hv : v.contains '=' = true
    · rw [if_pos hv, List.filterMap_cons]
      cases hs : splitOnce '=' v with
      | none => exact absurd (by simpa using hv) (splitOnce_none.1 hs)
      | some kw =>
        obtain ⟨k, w⟩ := kw
        simp only
        rw [List.filter_cons]
        by_cases hk : k = name
        · subst hk
          obtain ⟨h1, h2⟩ := (splitOnce_name k v w).1 hs
          rw [if_pos h1, h2]
          simp only [beq_self_eq_true, if_true, List.map_cons, ih]
        · have : ¬ ((name ++ ['=']).isPrefixOf v = true ∧ '=' ∉ name) := by
            intro hh
            have := (splitOnce_name name v _).2 ⟨hh, rfl⟩
            rw [hs] at this; injection this with this; injection this with this; exact hk this
          rw [if_neg this]
          simp only [beq_iff_eq, hk, if_false, ih]
    · rw [if_neg hv]
      have : ¬ ((name ++ ['=']).isPrefixOf v = true ∧ '=' ∉ name) := by
        rintro ⟨hh, _⟩
        rw [List.isPrefixOf_iff_prefix] at hh
        obtain ⟨u, rfl⟩ := hh
        apply hv; simp
      rw [if_neg this, ih]

/-- Build of a derived component from values. -/
theorem build_derived (d : Derived) (ps : List CParam) (vs : List Str) (hp : DerivedParams d ps) (c : Component) :
    Component.build ⟨.derived d, ps⟩ vs = .ok c ↔ vs ≠ [] ∧ ∃ v, derivedValue d ps vs = .ok v ∧ c = ⟨⟨.derived d, ps⟩, v⟩ := by
  unfold Component.build buildDerived
  simp only
  by_cases hv : vs = []
  · simp [hv]
  · rw [if_neg hv, if_neg (by simp [okDerived_of hp])]
    constructor
    · intro h
      obtain ⟨v, h1, h2⟩ := Res.bind_eq_ok.1 h
      injection h2 with h2
      exact ⟨hv, v, h1, h2.symm⟩
    · rintro ⟨_, v, h1, rfl⟩
      rw [h1]; rfl

theorem sigParams_values {h : Headers} (hw : WfHeaders h) :
    (h.getAll hSignatureInput).map (fun v => (hvToStr v).getD []) =
      (fieldLines h (c! "signature-input")).map (fun v => (hvToStr v).getD []) := by
  rw [getAll_fieldLines hw]; rfl

theorem sigParams_ok {h : Headers} (ps : List CParam) (v : Str) :
    ((fieldLines h (c! "signature-input")).map (fun v => (hvToStr v).getD []) ≠ [] ∧
      ∃ w, derivedValue .signatureParams ps ((fieldLines h (c! "signature-input")).map (fun v => (hvToStr v).getD [])) = .ok w ∧
        w.disp = v) ↔ RequestValue.SigParamsValue h v := by
  unfold RequestValue.SigParamsValue
  cases fieldLines h (c! "signature-input") with
  | nil => simp
  | cons l t =>
    simp only [List.map_cons, ne_eq, reduceCtorEq, not_false_eq_true, true_and, List.head?_cons, Option.some.injEq,
      derivedValue]
    constructor
    · rintro ⟨w, h1, h2⟩
      cases hs : splitOnce '=' (trim ((hvToStr l).getD [])) with
      | none => rw [hs] at h1; cases h1
      | some kw =>
        obtain ⟨k, u⟩ := kw
        rw [hs] at h1
        injection h1 with h1; subst h1
        obtain ⟨e1, e2⟩ := splitOnce_some hs
        simp only [CValue.disp] at h2; subst h2
        refine ⟨l, (hvToStr l).getD [], k, rfl, ?_, e1, e2⟩
        cases hvToStr l <;> simp
    · rintro ⟨l', t', k, rfl, h1, h2, h3⟩
      have ht : (hvToStr l).getD [] = t' := by
        rcases h1 with h1 | ⟨h1, rfl⟩ <;> rw [h1] <;> rfl
      rw [ht, h2, splitOnce_append _ h3]
      exact ⟨_, rfl, rfl⟩

theorem bool_not_status {d : Derived} : (d = .status) ∨ (d ≠ .status) := by by_cases h : d = .status <;> tauto

theorem extractDerived_req {r : Request} (hw : WfHeaders r.headers) (d : Derived) (ps : List CParam) (v : Str) :
    (∃ c, extractDerived (.req r) ⟨.derived d, ps⟩ = .ok c ∧ c.value.disp = v) ↔
      DerivedParams d ps ∧ RequestValue r d ps v := by
  have hpar : checkDerivedParams (.req r) d ps = .ok () ↔ DerivedParams d ps := by
    rw [checkDerivedParams_ok]; unfold DerivedParams; simp [Msg.isReq]
  unfold extractDerived
  simp only
  by_cases hp : DerivedParams d ps
  · rw [hpar.2 hp]
    simp only [Res.bind_ok]
    by_cases hd : d = .status
    · subst hd
      simp [checkDerivedKind, RequestValue]
    rw [show checkDerivedKind (.req r) d ps = .ok () from by simp [checkDerivedKind, hd]]
    simp only [Res.bind_ok, hp, true_and]
    have one : ∀ x : Str, derivedValues (.req r) d = .ok [x] →
        ((∃ c, (derivedValues (.req r) d >>= fun vs => (Component.build ⟨.derived d, ps⟩ vs).mapErr HyperErr.httpSig) = .ok c ∧ c.value.disp = v) ↔
          ∃ w, derivedValue d ps [x] = .ok w ∧ w.disp = v) := by
      intro x hx
      rw [hx]
      simp only [Res.bind_ok, Res.mapErr_eq_ok]
      constructor
      · rintro ⟨c, h1, h2⟩
        obtain ⟨_, w, h3, rfl⟩ := (build_derived d ps [x] hp c).1 h1
        exact ⟨w, h3, h2⟩
      · rintro ⟨w, h1, h2⟩
        exact ⟨_, (build_derived d ps [x] hp _).2 ⟨by simp, w, h1, rfl⟩, h2⟩
    cases d with
    | method =>
      rw [one r.method rfl]; simp [derivedValue, RequestValue, CValue.disp, upper, eq_comm]
    | targetUri => rw [one _ rfl]; simp [derivedValue, RequestValue, CValue.disp, eq_comm]
    | authority => rw [one _ rfl]; simp [derivedValue, RequestValue, CValue.disp, lower, eq_comm]
    | scheme => rw [one _ rfl]; simp [derivedValue, RequestValue, CValue.disp, lower, eq_comm]
    | requestTarget =>
      rw [one (if r.method = c! "CONNECT" then r.uri.authority.getD [] else if r.method = c! "OPTIONS" then c! "*"
        else r.uri.pathAndQuery.getD []) (by
          simp only [derivedValues, Msg.method, Msg.uri, Res.bind_ok]
          split
          · rfl
          · split <;> rfl)]
      simp [derivedValue, RequestValue, CValue.disp, eq_comm]
    | path =>
      rw [one _ rfl]
      simp only [derivedValue, RequestValue, CValue.disp, Res.ok.injEq, exists_eq_left']
      exact eq_comm
    | query =>
      rw [one ('?' :: r.uri.query.getD []) (by simp only [derivedValues, Msg.uri, Res.bind_ok]; cases r.uri.query <;> rfl)]
      simp [derivedValue, RequestValue, CValue.disp, eq_comm]
    | queryParam =>
      have hvs : derivedValues (.req r) .queryParam = .ok (pieces (r.uri.query.getD [])) := rfl
      rw [hvs]
      simp only [Res.bind_ok, Res.mapErr_eq_ok, RequestValue]
      constructor
      · rintro ⟨c, h1, h2⟩
        obtain ⟨hne, w, h3, rfl⟩ := (build_derived _ ps _ hp c).1 h1
        simp only [derivedValue] at h3
        split at h3
        · cases h3
        · rename_i n hn
          injection h3 with h3; subst h3
          exact ⟨n, hn, hne, by rw [← h2, queryParamValue_eq]; rfl⟩
      · rintro ⟨n, hn, hne, rfl⟩
        refine ⟨_, (build_derived _ ps _ hp _).2 ⟨hne, .plain (queryParamValue n (pieces (r.uri.query.getD []))), ?_, rfl⟩, ?_⟩
        · simp only [derivedValue, hn]
        · simp only [CValue.disp, queryParamValue_eq]
    | status => exact absurd rfl hd
    | signatureParams =>
      have hvs : derivedValues (.req r) .signatureParams =
          .ok ((fieldLines r.headers (c! "signature-input")).map (fun v => (hvToStr v).getD [])) := by
        simp only [derivedValues, Msg.headers, sigParams_values hw]
      rw [hvs]
      simp only [Res.bind_ok, Res.mapErr_eq_ok, RequestValue]
      rw [← sigParams_ok ps]
      constructor
      · rintro ⟨c, h1, h2⟩
        obtain ⟨hne, w, h3, rfl⟩ := (build_derived _ ps _ hp c).1 h1
        exact ⟨hne, w, h3, h2⟩
      · rintro ⟨hne, w, h3, h2⟩
        exact ⟨_, (build_derived _ ps _ hp _).2 ⟨hne, w, h3, rfl⟩, h2⟩
  · constructor
    · rintro ⟨c, h, _⟩
      obtain ⟨u, h1, _⟩ := Res.bind_eq_ok.1 h
      exact absurd (hpar.1 h1) hp
    · rintro ⟨h, _⟩; exact absurd h hp

theorem extractDerived_res {r : Response} (hw : WfHeaders r.headers) (d : Derived) (ps : List CParam) (v : Str)
    (hreq : CParam.req ∉ ps) :
    (∃ c, extractDerived (.res r) ⟨.derived d, ps⟩ = .ok c ∧ c.value.disp = v) ↔ ps = [] ∧ ResponseValue r d v := by
  have hpar : checkDerivedParams (.res r) d ps = .ok () ↔ ∀ p ∈ ps, d = .queryParam ∧ ∃ n, p = .name n := by
    rw [checkDerivedParams_ok]; simp [Msg.isReq]
  unfold extractDerived
  simp only
  by_cases hp : ∀ p ∈ ps, d = .queryParam ∧ ∃ n, p = .name n
  · rw [hpar.2 hp]
    simp only [Res.bind_ok]
    have hc : ps.contains CParam.req = false := by simpa using hreq
    by_cases hk : d = .status ∨ d = .signatureParams
    · have hps : ps = [] := by
        cases ps with
        | nil => rfl
        | cons p t => have := (hp p (by simp)).1; rcases hk with rfl | rfl <;> cases this
      subst hps
      rw [show checkDerivedKind (.res r) d [] = .ok () from by rcases hk with rfl | rfl <;> simp [checkDerivedKind]]
      simp only [Res.bind_ok, true_and]
      have hdp : DerivedParams d [] := by intro p hp; simp at hp
      rcases hk with rfl | rfl
      · simp only [derivedValues, Msg.status, Res.bind_ok, Res.mapErr_eq_ok, ResponseValue]
        constructor
        · rintro ⟨c, h1, h2⟩
          obtain ⟨_, w, h3, rfl⟩ := (build_derived _ _ _ hdp c).1 h1
          simp only [derivedValue] at h3
          injection h3 with h3; subst h3
          exact h2.symm
        · rintro rfl
          exact ⟨_, (build_derived _ _ _ hdp _).2 ⟨by simp, .plain (natStr r.status), rfl, rfl⟩, rfl⟩
      · have hvs : derivedValues (.res r) .signatureParams =
            .ok ((fieldLines r.headers (c! "signature-input")).map (fun v => (hvToStr v).getD [])) := by
          simp only [derivedValues, Msg.headers, sigParams_values hw]
        rw [hvs]
        simp only [Res.bind_ok, Res.mapErr_eq_ok, ResponseValue]
        rw [← sigParams_ok []]
        constructor
        · rintro ⟨c, h1, h2⟩
          obtain ⟨hne, w, h3, rfl⟩ := (build_derived _ _ _ hdp c).1 h1
          exact ⟨hne, w, h3, h2⟩
        · rintro ⟨hne, w, h3, h2⟩
          exact ⟨_, (build_derived _ _ _ hdp _).2 ⟨hne, w, h3, rfl⟩, h2⟩
    · rw [not_or] at hk
      constructor
      · rintro ⟨c, h, _⟩
        simp [checkDerivedKind, hreq, hk.1, hk.2] at h
      · rintro ⟨_, h⟩
        cases d <;> simp_all [ResponseValue]
  · constructor
    · rintro ⟨c, h, _⟩
      obtain ⟨u, h1, _⟩ := Res.bind_eq_ok.1 h
      exact absurd (hpar.1 h1) hp
    · rintro ⟨rfl, _⟩; exact absurd (by simp) hp

/-! ### The specification of a value is met -/


theorem extractComponent_ok {m : Msg} (hw : WfHeaders m.headers) (i : CId) (hr : m.isReq = true ∨ CParam.req ∉ i.params) (v : Str) :
    (∃ c, extractComponent m i = .ok c ∧ c.value.disp = v) ↔ ValueIn m i v := by
  obtain ⟨n, ps⟩ := i
  cases n with
  | field f =>
    unfold extractComponent ValueIn
    simp only
    constructor
    · rintro ⟨c, h1, h2⟩
      obtain ⟨w, h3, rfl⟩ := (extractHttpField_ok hw f ps c).1 h1
      simp only [CValue.disp] at h2; subst h2; exact h3
    · intro h
      exact ⟨_, (extractHttpField_ok hw f ps _).2 ⟨v, h, rfl⟩, rfl⟩
  | derived d =>
    cases m with
    | req r => exact extractDerived_req hw d ps v
    | res r =>
      rcases hr with hr | hr
      · simp [Msg.isReq] at hr
      · exact extractDerived_res hw d ps v hr

/-- The code extracts exactly the specified value. -/
theorem extractFor_ok {m : Msg} {rf : Option Request} (hw : WfHeaders m.headers) (hf : ∀ r, rf = some r → WfHeaders r.headers)
    (i : CId) (v : Str) : (∃ c, extractFor m rf i = .ok c ∧ c.value.disp = v) ↔ HasValue m rf i v := by
  unfold extractFor HasValue
  by_cases hreq : CParam.req ∈ i.params
  · rw [if_pos (by simpa using hreq), if_pos hreq]
    cases m with
    | req r => simp [Msg.isReq]
    | res s =>
      cases rf with
      | none => simp [Msg.isReq]
      | some r =>
        rw [if_neg (by simp [Msg.isReq])]
        simp only
        rw [extractComponent_ok (m := .req r) (hf r rfl) i (Or.inl rfl) v]
        constructor
        · intro h; exact ⟨s, r, rfl, rfl, h⟩
        · rintro ⟨s', r', h1, h2, h3⟩
          injection h2 with h2; subst h2; exact h3
  · rw [if_neg (by simpa using hreq), if_neg hreq]
    exact extractComponent_ok hw i (Or.inr hreq) v

/-! ### Ids and absence of panics -/

theorem build_id {i : CId} {vs : List Str} {c : Component} (h : Component.build i vs = .ok c) : c.id = i := by
  unfold Component.build at h
  split at h
  · obtain ⟨out, _, h2⟩ := Res.bind_eq_ok.1 h
    injection h2 with h2; subst h2; rfl
  · unfold buildDerived at h
    split at h
    · cases h
    split at h
    · cases h
    split at h
    · cases h
    obtain ⟨out, _, h2⟩ := Res.bind_eq_ok.1 h
    injection h2 with h2; subst h2; rfl

theorem extractComponent_id {m : Msg} {i : CId} {c : Component} (h : extractComponent m i = .ok c) : c.id = i := by
  unfold extractComponent at h
  split at h
  · unfold extractHttpField at h
    split at h
    · cases h
    obtain ⟨vs, _, h2⟩ := Res.bind_eq_ok.1 h
    exact build_id (Res.mapErr_eq_ok.1 h2)
  · unfold extractDerived at h
    split at h
    · cases h
    obtain ⟨_, _, h2⟩ := Res.bind_eq_ok.1 h
    obtain ⟨_, _, h3⟩ := Res.bind_eq_ok.1 h2
    obtain ⟨vs, _, h4⟩ := Res.bind_eq_ok.1 h3
    exact build_id (Res.mapErr_eq_ok.1 h4)

theorem extractFor_id {m : Msg} {rf : Option Request} {i : CId} {c : Component} (h : extractFor m rf i = .ok c) : c.id = i := by
  unfold extractFor at h
  split at h
  · split at h
    · cases h
    split at h
    · cases h
    · exact extractComponent_id h
  · exact extractComponent_id h

theorem eqv_refl (i : CId) : i.eqv i = true := by
  unfold CId.eqv
  simp

/-- A base is built exactly when every covered component can be extracted. -/
theorem buildBase_ok {m : Msg} {p : SigParams} {rf : Option Request} {b : SigBase} :
    buildBase m p rf = .ok b ↔ b.params = p ∧ List.Forall₂ (fun i c => extractFor m rf i = .ok c) p.covered b.lines := by
  unfold buildBase
  have key : ∀ lines, List.Forall₂ (fun i c => extractFor m rf i = .ok c) p.covered lines → SigBase.tryNew lines p = .ok ⟨lines, p⟩ := by
    intro lines h
    unfold SigBase.tryNew
    rw [if_neg (by simpa using h.length_eq.symm), if_neg]
    simp only [Decidable.not_not, List.all_eq_true]
    generalize p.covered = ids at h
    induction h with
    | nil => simp
    | @cons i c is cs h _ ih =>
      intro lc hlc
      simp only [List.zip_cons_cons, List.mem_cons] at hlc
      rcases hlc with rfl | hlc
      · rw [extractFor_id h]; exact eqv_refl i
      · exact ih lc hlc
  constructor
  · intro h
    obtain ⟨lines, h1, h2⟩ := Res.bind_eq_ok.1 h
    rw [Res.collect_ok_iff] at h1
    rw [key lines h1] at h2
    injection h2 with h2; subst h2
    exact ⟨rfl, h1⟩
  · rintro ⟨rfl, h⟩
    rw [Res.collect_ok_iff.2 h]
    simp only [Res.bind_ok]
    rw [key _ h]; rfl

theorem forall₂_ids {m : Msg} {rf : Option Request} {ids : List CId} {cs : List Component}
    (h : List.Forall₂ (fun i c => extractFor m rf i = .ok c) ids cs) : cs.map (·.id) = ids := by
  induction h with
  | nil => rfl
  | cons h _ ih => simp [extractFor_id h, ih]

/-- The text of a base. -/
theorem disp_baseText {m : Msg} {p : SigParams} {rf : Option Request} {b : SigBase} (h : buildBase m p rf = .ok b) :
    b.disp = baseText p.covered (b.lines.map (fun c => c.value.disp)) p.disp := by
  obtain ⟨rfl, h⟩ := buildBase_ok.1 h
  unfold SigBase.disp baseText
  have : ∀ ids cs, List.Forall₂ (fun i c => extractFor m rf i = .ok c) ids cs →
      cs.flatMap (fun l => l.disp ++ ['\n']) =
        (List.zipWith (fun i v => i.disp ++ c! ": " ++ v ++ c! "\n") ids (cs.map (fun c => c.value.disp))).flatten := by
    intro ids cs h
    induction h with
    | nil => rfl
    | cons h _ ih =>
      rw [List.flatMap_cons, ih, List.map_cons, List.zipWith_cons_cons, List.flatten_cons, ← extractFor_id h]
      simp [Component.disp]
  rw [this _ _ h]
  simp

/-- The base of a message, in terms of the specification of values. -/
theorem buildBase_spec {m : Msg} {p : SigParams} {rf : Option Request} (hw : WfHeaders m.headers)
    (hf : ∀ r, rf = some r → WfHeaders r.headers) (text : Str) :
    (∃ b, buildBase m p rf = .ok b ∧ b.disp = text) ↔
      ∃ vs, List.Forall₂ (HasValue m rf) p.covered vs ∧ text = baseText p.covered vs p.disp := by
  constructor
  · rintro ⟨b, h1, rfl⟩
    refine ⟨b.lines.map (fun c => c.value.disp), ?_, disp_baseText h1⟩
    obtain ⟨rfl, h2⟩ := buildBase_ok.1 h1
    generalize b.params.covered = ids at h2
    generalize b.lines = cs at h2
    clear h1
    induction h2 with
    | nil => exact .nil
    | cons h _ ih => exact .cons ((extractFor_ok hw hf _ _).1 ⟨_, h, rfl⟩) ih
  · rintro ⟨vs, h1, rfl⟩
    have : ∃ cs, List.Forall₂ (fun i c => extractFor m rf i = .ok c) p.covered cs ∧ cs.map (fun c => c.value.disp) = vs := by
      generalize p.covered = ids at h1
      induction h1 with
      | nil => exact ⟨[], .nil, rfl⟩
      | cons h _ ih =>
        obtain ⟨c, hc, hv⟩ := (extractFor_ok hw hf _ _).2 h
        obtain ⟨cs, h2, h3⟩ := ih
        exact ⟨c :: cs, .cons hc h2, by rw [List.map_cons, hv, h3]⟩
    obtain ⟨cs, h2, h3⟩ := this
    have hb := buildBase_ok (m := m) (p := p) (rf := rf) (b := ⟨cs, p⟩) |>.2 ⟨rfl, h2⟩
    exact ⟨_, hb, by rw [disp_baseText hb, ← h3]⟩

theorem collect_ne_panic {ε α β : Type} {f : α → Res ε β} (h : ∀ a, f a ≠ .panic) (l : List α) : Res.collect f l ≠ .panic := by
  induction l with
  | nil => simp [Res.collect]
  | cons a t ih =>
    simp only [Res.collect]
    cases ha : f a with
    | panic => exact absurd ha (h a)
    | err e => simp
    | ok b =>
      simp only
      cases ht : Res.collect f t with
      | panic => exact absurd ht ih
      | err e => simp
      | ok b => simp

theorem fieldParams_ne_panic (ps : List CParam) : ∀ vs, fieldParams ps vs ≠ .panic := by
  induction ps with
  | nil => intro vs; simp [fieldParams]
  | cons p t ih =>
    intro vs h
    cases p with
    | sf =>
      simp only [fieldParams] at h
      rcases Res.bind_eq_panic.1 h with h | ⟨a, _, h⟩
      · refine collect_ne_panic (fun v => ?_) vs h
        unfold sfValue
        split
        · exact Res.ofOption_ne_panic
        · split
          · exact Res.ofOption_ne_panic
          · simp
      · exact ih _ h
    | key k =>
      simp only [fieldParams] at h
      rcases Res.bind_eq_panic.1 h with h | ⟨a, _, h⟩
      · unfold handleKey at h
        rcases Res.bind_eq_panic.1 h with h | ⟨a, _, h⟩
        · exact collect_ne_panic (fun v => Res.ofOption_ne_panic) vs h
        · exact collect_ne_panic (fun v => Res.ofOption_ne_panic) _ h
      · exact ih _ h
    | req => exact ih _ h
    | _ => simp [fieldParams] at h

theorem build_ne_panic (i : CId) (vs : List Str) : Component.build i vs ≠ .panic := by
  unfold Component.build
  split
  · intro h
    rcases Res.bind_eq_panic.1 h with h | ⟨a, _, h⟩
    · exact fieldParams_ne_panic _ _ h
    · cases h
  · unfold buildDerived
    split
    · simp
    rename_i d _
    split
    · simp
    rename_i hv
    split
    · simp
    intro h
    rcases Res.bind_eq_panic.1 h with h | ⟨a, _, h⟩
    · cases vs with
      | nil => exact hv rfl
      | cons v t =>
        unfold derivedValue at h
        cases d <;> simp only at h <;> (try cases h)
        · split at h <;> cases h
        · split at h <;> cases h
    · cases h

theorem derivedValues_ne_panic (m : Msg) (d : Derived) : derivedValues m d ≠ .panic := by
  cases m <;> cases d <;> simp [derivedValues, Msg.method, Msg.uri, Msg.status]
  all_goals (split <;> [simp; (split <;> simp)])

theorem extractComponent_ne_panic (m : Msg) (i : CId) : extractComponent m i ≠ .panic := by
  unfold extractComponent
  split
  · unfold extractHttpField
    split
    · simp
    intro h
    rcases Res.bind_eq_panic.1 h with h | ⟨a, _, h⟩
    · exact collect_ne_panic (fun v => Res.ofOption_ne_panic) _ h
    · exact build_ne_panic _ _ (Res.mapErr_eq_panic.1 h)
  · unfold extractDerived
    split
    · simp
    rename_i d _
    intro h
    rcases Res.bind_eq_panic.1 h with h | ⟨a, _, h⟩
    · have : ∀ ps, checkDerivedParams m d ps ≠ .panic := by
        intro ps
        induction ps with
        | nil => simp [checkDerivedParams]
        | cons p t ih =>
          intro h
          simp only [checkDerivedParams] at h
          rcases Res.bind_eq_panic.1 h with h | ⟨a, _, h⟩
          · cases p <;> simp only [checkDerivedParam] at h <;> first | cases h | (split at h <;> cases h)
          · exact ih h
      exact this _ h
    rcases Res.bind_eq_panic.1 h with h | ⟨a, _, h⟩
    · unfold checkDerivedKind at h
      cases m with
      | req r => simp only at h; split at h <;> cases h
      | res r => simp only at h; split at h; · cases h
                 split at h <;> cases h
    rcases Res.bind_eq_panic.1 h with h | ⟨a, _, h⟩
    · exact derivedValues_ne_panic _ _ h
    · exact build_ne_panic _ _ (Res.mapErr_eq_panic.1 h)

theorem extractFor_ne_panic (m : Msg) (rf : Option Request) (i : CId) : extractFor m rf i ≠ .panic := by
  unfold extractFor
  split
  · split
    · simp
    split
    · simp
    · exact extractComponent_ne_panic _ _
  · exact extractComponent_ne_panic _ _

theorem buildBase_ne_panic (m : Msg) (p : SigParams) (rf : Option Request) : buildBase m p rf ≠ .panic := by
  unfold buildBase
  intro h
  rcases Res.bind_eq_panic.1 h with h | ⟨a, _, h⟩
  · exact collect_ne_panic (extractFor_ne_panic m rf) _ h
  · rw [Res.mapErr_eq_panic] at h
    unfold SigBase.tryNew at h
    split at h
    · cases h
    split at h <;> cases h

end Verif
