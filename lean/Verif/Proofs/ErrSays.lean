import Verif.Spec.ErrText
import Verif.Proofs.ErrText
import Verif.Proofs.FailureRead
/-! The messages of the code are those of `Spec/ErrText.lean`. -/
namespace Verif
open Sfv Spec Grammar

theorem Res.ok_of_kind {ε ε' α : Type} {g : ε → ε'} {x : Res ε α} {y : Res ε' α} (h : x.mapErr g = y) (a : α) : x = .ok a ↔ y = .ok a := by
  rw [← h]; cases x <;> simp

section
variable {L : ErrLib}

theorem err_eta {e e' : SigErr} {t t' : Str} {α : Type} : (Res.err (α := α) (⟨e, t⟩ : SigErrT) = .err ⟨e', t'⟩) ↔ e' = e ∧ t' = t := by
  constructor
  · intro h; injection h with h; injection h with h1 h2; exact ⟨h1.symm, h2.symm⟩
  · rintro ⟨rfl, rfl⟩; rfl

theorem herr_eta {e e' : HyperErr} {t t' : Str} {α : Type} : (Res.err (α := α) (⟨e, t⟩ : HyperErrT) = .err ⟨e', t'⟩) ↔ e' = e ∧ t' = t := by
  constructor
  · intro h; injection h with h; injection h with h1 h2; exact ⟨h1.symm, h2.symm⟩
  · rintro ⟨rfl, rfl⟩; rfl

theorem up_err {α : Type} {x : Res SigErrT α} {e : HyperErr} {t : Str} :
    x.mapErr SigErrT.up = .err ⟨e, t⟩ ↔ ∃ e', x = .err ⟨e', t⟩ ∧ e = .httpSig e' := by
  rw [Res.mapErr_eq_err]
  constructor
  · rintro ⟨⟨e', t'⟩, h, h2⟩
    injection h2 with h2 h3; subst h2 h3; exact ⟨e', h, rfl⟩
  · rintro ⟨e', h, rfl⟩; exact ⟨_, h, rfl⟩

/-! ### Fields -/

theorem listText_none {s : Str} : parseList s = none ↔ ∀ d, ¬ ListText d s := by
  constructor
  · intro h d hd; rw [(C63_list _ _).2 hd] at h; cases h
  · intro h
    cases hp : parseList s with
    | none => rfl
    | some d => exact absurd ((C63_list _ _).1 hp) (h d)

theorem sfValueT_err {v : Str} {e : SigErr} {t : Str} : sfValueT v = .err ⟨e, t⟩ ↔ Wire.SfSays v t ∧ e = .invalidComponentParam := by
  unfold sfValueT
  cases hl : parseList v with
  | some l =>
    have hL := (C63_list _ _).1 hl
    have hu : ∀ l', ListText l' v → l' = l := by intro l' h; rw [(C63_list _ _).2 h] at hl; injection hl
    simp only [serList]
    by_cases h0 : l = []
    · subst h0
      simp only [if_true, Res.ofOption_none, err_eta]
      constructor
      · rintro ⟨rfl, rfl⟩; exact ⟨.empty hL, rfl⟩
      · rintro ⟨h, rfl⟩
        cases h with
        | empty => exact ⟨rfl, rfl⟩
        | bad h => exact absurd hL (h _)
    · simp only [if_neg h0, Res.ofOption_some, reduceCtorEq, false_iff]
      rintro ⟨h, _⟩
      cases h with
      | empty h => exact h0 (hu _ h).symm
      | bad h => exact absurd hL (h _)
  | none =>
    have hno := listText_none.1 hl
    cases hd : parseDict v with
    | some d =>
      have hD := (C63_dict _ _).1 hd
      have h0 : d ≠ [] := by
        rintro rfl
        obtain ⟨raw, hf, hm⟩ := hD
        have hr : raw = [] := by
          cases raw with
          | nil => rfl
          | cons kv t =>
            have := hm.2 kv.1
            rw [List.lookup_nil, eq_comm, List.lookup_eq_none_iff] at this
            simpa using this kv (by simp)
        subst hr
        rcases hf with ⟨_, n, h⟩ | ⟨n, t, a, h, _⟩
        · exact hno [] (Or.inl ⟨rfl, n, h⟩)
        · cases h
      simp only [serDict, if_neg h0, Res.ofOption_some, reduceCtorEq, false_iff]
      rintro ⟨h, _⟩
      cases h with
      | empty h => exact absurd h (hno _)
      | bad _ h => exact absurd hD (h _)
    | none =>
      simp only [err_eta]
      constructor
      · rintro ⟨rfl, rfl⟩; exact ⟨.bad hno (dictText_none.1 hd), rfl⟩
      · rintro ⟨h, rfl⟩
        cases h with
        | empty h => exact absurd h (hno _)
        | bad => exact ⟨rfl, rfl⟩

theorem handleSfT_err {vs : List Str} {e : SigErr} {t : Str} :
    handleSfT vs = .err ⟨e, t⟩ ↔ Wire.FirstBad (fun v => ∃ w, Wire.Canon v w) (fun v => Wire.SfSays v t) vs ∧ e = .invalidComponentParam := by
  unfold handleSfT
  rw [Res.collect_eq_err, firstBad_congr (b' := fun v => Wire.SfSays v t ∧ e = .invalidComponentParam) (g' := fun v => ∃ w, Wire.Canon v w)]
  · constructor
    · rintro ⟨a, x, b, h1, ⟨h2, h3⟩, h4⟩; exact ⟨⟨a, x, b, h1, h2, h4⟩, h3⟩
    · rintro ⟨⟨a, x, b, h1, h2, h4⟩, h3⟩; exact ⟨a, x, b, h1, ⟨h2, h3⟩, h4⟩
  · intro v _
    exact exists_congr (fun w => by rw [Res.ok_of_kind (sfValueT_kind v), sfValue_ok, wireCanon_iff])
  · intro v _; exact sfValueT_err

theorem handleKeyT_err {vs : List Str} {k : Str} {e : SigErr} {t : Str} :
    handleKeyT L vs k = .err ⟨e, t⟩ ↔ Wire.FirstBad (fun v => ∃ d, DictText d v)
      (fun v => (∀ d, ¬ DictText d v) ∧ t = c! "Failed to parse structured field value: " ++ L.dict v) vs ∧ e = .invalidComponentParam := by
  have hsnd : ∀ ds : List Dict, Res.collect (fun o => Res.ofOption (⟨.invalidComponentParam, c! "Failed to serialize structured field value"⟩ : SigErrT) o)
      (ds.filterMap (fun d => (imGet d k).map (fun e => serList [e]))) ≠ .err ⟨e, t⟩ := by
    intro ds h
    obtain ⟨a, x, b, h1, h2, _⟩ := Res.collect_eq_err.1 h
    have hx : x ∈ ds.filterMap (fun d => (imGet d k).map (fun e => serList [e])) := by rw [h1]; simp
    obtain ⟨d, _, h3⟩ := List.mem_filterMap.1 hx
    cases hg : imGet d k with
    | none => rw [hg] at h3; cases h3
    | some y => rw [hg] at h3; injection h3 with h3; subst h3; cases h2
  unfold handleKeyT
  rw [Res.bind_eq_err]
  have : (∃ a, Res.collect (fun v => Res.ofOption (⟨.invalidComponentParam, c! "Failed to parse structured field value: " ++ L.dict v⟩ : SigErrT)
      (parseDict v)) vs = .ok a ∧ Res.collect (fun o => Res.ofOption (⟨.invalidComponentParam, c! "Failed to serialize structured field value"⟩ : SigErrT) o)
      (a.filterMap (fun d => (imGet d k).map (fun e => serList [e]))) = .err ⟨e, t⟩) ↔ False := by
    simp only [iff_false]
    rintro ⟨ds, _, h⟩; exact hsnd ds h
  rw [this, or_false, Res.collect_eq_err,
    firstBad_congr (g' := fun v => ∃ d, DictText d v) (b' := fun v => ((∀ d, ¬ DictText d v) ∧ t = c! "Failed to parse structured field value: " ++ L.dict v) ∧
      e = .invalidComponentParam)]
  · constructor
    · rintro ⟨a, x, b, h1, ⟨h2, h3⟩, h4⟩; exact ⟨⟨a, x, b, h1, h2, h4⟩, h3⟩
    · rintro ⟨⟨a, x, b, h1, h2, h4⟩, h3⟩; exact ⟨a, x, b, h1, ⟨h2, h3⟩, h4⟩
  · intro v _
    exact exists_congr (fun d => by rw [Res.ofOption_eq_ok, C63_dict])
  · intro v _
    rw [Res.ofOption_eq_err, dictText_none, and_assoc]
    refine and_congr Iff.rfl ?_
    constructor
    · intro h; injection h with h1 h2; exact ⟨h2, h1⟩
    · rintro ⟨rfl, rfl⟩; rfl

theorem fieldParamsT_err (ps : List CParam) : ∀ vs e t, fieldParamsT L ps vs = .err ⟨e, t⟩ ↔ Wire.StopsSaying L ps vs e t := by
  induction ps with
  | nil => intro vs e t; simp only [fieldParamsT, reduceCtorEq, false_iff]; intro h; cases h
  | cons p ps ih =>
    intro vs e t
    cases p with
    | bs => simp only [fieldParamsT, err_eta]; exact ⟨fun ⟨h1, h2⟩ => by subst h1 h2; exact .bs, fun h => by cases h; exact ⟨rfl, rfl⟩⟩
    | tr => simp only [fieldParamsT, err_eta]; exact ⟨fun ⟨h1, h2⟩ => by subst h1 h2; exact .tr, fun h => by cases h; exact ⟨rfl, rfl⟩⟩
    | name n => simp only [fieldParamsT, err_eta]; exact ⟨fun ⟨h1, h2⟩ => by subst h1 h2; exact .name, fun h => by cases h; exact ⟨rfl, rfl⟩⟩
    | req => simp only [fieldParamsT]; rw [ih]; exact ⟨.req, fun h => by cases h; assumption⟩
    | sf =>
      simp only [fieldParamsT]
      rw [Res.bind_eq_err, handleSfT_err]
      have hok : ∀ mid, handleSfT vs = .ok mid ↔ List.Forall₂ Wire.Canon vs mid := by
        intro mid
        rw [Res.ok_of_kind (handleSfT_kind vs), handleSf_ok]
        exact ⟨fun h => h.imp (fun _ _ => wireCanon_iff.2), fun h => h.imp (fun _ _ => wireCanon_iff.1)⟩
      constructor
      · rintro (⟨h, rfl⟩ | ⟨mid, h1, h2⟩)
        · exact .badSf h
        · exact .sf ((hok _).1 h1) ((ih _ _ _).1 h2)
      · intro h
        cases h with
        | badSf h => exact Or.inl ⟨h, rfl⟩
        | sf h1 h2 => exact Or.inr ⟨_, (hok _).2 h1, (ih _ _ _).2 h2⟩
    | key k =>
      simp only [fieldParamsT]
      rw [Res.bind_eq_err, handleKeyT_err]
      have hok : ∀ mid, handleKeyT L vs k = .ok mid ↔ Wire.Members k vs mid := by
        intro mid
        rw [Res.ok_of_kind (handleKeyT_kind L vs k), handleKey_ok, wireMembers_iff]
      constructor
      · rintro (⟨h, rfl⟩ | ⟨mid, h1, h2⟩)
        · exact .badKey h
        · exact .key ((hok _).1 h1) ((ih _ _ _).1 h2)
      · intro h
        cases h with
        | badKey h => exact Or.inl ⟨h, rfl⟩
        | key h1 h2 => exact Or.inr ⟨_, (hok _).2 h1, (ih _ _ _).2 h2⟩

theorem headerTextsT_err {h : Headers} (hw : WfHeaders h) {n : Str} {e : HyperErr} {t : Str} :
    headerTextsT L h n = .err ⟨e, t⟩ ↔ (∃ l ∈ Wire.linesOf h n, ∀ t, ¬ Wire.LineText l t) ∧ e = .toStr ∧ t = L.toStr := by
  unfold headerTextsT
  rw [getAll_fieldLines hw, Res.collect_eq_err_of (e₀ := ⟨.toStr, L.toStr⟩) (fun x _ => by cases hvToStr x <;> simp), linesOf_eq]
  simp only [Res.ofOption_eq_err, and_true, hvToStr_none]
  refine and_congr Iff.rfl ?_
  constructor
  · intro h; injection h with h1 h2; exact ⟨h1, h2⟩
  · rintro ⟨rfl, rfl⟩; rfl

theorem extractHttpFieldT_err {m : Msg} (hw : WfHeaders m.headers) {f : Str} {ps : List CParam} {e : HyperErr} {t : Str} :
    extractHttpFieldT L m ⟨.field f, ps⟩ = .err ⟨e, t⟩ ↔ Wire.FieldSays L m.headers f ps e t := by
  unfold extractHttpFieldT
  simp only
  rw [Res.bind_eq_err, headerTextsT_err hw]
  have hb : ∀ vs e', Component.buildT L ⟨.field f, ps⟩ vs = .err ⟨e', t⟩ ↔ Wire.StopsSaying L ps vs e' t := by
    intro vs e'
    unfold Component.buildT
    simp only
    rw [Res.bind_eq_err, fieldParamsT_err]
    simp
  have hok : ∀ ts, headerTextsT L m.headers f = .ok ts ↔ Wire.LinesText m.headers f ts := by
    intro ts
    rw [Res.ok_of_kind (headerTextsT_kind L _ _), headerTexts_ok hw, linesText_iff]
  constructor
  · rintro (⟨⟨l, hl, h⟩, rfl, rfl⟩ | ⟨ts, h1, h2⟩)
    · exact .line hl h
    · obtain ⟨e', h3, rfl⟩ := up_err.1 h2
      exact .stops ((hok _).1 h1) ((hb _ _).1 h3)
  · intro h
    cases h with
    | line hl h => exact Or.inl ⟨⟨_, hl, h⟩, rfl, rfl⟩
    | stops h1 h2 => exact Or.inr ⟨_, (hok _).2 h1, up_err.2 ⟨_, (hb _ _).2 h2, rfl⟩⟩

/-! ### Derived components -/

theorem paramText_disp (p : CParam) : (paramText p).tail = p.disp := by cases p <;> simp [paramText, CParam.disp, quoted]

theorem checkDerivedParamsT_err {m : Msg} {d : Derived} {ps : List CParam} (hr : m.isReq = true ∨ CParam.req ∉ ps) {e : HyperErr} {t : Str} :
    checkDerivedParamsT m d ps = .err ⟨e, t⟩ ↔ Wire.ParamsSay d ps t ∧ e = .invalidComponentParam := by
  have hone : ∀ p, (m.isReq = true ∨ p ≠ .req) →
      ((checkDerivedParamT m d p = .err ⟨e, t⟩ ↔ Wire.ParamSays d p t ∧ e = .invalidComponentParam) ∧
        (checkDerivedParamT m d p = .ok () ↔ (p = .req ∨ (d = .queryParam ∧ ∃ n, p = .name n)))) := by
    intro p hp
    cases p with
    | req =>
      have hp : m.isReq = true := by simpa using hp
      simp only [checkDerivedParamT, hp, if_true, reduceCtorEq, false_iff, true_or, and_true]
      rintro ⟨h, _⟩
      cases h with
      | other h => simp at h
    | name n =>
      by_cases hd : d = .queryParam
      · simp only [checkDerivedParamT, hd, if_true]
        refine ⟨⟨fun h => (by cases h), ?_⟩, by simp⟩
        rintro ⟨h, _⟩
        cases h with
        | name h => exact absurd rfl h
        | other h => simp at h
      · simp only [checkDerivedParamT, hd, if_false, herr_eta]
        refine ⟨⟨fun ⟨h1, h2⟩ => ⟨by rw [h2]; exact .name hd, h1⟩, ?_⟩, by simp⟩
        rintro ⟨h, h2⟩
        cases h with
        | name h => exact ⟨h2, rfl⟩
        | other h => simp at h
    | _ =>
      simp only [checkDerivedParamT, herr_eta]
      refine ⟨⟨fun ⟨h1, h2⟩ => ⟨by rw [h2, ← paramText_disp]; exact .other (by simp), h1⟩, ?_⟩, by simp⟩
      rintro ⟨h, h2⟩
      cases h with
      | other h => exact ⟨h2, by rw [paramText_disp]⟩
  have hc : checkDerivedParamsT m d ps = .err ⟨e, t⟩ ↔ Res.collect (checkDerivedParamT m d) ps = .err ⟨e, t⟩ := by
    clear hone hr
    induction ps with
    | nil => simp [checkDerivedParamsT, Res.collect]
    | cons p ps ih =>
      simp only [checkDerivedParamsT, Res.collect]
      cases checkDerivedParamT m d p with
      | ok u =>
        simp only [Res.bind_ok]
        rw [ih]
        cases Res.collect (checkDerivedParamT m d) ps <;> simp
      | err e' => simp
      | panic => simp
  rw [hc, Res.collect_eq_err]
  unfold Wire.ParamsSay
  rw [firstBad_congr (g' := fun p => p = .req ∨ (d = .queryParam ∧ ∃ n, p = .name n)) (b' := fun p => Wire.ParamSays d p t ∧ e = .invalidComponentParam)]
  · constructor
    · rintro ⟨a, x, b, h1, ⟨h2, h3⟩, h4⟩; exact ⟨⟨a, x, b, h1, h2, h4⟩, h3⟩
    · rintro ⟨⟨a, x, b, h1, h2, h4⟩, h3⟩; exact ⟨a, x, b, h1, ⟨h2, h3⟩, h4⟩
  · intro p hp
    rw [← (hone p (hr.imp id (fun h e => h (e ▸ hp)))).2]
    exact ⟨fun ⟨_, h⟩ => h, fun h => ⟨_, h⟩⟩
  · intro p hp
    exact (hone p (hr.imp id (fun h e => h (e ▸ hp)))).1

theorem paramsSay_fit {d : Derived} {ps : List CParam} {t : Str} (h : Wire.ParamsSay d ps t) : ¬ Wire.ParamsFit d ps := by
  obtain ⟨a, x, b, rfl, h1, _⟩ := h
  intro hf
  rcases hf x (by simp) with rfl | ⟨hd, n, rfl⟩
  · cases h1 with
    | other h => simp at h
  · cases h1 with
    | name h => exact h hd
    | other h => simp at h

theorem buildDerivedT_err {d : Derived} {ps vs : List _} {e : SigErr} {t : Str} (hp : Wire.ParamsFit d ps) :
    Component.buildT L ⟨.derived d, ps⟩ vs = .err ⟨e, t⟩ ↔
      (vs = [] ∧ e = .invalidComponent ∧ t = c! "derived component requires field values") ∨ (vs ≠ [] ∧ derivedValueT d ps vs = .err ⟨e, t⟩) := by
  unfold Component.buildT buildDerivedT
  simp only
  by_cases hv : vs = []
  · rw [if_pos hv, err_eta]; simp [hv]
  · rw [if_neg hv, if_neg (by simp [okDerived_of hp]), Res.bind_eq_err]
    simp [hv]

theorem derivedT_one {d : Derived} {ps : List CParam} {v : Str} {e : SigErrT} (hq : d ≠ .queryParam) (hs : d ≠ .signatureParams) :
    derivedValueT d ps [v] ≠ .err e := by
  cases d <;> simp_all [derivedValueT]

theorem sigParamsT_err {h : Headers} {ps : List CParam} {e : SigErr} {t : Str} (hp : Wire.ParamsFit .signatureParams ps) :
    Component.buildT L ⟨.derived .signatureParams, ps⟩ ((fieldLines h (c! "signature-input")).map (fun v => (hvToStr v).getD [])) = .err ⟨e, t⟩ ↔
      Wire.InputSays h t ∧ e = .invalidComponent := by
  have hk := sigParams_err (h := h) (e := .invalidComponent) hp
  simp only [and_true] at hk
  rw [← buildT_kind L] at hk
  have hT := buildDerivedT_err (L := L) (e := e) (t := t) (vs := ((fieldLines h (c! "signature-input")).map (fun v => (hvToStr v).getD []))) hp
  have hT' := fun e t => buildDerivedT_err (L := L) (e := e) (t := t) (vs := ((fieldLines h (c! "signature-input")).map (fun v => (hvToStr v).getD []))) hp
  generalize hx : Component.buildT L ⟨.derived .signatureParams, ps⟩ ((fieldLines h (c! "signature-input")).map (fun v => (hvToStr v).getD [])) = x at hk hT hT' ⊢
  rw [hT]
  cases hl : fieldLines h (c! "signature-input") with
  | nil =>
    simp only [List.map_nil, true_and, ne_eq, not_true, false_and, or_false]
    constructor
    · rintro ⟨rfl, rfl⟩; exact ⟨.none hl, rfl⟩
    · rintro ⟨h1, h2⟩
      cases h1 with
      | none => exact ⟨h2, rfl⟩
      | first h1 => exact absurd hl h1
  | cons l ls =>
    simp only [List.map_cons, reduceCtorEq, false_and, ne_eq, not_false_eq_true, true_and, false_or, derivedValueT]
    rw [hl] at hT'
    simp only [List.map_cons, reduceCtorEq, false_and, ne_eq, not_false_eq_true, true_and, false_or, derivedValueT] at hT'
    cases hsp : splitOnce '=' (trim ((hvToStr l).getD [])) with
    | none =>
      rw [hsp] at hT'
      simp only [err_eta] at hT' ⊢
      have hno : Wire.NoSigParams h := by
        rw [← hk, (hT' _ _).2 ⟨rfl, rfl⟩]; rfl
      constructor
      · rintro ⟨rfl, rfl⟩; exact ⟨.first (by rw [linesOf_eq, hl]; simp) hno, rfl⟩
      · rintro ⟨h1, h2⟩
        cases h1 with
        | none h1 => rw [linesOf_eq, hl] at h1; cases h1
        | first => exact ⟨h2, rfl⟩
    | some kw =>
      rw [hsp] at hT'
      simp only [reduceCtorEq, false_iff] at hT' ⊢
      rintro ⟨h1, _⟩
      cases h1 with
      | none h1 => rw [linesOf_eq, hl] at h1; cases h1
      | first _ h1 =>
        rw [← hk] at h1
        obtain ⟨e', h2, _⟩ := Res.mapErr_eq_err.1 h1
        exact (hT' _ _).1 h2

theorem extractDerivedT_req_err {r : Request} (hw : WfHeaders r.headers) {d : Derived} {ps : List CParam} {e : HyperErr} {t : Str} :
    extractDerivedT L (.req r) ⟨.derived d, ps⟩ = .err ⟨e, t⟩ ↔ Wire.RequestSays r d ps e t := by
  unfold extractDerivedT
  simp only
  by_cases hp : Wire.ParamsFit d ps
  · have hpar : checkDerivedParamsT (.req r) d ps = .ok () := by
      rw [Res.ok_of_kind (checkDerivedParamsT_kind _ _ _)]; exact checkDerivedParams_req.1 hp
    rw [hpar]
    simp only [Res.bind_ok]
    by_cases hd : d = .status
    · subst hd
      simp only [checkDerivedKindT, if_true, Res.bind_err, herr_eta]
      constructor
      · rintro ⟨rfl, rfl⟩; exact .status hp rfl
      · intro h
        cases h with
        | params h => exact absurd hp (paramsSay_fit h)
        | status => exact ⟨rfl, rfl⟩
        | query _ h => cases h
        | name _ h => cases h
        | input _ h => cases h
    have hk : checkDerivedKindT (.req r) d ps = .ok () := by simp [checkDerivedKindT, hd]
    rw [hk]
    simp only [Res.bind_ok]
    by_cases hq : d = .queryParam
    · subst hq
      have hv : derivedValuesT (.req r) .queryParam = .ok (pieces (r.uri.query.getD [])) := rfl
      rw [hv, Res.bind_ok, up_err]
      simp only [buildDerivedT_err hp, pieces_nil]
      have hn : ∀ e', derivedValueT .queryParam ps (pieces (r.uri.query.getD [])) = .err ⟨e', t⟩ ↔
          (∀ n, CParam.name n ∉ ps) ∧ e' = .invalidComponent ∧ t = c! "query-param derived component requires name parameter" := by
        intro e'
        rw [← findName_none]
        unfold derivedValueT
        simp only
        cases ps.findSome? CParam.nameOf with
        | none => simp only [err_eta, true_and]
        | some n => simp
      simp only [hn]
      constructor
      · rintro ⟨e', (⟨h, rfl, rfl⟩ | ⟨h0, h, rfl, rfl⟩), rfl⟩
        · exact .query hp rfl h
        · exact .name hp rfl (by simpa [pieces_nil] using h0) h
      · intro h
        cases h with
        | params h => exact absurd hp (paramsSay_fit h)
        | status _ h => cases h
        | query _ _ h => exact ⟨_, Or.inl ⟨h, rfl, rfl⟩, rfl⟩
        | name _ _ h0 h => exact ⟨_, Or.inr ⟨by simpa [pieces_nil] using h0, h, rfl, rfl⟩, rfl⟩
        | input _ h => cases h
    by_cases hs : d = .signatureParams
    · subst hs
      have hv : derivedValuesT (.req r) .signatureParams =
          .ok ((fieldLines r.headers (c! "signature-input")).map (fun v => (hvToStr v).getD [])) := by
        simp only [derivedValuesT, Msg.headers, sigParams_values hw]
      rw [hv, Res.bind_ok, up_err]
      simp only [sigParamsT_err hp]
      constructor
      · rintro ⟨e', ⟨h, rfl⟩, rfl⟩; exact .input hp rfl h
      · intro h
        cases h with
        | params h => exact absurd hp (paramsSay_fit h)
        | status _ h => cases h
        | query _ h => cases h
        | name _ h => cases h
        | input _ _ h => exact ⟨_, ⟨h, rfl⟩, rfl⟩
    have hv : ∃ v, derivedValuesT (.req r) d = .ok [v] := by
      cases d <;> simp_all [derivedValuesT, Msg.methodT, Msg.uriT]
      split <;> try simp
      split <;> simp
    obtain ⟨v, hv⟩ := hv
    rw [hv, Res.bind_ok, up_err]
    simp only [buildDerivedT_err hp]
    constructor
    · rintro ⟨e', (⟨h, _⟩ | ⟨_, h⟩), _⟩
      · cases h
      · exact absurd h (derivedT_one hq hs)
    · intro h
      cases h with
      | params h => exact absurd hp (paramsSay_fit h)
      | status _ h => exact absurd h hd
      | query _ h => exact absurd h hq
      | name _ h => exact absurd h hq
      | input _ h => exact absurd h hs
  · have hne : ∀ {α : Type} (f : Unit → Res HyperErrT α) e t, (checkDerivedParamsT (.req r) d ps >>= f) = .err ⟨e, t⟩ ↔ checkDerivedParamsT (.req r) d ps = .err ⟨e, t⟩ := by
      intro α f e t
      have := checkDerivedParams_req (r := r).2 hp
      rw [← checkDerivedParamsT_kind] at this
      cases hc : checkDerivedParamsT (.req r) d ps with
      | ok u => rw [hc] at this; cases this
      | _ => simp
    rw [hne, checkDerivedParamsT_err (Or.inl rfl)]
    constructor
    · rintro ⟨h, rfl⟩; exact .params h
    · intro h
      cases h with
      | params h => exact ⟨h, rfl⟩
      | status h => exact absurd h hp
      | query h => exact absurd h hp
      | name h => exact absurd h hp
      | input h => exact absurd h hp

theorem extractDerivedT_res_err {s : Response} (hw : WfHeaders s.headers) {d : Derived} {ps : List CParam} {e : HyperErr} {t : Str}
    (hr : CParam.req ∉ ps) : extractDerivedT L (.res s) ⟨.derived d, ps⟩ = .err ⟨e, t⟩ ↔ Wire.ResponseSays s d ps e t := by
  unfold extractDerivedT
  simp only
  by_cases hp : Wire.ParamsFit d ps
  · have hpar : checkDerivedParamsT (.res s) d ps = .ok () := by
      rw [Res.ok_of_kind (checkDerivedParamsT_kind _ _ _)]; exact (checkDerivedParams_res hr).1 hp
    rw [hpar]
    simp only [Res.bind_ok]
    by_cases hk : d = .status ∨ d = .signatureParams
    · have hkind : checkDerivedKindT (.res s) d ps = .ok () := by
        rcases hk with rfl | rfl <;> simp [checkDerivedKindT, hr]
      rw [hkind, Res.bind_ok]
      rcases hk with rfl | rfl
      · have hv : derivedValuesT (.res s) .status = .ok [natStr s.status] := rfl
        rw [hv, Res.bind_ok, up_err]
        simp only [buildDerivedT_err hp]
        constructor
        · rintro ⟨e', (⟨h, _⟩ | ⟨_, h⟩), _⟩
          · cases h
          · exact absurd h (derivedT_one (by simp) (by simp))
        · intro h
          cases h with
          | params h => exact absurd hp (paramsSay_fit h)
          | kind _ h => exact absurd rfl h
          | input _ h => cases h
      · have hv : derivedValuesT (.res s) .signatureParams =
            .ok ((fieldLines s.headers (c! "signature-input")).map (fun v => (hvToStr v).getD [])) := by
          simp only [derivedValuesT, Msg.headers, sigParams_values hw]
        rw [hv, Res.bind_ok, up_err]
        simp only [sigParamsT_err hp]
        constructor
        · rintro ⟨e', ⟨h, rfl⟩, rfl⟩; exact .input hp rfl h
        · intro h
          cases h with
          | params h => exact absurd hp (paramsSay_fit h)
          | kind _ _ h => exact absurd rfl h
          | input _ _ h => exact ⟨_, ⟨h, rfl⟩, rfl⟩
    · rw [not_or] at hk
      have hkind : checkDerivedKindT (.res s) d ps = .err ⟨.invalidComponentName,
          c! "derived components other than `@status` and `@signature-params` require `req` parameter for response"⟩ := by
        unfold checkDerivedKindT
        simp only
        rw [if_pos ⟨hk.1, hk.2, by simpa using hr⟩]
      rw [hkind, Res.bind_err, herr_eta]
      constructor
      · rintro ⟨rfl, rfl⟩; exact .kind hp hk.1 hk.2
      · intro h
        cases h with
        | params h => exact absurd hp (paramsSay_fit h)
        | kind => exact ⟨rfl, rfl⟩
        | input _ h => exact absurd h hk.2
  · have hne : ∀ {α : Type} (f : Unit → Res HyperErrT α) e t, (checkDerivedParamsT (.res s) d ps >>= f) = .err ⟨e, t⟩ ↔ checkDerivedParamsT (.res s) d ps = .err ⟨e, t⟩ := by
      intro α f e t
      have := (checkDerivedParams_res (s := s) hr).2 hp
      rw [← checkDerivedParamsT_kind] at this
      cases hc : checkDerivedParamsT (.res s) d ps with
      | ok u => rw [hc] at this; cases this
      | _ => simp
    rw [hne, checkDerivedParamsT_err (Or.inr hr)]
    constructor
    · rintro ⟨h, rfl⟩; exact .params h
    · intro h
      cases h with
      | params h => exact ⟨h, rfl⟩
      | kind h => exact absurd h hp
      | input h => exact absurd h hp

/-! ### Components, bases -/

theorem extractComponentT_err {m : Msg} (hw : WfHeaders m.headers) {i : CId} (hr : m.isReq = true ∨ CParam.req ∉ i.params) {e : HyperErr} {t : Str} :
    extractComponentT L m i = .err ⟨e, t⟩ ↔ Wire.SaysIn L m i e t := by
  obtain ⟨n, ps⟩ := i
  unfold extractComponentT Wire.SaysIn
  cases n with
  | field f => cases m <;> exact extractHttpFieldT_err hw
  | derived d =>
    cases m with
    | req r => exact extractDerivedT_req_err hw
    | res s =>
      rcases hr with hr | hr
      · simp [Msg.isReq] at hr
      · exact extractDerivedT_res_err hw hr

theorem extractForT_err {m : Msg} {rf : Option Request} (hw : WfHeaders m.headers) (hf : ∀ r, rf = some r → WfHeaders r.headers)
    {i : CId} {e : HyperErr} {t : Str} : extractForT L m rf i = .err ⟨e, t⟩ ↔ Wire.ValueSays L m rf i e t := by
  unfold extractForT
  by_cases hreq : CParam.req ∈ i.params
  · rw [if_pos (by simpa using hreq)]
    cases m with
    | req r =>
      rw [if_pos (by rfl), herr_eta]
      constructor
      · rintro ⟨rfl, rfl⟩; exact .request hreq rfl
      · intro h
        cases h with
        | here h => exact absurd hreq h
        | there _ h => cases h
        | request => exact ⟨rfl, rfl⟩
        | missing _ h => cases h
    | res s =>
      rw [if_neg (by simp [Msg.isReq])]
      cases rf with
      | none =>
        simp only [herr_eta]
        constructor
        · rintro ⟨rfl, rfl⟩; exact .missing hreq rfl rfl
        · intro h
          cases h with
          | here h => exact absurd hreq h
          | there _ _ h => cases h
          | request _ h => cases h
          | missing => exact ⟨rfl, rfl⟩
      | some r =>
        simp only
        rw [extractComponentT_err (m := .req r) (hf r rfl) (Or.inl rfl)]
        constructor
        · intro h; exact .there hreq rfl rfl h
        · intro h
          cases h with
          | here h => exact absurd hreq h
          | there _ _ h1 h2 => injection h1 with h1; subst h1; exact h2
          | request _ h => cases h
          | missing _ _ h => cases h
  · rw [if_neg (by simpa using hreq), extractComponentT_err hw (Or.inr hreq)]
    constructor
    · intro h; exact .here hreq h
    · intro h
      cases h with
      | here _ h => exact h
      | there h => exact absurd h hreq
      | request h => exact absurd h hreq
      | missing h => exact absurd h hreq

theorem buildBaseT_err {m : Msg} {rf : Option Request} (hw : WfHeaders m.headers) (hf : ∀ r, rf = some r → WfHeaders r.headers)
    {p : SigParams} {e : HyperErr} {t : Str} : buildBaseT L m p rf = .err ⟨e, t⟩ ↔ Wire.BaseSays L m rf p e t := by
  have hk := Res.mapErr_collect (l := p.covered) (fun a _ => extractForT_kind L m rf a)
  have : buildBaseT L m p rf = .err ⟨e, t⟩ ↔ Res.collect (extractForT L m rf) p.covered = .err ⟨e, t⟩ := by
    cases hc : Res.collect (extractForT L m rf) p.covered with
    | ok ls =>
      have hb := (buildBase_ok (m := m) (rf := rf) (p := p) (b := ⟨ls, p⟩)).2 ⟨rfl, Res.collect_ok_iff.1 (by rw [← hk, hc]; rfl)⟩
      rw [(Res.ok_of_kind (buildBaseT_kind L m p rf) _).2 hb]; simp
    | err e' => unfold buildBaseT; rw [hc]; simp
    | panic => unfold buildBaseT; rw [hc]; simp
  rw [this, Res.collect_eq_err]
  refine firstBad_congr (fun i _ => ?_) (fun i _ => extractForT_err hw hf)
  rw [← extractFor_good hw hf]
  exact exists_congr (fun c => Res.ok_of_kind (extractForT_kind L m rf i) c)

end

end Verif
