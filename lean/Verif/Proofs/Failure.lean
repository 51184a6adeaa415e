import Verif.Spec.Failure
import Verif.Props.C65
/-! The errors of the code are those of `Spec/Failure.lean`. -/
namespace Verif

namespace Res
variable {ε ε' α β : Type}

theorem bind_eq_err {x : Res ε α} {f : α → Res ε β} {e : ε} :
    (x >>= f) = err e ↔ x = err e ∨ ∃ a, x = ok a ∧ f a = err e := by
  cases x <;> simp

theorem ofOption_eq_err {e e' : ε} {o : Option α} : ofOption e o = err e' ↔ o = none ∧ e' = e := by
  cases o <;> simp [eq_comm]

theorem mapErr_eq_err {g : ε → ε'} {x : Res ε α} {e : ε'} : mapErr g x = err e ↔ ∃ e', x = err e' ∧ e = g e' := by
  cases x <;> simp [eq_comm]

theorem collect_eq_err {f : α → Res ε β} {l : List α} {e : ε} :
    collect f l = err e ↔ Wire.FirstBad (fun x => ∃ y, f x = ok y) (fun x => f x = err e) l := by
  unfold Wire.FirstBad
  induction l with
  | nil => simp [collect]
  | cons b l ih =>
    constructor
    · intro h
      simp only [collect] at h
      cases hb : f b with
      | panic => rw [hb] at h; cases h
      | err e' => rw [hb] at h; injection h with h; subst h; exact ⟨[], b, l, rfl, hb, by simp⟩
      | ok y =>
        rw [hb] at h
        simp only at h
        have : collect f l = err e := by
          cases hc : collect f l with
          | ok r => rw [hc] at h; cases h
          | panic => rw [hc] at h; cases h
          | err e' => rw [hc] at h; injection h with h; rw [h]
        obtain ⟨a, x, t, rfl, hx, ha⟩ := ih.1 this
        exact ⟨b :: a, x, t, rfl, hx, by rintro z (_ | ⟨_, hz⟩); exacts [⟨y, hb⟩, ha z (by assumption)]⟩
    · rintro ⟨a, x, t, h, hx, ha⟩
      cases a with
      | nil =>
        simp only [List.nil_append, List.cons.injEq] at h
        obtain ⟨rfl, rfl⟩ := h
        simp [collect, hx]
      | cons c a =>
        simp only [List.cons_append, List.cons.injEq] at h
        obtain ⟨rfl, rfl⟩ := h
        obtain ⟨y, hy⟩ := ha b (by simp)
        have := ih.2 ⟨a, x, t, rfl, hx, fun z hz => ha z (by simp [hz])⟩
        simp [collect, hy, this]

theorem collect_eq_err_of {f : α → Res ε β} {l : List α} {e₀ e : ε} (h : ∀ x ∈ l, (∃ y, f x = ok y) ∨ f x = err e₀) :
    collect f l = err e ↔ (∃ x ∈ l, f x = err e₀) ∧ e = e₀ := by
  induction l with
  | nil => simp [collect]
  | cons b l ih =>
    have ih := ih (fun x hx => h x (by simp [hx]))
    rcases h b (by simp) with ⟨y, hb⟩ | hb
    · simp only [collect, hb, List.mem_cons, exists_eq_or_imp, reduceCtorEq, false_or]
      rw [← ih]
      cases collect f l <;> simp
    · simp [collect, hb, eq_comm]

end Res

open Sfv Spec Grammar

theorem firstBad_congr {α : Type} {g g' b b' : α → Prop} {l : List α} (hg : ∀ x ∈ l, g x ↔ g' x) (hb : ∀ x ∈ l, b x ↔ b' x) :
    Wire.FirstBad g b l ↔ Wire.FirstBad g' b' l := by
  unfold Wire.FirstBad
  constructor
  · rintro ⟨a, x, t, rfl, hx, ha⟩
    exact ⟨a, x, t, rfl, (hb x (by simp)).1 hx, fun y hy => (hg y (by simp [hy])).1 (ha y hy)⟩
  · rintro ⟨a, x, t, rfl, hx, ha⟩
    exact ⟨a, x, t, rfl, (hb x (by simp)).2 hx, fun y hy => (hg y (by simp [hy])).2 (ha y hy)⟩

/-! ### Fields -/

theorem sfValue_total (v : Str) : (∃ t, sfValue v = .ok t) ∨ sfValue v = .err .invalidComponentParam := by
  unfold sfValue
  split
  · rename_i l _; cases serList l <;> simp
  · split
    · rename_i d _; cases serDict d <;> simp
    · simp

theorem sfValue_err {v : Str} : sfValue v = .err .invalidComponentParam ↔ ∀ t, ¬ Wire.Canon v t := by
  constructor
  · intro h t ht
    rw [(sfValue_ok v t).2 (wireCanon_iff.1 ht)] at h; cases h
  · intro h
    rcases sfValue_total v with ⟨t, ht⟩ | h'
    · exact absurd (wireCanon_iff.2 ((sfValue_ok v t).1 ht)) (h t)
    · exact h'

theorem handleSf_err {vs : List Str} {e : SigErr} :
    handleSf vs = .err e ↔ (∃ v ∈ vs, ∀ t, ¬ Wire.Canon v t) ∧ e = .invalidComponentParam := by
  unfold handleSf
  rw [Res.collect_eq_err_of (fun x _ => sfValue_total x)]
  simp only [sfValue_err]

theorem handleKey_err {vs : List Str} {k : Str} {e : SigErr} :
    handleKey vs k = .err e ↔ (∃ v ∈ vs, ∀ d, ¬ DictText d v) ∧ e = .invalidComponentParam := by
  unfold handleKey
  rw [Res.bind_eq_err]
  have hd : ∀ v, Res.ofOption SigErr.invalidComponentParam (parseDict v) = .err .invalidComponentParam ↔ ∀ d, ¬ DictText d v := by
    intro v
    rw [Res.ofOption_eq_err]
    simp only [and_true]
    constructor
    · intro h d hd; rw [(C63_dict _ _).2 hd] at h; cases h
    · intro h
      cases hp : parseDict v with
      | none => rfl
      | some d => exact absurd ((C63_dict _ _).1 hp) (h d)
  rw [Res.collect_eq_err_of (e₀ := .invalidComponentParam) (fun x _ => by cases parseDict x <;> simp)]
  simp only [hd]
  refine or_iff_left ?_
  rintro ⟨ds, _, h⟩
  rw [Res.collect_eq_err_of (e₀ := .invalidComponentParam) (fun x _ => by cases x <;> simp)] at h
  obtain ⟨⟨o, ho, h⟩, _⟩ := h
  obtain ⟨d, _, h2⟩ := List.mem_filterMap.1 ho
  cases hg : imGet d k with
  | none => rw [hg] at h2; cases h2
  | some x => rw [hg] at h2; injection h2 with h2; subst h2; cases h

theorem fieldParams_err (ps : List CParam) : ∀ vs e, fieldParams ps vs = .err e ↔ Wire.Stops ps vs e := by
  induction ps with
  | nil => intro vs e; simp only [fieldParams, reduceCtorEq, false_iff]; intro h; cases h
  | cons p t ih =>
    intro vs e
    cases p with
    | bs => simp only [fieldParams]; exact ⟨fun h => by injection h with h; subst h; exact .bs, fun h => by cases h; rfl⟩
    | tr => simp only [fieldParams]; exact ⟨fun h => by injection h with h; subst h; exact .tr, fun h => by cases h; rfl⟩
    | name n => simp only [fieldParams]; exact ⟨fun h => by injection h with h; subst h; exact .name, fun h => by cases h; rfl⟩
    | req => simp only [fieldParams]; rw [ih]; exact ⟨.req, fun h => by cases h; assumption⟩
    | sf =>
      simp only [fieldParams]
      rw [Res.bind_eq_err, handleSf_err]
      constructor
      · rintro (⟨⟨v, hv, h⟩, rfl⟩ | ⟨mid, h1, h2⟩)
        · exact .badSf hv h
        · exact .sf (((handleSf_ok _ _).1 h1).imp (fun _ _ => wireCanon_iff.2)) ((ih _ _).1 h2)
      · intro h
        cases h with
        | badSf hv h => exact Or.inl ⟨⟨_, hv, h⟩, rfl⟩
        | sf h1 h2 => exact Or.inr ⟨_, (handleSf_ok _ _).2 (h1.imp (fun _ _ => wireCanon_iff.1)), (ih _ _).2 h2⟩
    | key k =>
      simp only [fieldParams]
      rw [Res.bind_eq_err, handleKey_err]
      constructor
      · rintro (⟨⟨v, hv, h⟩, rfl⟩ | ⟨mid, h1, h2⟩)
        · exact .badKey hv h
        · exact .key (wireMembers_iff.2 ((handleKey_ok _ _ _).1 h1)) ((ih _ _).1 h2)
      · intro h
        cases h with
        | badKey hv h => exact Or.inl ⟨⟨_, hv, h⟩, rfl⟩
        | key h1 h2 => exact Or.inr ⟨_, (handleKey_ok _ _ _).2 (wireMembers_iff.1 h1), (ih _ _).2 h2⟩

theorem hvToStr_none {l : Bytes} : hvToStr l = none ↔ ∀ t, ¬ Wire.LineText l t := by
  constructor
  · intro h t ht; rw [lineText_iff.1 ht] at h; cases h
  · intro h
    cases hl : hvToStr l with
    | none => rfl
    | some t => exact absurd (lineText_iff.2 hl) (h t)

theorem headerTexts_err {h : Headers} (hw : WfHeaders h) {n : Str} {e : HyperErr} :
    headerTexts h n = .err e ↔ (∃ l ∈ Wire.linesOf h n, ∀ t, ¬ Wire.LineText l t) ∧ e = .toStr := by
  unfold headerTexts
  rw [getAll_fieldLines hw, Res.collect_eq_err_of (e₀ := .toStr) (fun x _ => by cases hvToStr x <;> simp), linesOf_eq]
  simp only [Res.ofOption_eq_err, and_true, hvToStr_none]

theorem extractHttpField_err {m : Msg} (hw : WfHeaders m.headers) {f : Str} {ps : List CParam} {e : HyperErr} :
    extractHttpField m ⟨.field f, ps⟩ = .err e ↔ Wire.FieldFails m.headers f ps e := by
  unfold extractHttpField
  simp only
  rw [Res.bind_eq_err, headerTexts_err hw]
  have hb : ∀ vs e', Component.build ⟨.field f, ps⟩ vs = .err e' ↔ Wire.Stops ps vs e' := by
    intro vs e'
    unfold Component.build buildField
    simp only
    rw [Res.bind_eq_err, fieldParams_err]
    simp
  constructor
  · rintro (⟨⟨l, hl, h⟩, rfl⟩ | ⟨ts, h1, h2⟩)
    · exact .line hl h
    · obtain ⟨e', h3, rfl⟩ := Res.mapErr_eq_err.1 h2
      exact .stops (linesText_iff.2 ((headerTexts_ok hw f ts).1 h1)) ((hb _ _).1 h3)
  · intro h
    cases h with
    | line hl h => exact Or.inl ⟨⟨_, hl, h⟩, rfl⟩
    | stops h1 h2 =>
      exact Or.inr ⟨_, (headerTexts_ok hw f _).2 (linesText_iff.1 h1), Res.mapErr_eq_err.2 ⟨_, (hb _ _).2 h2, rfl⟩⟩

/-! ### Derived components -/

theorem checkDerivedParams_total (m : Msg) (d : Derived) (ps : List CParam) :
    checkDerivedParams m d ps = .ok () ∨ checkDerivedParams m d ps = .err .invalidComponentParam := by
  induction ps with
  | nil => exact Or.inl rfl
  | cons p t ih =>
    have : checkDerivedParam m d p = .ok () ∨ checkDerivedParam m d p = .err .invalidComponentParam := by
      cases p <;> simp only [checkDerivedParam] <;> first | (split <;> simp) | simp
    simp only [checkDerivedParams]
    rcases this with h | h <;> rw [h]
    · exact ih
    · exact Or.inr rfl

theorem checkDerivedParams_req {r : Request} {d : Derived} {ps : List CParam} :
    (Wire.ParamsFit d ps → checkDerivedParams (.req r) d ps = .ok ()) ∧ (¬ Wire.ParamsFit d ps → checkDerivedParams (.req r) d ps = .err .invalidComponentParam) := by
  have hpar : checkDerivedParams (.req r) d ps = .ok () ↔ Wire.ParamsFit d ps := by
    rw [checkDerivedParams_ok]; unfold Wire.ParamsFit; simp [Msg.isReq]
  refine ⟨hpar.2, fun h => ?_⟩
  · rcases checkDerivedParams_total (.req r) d ps with h' | h'
    · exact absurd (hpar.1 h') h
    · exact h'

theorem checkDerivedParams_res {s : Response} {d : Derived} {ps : List CParam} (hr : CParam.req ∉ ps) :
    (Wire.ParamsFit d ps → checkDerivedParams (.res s) d ps = .ok ()) ∧ (¬ Wire.ParamsFit d ps → checkDerivedParams (.res s) d ps = .err .invalidComponentParam) := by
  have hpar : checkDerivedParams (.res s) d ps = .ok () ↔ Wire.ParamsFit d ps := by
    rw [checkDerivedParams_ok]; unfold Wire.ParamsFit
    constructor
    · intro h p hp
      rcases h p hp with ⟨_, h⟩ | h
      · simp [Msg.isReq] at h
      · exact Or.inr h
    · intro h p hp
      rcases h p hp with rfl | h
      · exact absurd hp hr
      · exact Or.inr h
  refine ⟨hpar.2, fun h => ?_⟩
  · rcases checkDerivedParams_total (.res s) d ps with h' | h'
    · exact absurd (hpar.1 h') h
    · exact h'

theorem buildDerived_err {d : Derived} {ps vs : List _} {e : SigErr} (hp : Wire.ParamsFit d ps) :
    Component.build ⟨.derived d, ps⟩ vs = .err e ↔ (vs = [] ∧ e = .invalidComponent) ∨ (vs ≠ [] ∧ derivedValue d ps vs = .err e) := by
  unfold Component.build buildDerived
  simp only
  by_cases hv : vs = []
  · simp [hv, eq_comm]
  · rw [if_neg hv, if_neg (by simp [okDerived_of hp]), Res.bind_eq_err]
    simp [hv]

theorem pieces_nil {q : Str} : pieces q = [] ↔ ∀ c ∈ q, c = '&' := by
  unfold pieces
  induction q with
  | nil => simp [splitOn]
  | cons x t ih =>
    by_cases hx : x = '&'
    · subst hx
      simpa [splitOn] using ih
    · simp only [splitOn, hx, if_false]
      cases hs : splitOn '&' t with
      | nil => simp [hx]
      | cons p ps => simp [hx]

theorem noSigParams_iff {h : Headers} : Wire.NoSigParams h ↔ ∀ v, ¬ Wire.SigParamsValue h v := by
  unfold Wire.NoSigParams Wire.SigParamsValue
  constructor
  · rintro hn v ⟨l, t, k, h1, h2, h3, _⟩
    obtain ⟨a, b, h3, _⟩ := h3
    exact hn l t h1 h2 (by rw [h3]; simp)
  · intro hn l t h1 h2 h3
    have : '=' ∈ trim t := by
      obtain ⟨a, b, h4, h5, h6, _⟩ := trim_shape t
      rw [h4] at h3
      rcases List.mem_append.1 h3 with h3 | h3
      · rcases List.mem_append.1 h3 with h3 | h3
        · exact absurd (h5 _ h3) (by unfold Wire.Blank; decide)
        · exact h3
      · exact absurd (h6 _ h3) (by unfold Wire.Blank; decide)
    cases hs : splitOnce '=' (trim t) with
    | none => exact absurd this (splitOnce_none.1 hs)
    | some kw =>
      obtain ⟨k, w⟩ := kw
      obtain ⟨e1, e2⟩ := splitOnce_some hs
      exact hn w ⟨l, t, k, h1, h2, trimmed_iff.2 e1.symm, e2⟩

theorem findName_none {ps : List CParam} : ps.findSome? CParam.nameOf = none ↔ ∀ n, CParam.name n ∉ ps := by
  rw [List.findSome?_eq_none_iff]
  constructor
  · intro h n hn; exact absurd (h _ hn) (by simp [CParam.nameOf])
  · intro h p hp
    cases p with
    | name n => exact absurd hp (h n)
    | _ => rfl

theorem derived_one {d : Derived} {ps : List CParam} {v : Str} {e : SigErr} (hq : d ≠ .queryParam) (hs : d ≠ .signatureParams) :
    derivedValue d ps [v] ≠ .err e := by
  cases d <;> simp_all [derivedValue]

theorem sigParams_err {h : Headers} {ps : List CParam} {e : SigErr} (hp : Wire.ParamsFit .signatureParams ps) :
    Component.build ⟨.derived .signatureParams, ps⟩ ((fieldLines h (c! "signature-input")).map (fun v => (hvToStr v).getD [])) = .err e ↔
      Wire.NoSigParams h ∧ e = .invalidComponent := by
  have hok := sigParams_ok (h := h) ps
  rw [buildDerived_err hp, noSigParams_iff]
  simp only [wireSigParams_iff, ← hok]
  cases fieldLines h (c! "signature-input") with
  | nil => simp
  | cons l t =>
    simp only [List.map_cons, reduceCtorEq, false_and, ne_eq, not_false_eq_true, true_and, false_or, derivedValue]
    cases splitOnce '=' (trim ((hvToStr l).getD [])) with
    | none => simp [eq_comm]
    | some kw => simp

theorem extractDerived_req_err {r : Request} (hw : WfHeaders r.headers) {d : Derived} {ps : List CParam} {e : HyperErr} :
    extractDerived (.req r) ⟨.derived d, ps⟩ = .err e ↔ Wire.RequestFails r d ps e := by
  unfold extractDerived
  simp only
  by_cases hp : Wire.ParamsFit d ps
  · rw [checkDerivedParams_req.1 hp]
    simp only [Res.bind_ok]
    by_cases hd : d = .status
    · subst hd
      simp only [checkDerivedKind, if_true]
      constructor
      · intro h; injection h with h; subst h; exact .status hp rfl
      · intro h
        cases h with
        | params h => exact absurd hp h
        | status => rfl
        | query _ h => cases h
        | name _ h => cases h
        | input _ h => cases h
    have hk : checkDerivedKind (.req r) d ps = .ok () := by simp [checkDerivedKind, hd]
    rw [hk]
    simp only [Res.bind_ok]
    by_cases hq : d = .queryParam
    · subst hq
      have hv : derivedValues (.req r) .queryParam = .ok (pieces (r.uri.query.getD [])) := rfl
      rw [hv, Res.bind_ok, Res.mapErr_eq_err]
      simp only [buildDerived_err hp, pieces_nil]
      have hn : ∀ e', derivedValue .queryParam ps (pieces (r.uri.query.getD [])) = .err e' ↔ (∀ n, CParam.name n ∉ ps) ∧ e' = .invalidComponent := by
        intro e'
        rw [← findName_none]
        unfold derivedValue
        simp only
        cases ps.findSome? CParam.nameOf <;> simp [eq_comm]
      simp only [hn]
      constructor
      · rintro ⟨e', (⟨h, rfl⟩ | ⟨_, h, rfl⟩), rfl⟩
        · exact .query hp rfl h
        · exact .name hp rfl h
      · intro h
        cases h with
        | params h => exact absurd hp h
        | status _ h => cases h
        | query _ _ h => exact ⟨_, Or.inl ⟨h, rfl⟩, rfl⟩
        | name _ _ h =>
          by_cases h' : pieces (r.uri.query.getD []) = []
          · exact ⟨_, Or.inl ⟨pieces_nil.1 h', rfl⟩, rfl⟩
          · exact ⟨_, Or.inr ⟨h', h, rfl⟩, rfl⟩
        | input _ h => cases h
    by_cases hs : d = .signatureParams
    · subst hs
      have hv : derivedValues (.req r) .signatureParams =
          .ok ((fieldLines r.headers (c! "signature-input")).map (fun v => (hvToStr v).getD [])) := by
        simp only [derivedValues, Msg.headers, sigParams_values hw]
      rw [hv, Res.bind_ok, Res.mapErr_eq_err]
      simp only [sigParams_err hp]
      constructor
      · rintro ⟨e', ⟨h, rfl⟩, rfl⟩; exact .input hp rfl h
      · intro h
        cases h with
        | params h => exact absurd hp h
        | status _ h => cases h
        | query _ h => cases h
        | name _ h => cases h
        | input _ _ h => exact ⟨_, ⟨h, rfl⟩, rfl⟩
    have hv : ∃ v, derivedValues (.req r) d = .ok [v] := by
      cases d <;> simp_all [derivedValues, Msg.method, Msg.uri]
      split <;> try simp
      split <;> simp
    obtain ⟨v, hv⟩ := hv
    rw [hv, Res.bind_ok, Res.mapErr_eq_err]
    simp only [buildDerived_err hp]
    constructor
    · rintro ⟨e', (⟨h, _⟩ | ⟨_, h⟩), _⟩
      · cases h
      · exact absurd h (derived_one hq hs)
    · intro h
      cases h with
      | params h => exact absurd hp h
      | status _ h => exact absurd h hd
      | query _ h => exact absurd h hq
      | name _ h => exact absurd h hq
      | input _ h => exact absurd h hs
  · rw [checkDerivedParams_req.2 hp]
    constructor
    · intro h; injection h with h; subst h; exact .params hp
    · intro h
      cases h with
      | params h => rfl
      | status h => exact absurd h hp
      | query h => exact absurd h hp
      | name h => exact absurd h hp
      | input h => exact absurd h hp

theorem extractDerived_res_err {s : Response} (hw : WfHeaders s.headers) {d : Derived} {ps : List CParam} {e : HyperErr}
    (hr : CParam.req ∉ ps) : extractDerived (.res s) ⟨.derived d, ps⟩ = .err e ↔ Wire.ResponseFails s d ps e := by
  unfold extractDerived
  simp only
  by_cases hp : Wire.ParamsFit d ps
  · rw [(checkDerivedParams_res hr).1 hp]
    simp only [Res.bind_ok]
    by_cases hk : d = .status ∨ d = .signatureParams
    · have hkind : checkDerivedKind (.res s) d ps = .ok () := by
        rcases hk with rfl | rfl <;> simp [checkDerivedKind, hr]
      rw [hkind, Res.bind_ok]
      rcases hk with rfl | rfl
      · have hv : derivedValues (.res s) .status = .ok [natStr s.status] := rfl
        rw [hv, Res.bind_ok, Res.mapErr_eq_err]
        simp only [buildDerived_err hp]
        constructor
        · rintro ⟨e', (⟨h, _⟩ | ⟨_, h⟩), _⟩
          · cases h
          · exact absurd h (derived_one (by simp) (by simp))
        · intro h
          cases h with
          | params h => exact absurd hp h
          | kind _ h => exact absurd rfl h
          | input _ h => cases h
      · have hv : derivedValues (.res s) .signatureParams =
            .ok ((fieldLines s.headers (c! "signature-input")).map (fun v => (hvToStr v).getD [])) := by
          simp only [derivedValues, Msg.headers, sigParams_values hw]
        rw [hv, Res.bind_ok, Res.mapErr_eq_err]
        simp only [sigParams_err hp]
        constructor
        · rintro ⟨e', ⟨h, rfl⟩, rfl⟩; exact .input hp rfl h
        · intro h
          cases h with
          | params h => exact absurd hp h
          | kind _ _ h => exact absurd rfl h
          | input _ _ h => exact ⟨_, ⟨h, rfl⟩, rfl⟩
    · rw [not_or] at hk
      have hkind : checkDerivedKind (.res s) d ps = .err .invalidComponentName := by
        simp [checkDerivedKind, hr, hk.1, hk.2]
      rw [hkind]
      constructor
      · intro h; injection h with h; subst h; exact .kind hp hk.1 hk.2
      · intro h
        cases h with
        | params h => exact absurd hp h
        | kind => rfl
        | input _ h => exact absurd h hk.2
  · rw [(checkDerivedParams_res hr).2 hp]
    constructor
    · intro h; injection h with h; subst h; exact .params hp
    · intro h
      cases h with
      | params h => rfl
      | kind h => exact absurd h hp
      | input h => exact absurd h hp

/-! ### Components, bases -/

theorem extractComponent_err {m : Msg} (hw : WfHeaders m.headers) {i : CId} (hr : m.isReq = true ∨ CParam.req ∉ i.params) {e : HyperErr} :
    extractComponent m i = .err e ↔ Wire.FailsIn m i e := by
  obtain ⟨n, ps⟩ := i
  unfold extractComponent Wire.FailsIn
  cases n with
  | field f => cases m <;> exact extractHttpField_err hw
  | derived d =>
    cases m with
    | req r => exact extractDerived_req_err hw
    | res s =>
      rcases hr with hr | hr
      · simp [Msg.isReq] at hr
      · exact extractDerived_res_err hw hr

theorem extractFor_err {m : Msg} {rf : Option Request} (hw : WfHeaders m.headers) (hf : ∀ r, rf = some r → WfHeaders r.headers)
    {i : CId} {e : HyperErr} : extractFor m rf i = .err e ↔ Wire.ValueFails m rf i e := by
  unfold extractFor
  by_cases hreq : CParam.req ∈ i.params
  · rw [if_pos (by simpa using hreq)]
    cases m with
    | req r =>
      rw [if_pos (by rfl)]
      constructor
      · intro h; injection h with h; subst h; exact .request hreq rfl
      · intro h
        cases h with
        | here h => exact absurd hreq h
        | there _ h => cases h
        | request => rfl
        | missing => rfl
    | res s =>
      rw [if_neg (by simp [Msg.isReq])]
      cases rf with
      | none =>
        constructor
        · intro h; injection h with h; subst h; exact .missing hreq rfl
        · intro h
          cases h with
          | here h => exact absurd hreq h
          | there _ _ h => cases h
          | request _ h => cases h
          | missing => rfl
      | some r =>
        simp only
        rw [extractComponent_err (m := .req r) (hf r rfl) (Or.inl rfl)]
        constructor
        · intro h; exact .there hreq rfl rfl h
        · intro h
          cases h with
          | here h => exact absurd hreq h
          | there _ _ h1 h2 => injection h1 with h1; subst h1; exact h2
          | request _ h => cases h
          | missing _ h => cases h
  · rw [if_neg (by simpa using hreq), extractComponent_err hw (Or.inr hreq)]
    constructor
    · intro h; exact .here hreq h
    · intro h
      cases h with
      | here _ h => exact h
      | there h => exact absurd h hreq
      | request h => exact absurd h hreq
      | missing h => exact absurd h hreq

theorem extractFor_good {m : Msg} {rf : Option Request} (hw : WfHeaders m.headers) (hf : ∀ r, rf = some r → WfHeaders r.headers)
    (i : CId) : (∃ c, extractFor m rf i = .ok c) ↔ ∃ v, Wire.HasValue m rf i v := by
  simp only [wireHasValue_iff, ← extractFor_ok hw hf]
  exact ⟨fun ⟨c, h⟩ => ⟨_, c, h, rfl⟩, fun ⟨_, c, h, _⟩ => ⟨c, h⟩⟩

theorem buildBase_err {m : Msg} {rf : Option Request} (hw : WfHeaders m.headers) (hf : ∀ r, rf = some r → WfHeaders r.headers)
    {p : SigParams} {e : HyperErr} : buildBase m p rf = .err e ↔ Wire.BaseFails m rf p e := by
  have : buildBase m p rf = .err e ↔ Res.collect (extractFor m rf) p.covered = .err e := by
    cases hc : Res.collect (extractFor m rf) p.covered with
    | ok ls =>
      rw [(buildBase_ok (b := ⟨ls, p⟩)).2 ⟨rfl, Res.collect_ok_iff.1 hc⟩]; simp
    | err e' => unfold buildBase; rw [hc]; simp
    | panic => unfold buildBase; rw [hc]; simp
  rw [this, Res.collect_eq_err]
  exact firstBad_congr (fun i _ => extractFor_good hw hf i) (fun i _ => extractFor_err hw hf)

theorem buildBase_good {m : Msg} {rf : Option Request} (hw : WfHeaders m.headers) (hf : ∀ r, rf = some r → WfHeaders r.headers)
    (p : SigParams) : (∃ b, buildBase m p rf = .ok b) ↔ ∃ t, Wire.BaseOf m rf p t := by
  simp only [wireBaseOf_iff]
  constructor
  · rintro ⟨b, h⟩; exact ⟨_, (buildBase_spec hw hf _).1 ⟨b, h, rfl⟩⟩
  · rintro ⟨t, h⟩; obtain ⟨b, h, _⟩ := (buildBase_spec hw hf _).2 h; exact ⟨b, h⟩

/-! ### Signing -/

theorem gather_first {α : Type} {l : List (Res SigErr α)} {e : HyperErr} {f : Except SigErr α → Res HyperErr α}
    (hfe : ∀ r, f r = Res.mapErr HyperErr.httpSig (ofExcept r)) :
    ((gather l : Res HyperErr _) >>= fun rs => Res.collect f rs) = .err e ↔
      .panic ∉ l ∧ ∃ e', e = .httpSig e' ∧ Wire.FirstBad (fun x => ∃ a, x = .ok a) (fun x => x = .err e') l := by
  rw [Res.bind_eq_err]
  have hc : ∀ rs : List (Except SigErr α), Res.collect f rs =
      Res.collect (Res.mapErr HyperErr.httpSig) (rs.map ofExcept) := by
    intro rs
    rw [Res.collect_map]
    apply Res.collect_congr
    intro r _; exact hfe r
  have hf : ∀ l : List (Res SigErr α), Res.collect (Res.mapErr HyperErr.httpSig) l = .err e ↔
      ∃ e', e = .httpSig e' ∧ Wire.FirstBad (fun x => ∃ a, x = .ok a) (fun x => x = .err e') l := by
    intro l
    rw [Res.collect_eq_err]
    constructor
    · rintro ⟨a, x, b, rfl, h1, h2⟩
      obtain ⟨e', h3, h4⟩ := Res.mapErr_eq_err.1 h1
      exact ⟨e', h4, a, x, b, rfl, h3, fun y hy => by obtain ⟨z, hz⟩ := h2 y hy; exact ⟨z, Res.mapErr_eq_ok.1 hz⟩⟩
    · rintro ⟨e', h4, a, x, b, rfl, h3, h2⟩
      exact ⟨a, x, b, rfl, Res.mapErr_eq_err.2 ⟨e', h3, h4⟩, fun y hy => by obtain ⟨z, hz⟩ := h2 y hy; exact ⟨z, Res.mapErr_eq_ok.2 hz⟩⟩
  constructor
  · rintro (h | ⟨rs, h1, h2⟩)
    · exact absurd h (gather_ne_err _ _)
    · refine ⟨fun hp => ?_, ?_⟩
      · rw [(gather_panic l).2 hp] at h1; cases h1
      · rw [hc, ← (gather_ok _ _).1 h1, hf] at h2; exact h2
  · rintro ⟨h1, h2⟩
    right
    cases hg : (gather l : Res HyperErr _) with
    | err e => exact absurd hg (gather_ne_err _ _)
    | panic => exact absurd ((gather_panic l).1 hg) h1
    | ok rs => exact ⟨rs, rfl, by rw [hc, ← (gather_ok _ _).1 hg, hf]; exact h2⟩

theorem firstBad_map {α β : Type} {f : α → β} {g b : β → Prop} {l : List α} :
    Wire.FirstBad g b (l.map f) ↔ Wire.FirstBad (fun x => g (f x)) (fun x => b (f x)) l := by
  unfold Wire.FirstBad
  constructor
  · rintro ⟨a, x, t, h, hx, ha⟩
    obtain ⟨a', t', rfl, rfl, h2⟩ := List.map_eq_append_iff.1 h
    obtain ⟨x', t'', rfl, rfl, rfl⟩ := List.map_eq_cons_iff.1 h2
    exact ⟨a', x', t'', rfl, hx, fun y hy => ha _ (List.mem_map_of_mem hy)⟩
  · rintro ⟨a, x, t, rfl, hx, ha⟩
    exact ⟨a.map f, f x, t.map f, by simp, hx, fun y hy => by
      obtain ⟨z, hz, rfl⟩ := List.mem_map.1 hy
      exact ha z hz⟩

theorem firstBad_forall₂ {α β : Type} {R : α → β → Prop} {g b : α → Prop} {g' b' : β → Prop} {l : List α} {l' : List β}
    (h : List.Forall₂ R l l') (hg : ∀ x y, R x y → (g x ↔ g' y)) (hb : ∀ x y, R x y → (b x ↔ b' y)) :
    Wire.FirstBad g b l ↔ Wire.FirstBad g' b' l' := by
  have cons : ∀ {γ : Type} (g b : γ → Prop) (x : γ) (l : List γ), Wire.FirstBad g b (x :: l) ↔ b x ∨ (g x ∧ Wire.FirstBad g b l) := by
    intro γ g b x l
    constructor
    · rintro ⟨a, y, t, h, hy, ha⟩
      cases a with
      | nil => injection h with h1 h2; subst h1; exact Or.inl hy
      | cons c a =>
        injection h with h1 h2; subst h1
        exact Or.inr ⟨ha _ (by simp), a, y, t, h2, hy, fun z hz => ha z (by simp [hz])⟩
    · rintro (h | ⟨h1, a, y, t, rfl, hy, ha⟩)
      · exact ⟨[], x, l, rfl, h, by simp⟩
      · exact ⟨x :: a, y, t, rfl, hy, by simpa using ⟨h1, ha⟩⟩
  induction h with
  | nil => constructor <;> (rintro ⟨a, x, t, h, _⟩; cases a <;> cases h)
  | cons h _ ih => rw [cons, cons, hg _ _ h, hb _ _ h]; exact or_congr Iff.rfl (and_congr Iff.rfl ih)

theorem signBases_err {m : Msg} {rf : Option Request} (hw : WfHeaders m.headers) (hf : ∀ r, rf = some r → WfHeaders r.headers)
    {l : List Signer} {e : HyperErr} : signBases m l rf = .err e ↔
      Wire.FirstBad (fun x : Signer => ∃ t, Wire.BaseOf m rf x.1 t) (fun x => Wire.BaseFails m rf x.1 e) l := by
  unfold signBases
  rw [Res.collect_eq_err]
  refine firstBad_congr (fun x _ => ?_) (fun x _ => ?_)
  · rw [← buildBase_good hw hf]
    simp only [Res.bind_eq_ok]
    constructor
    · rintro ⟨_, b, h, _⟩; exact ⟨b, h⟩
    · rintro ⟨b, h⟩; exact ⟨_, b, h, rfl⟩
  · rw [← buildBase_err hw hf, Res.bind_eq_err]
    simp

theorem signBases_not_err {m : Msg} {rf : Option Request} (hw : WfHeaders m.headers) (hf : ∀ r, rf = some r → WfHeaders r.headers)
    {l : List Signer} {e : HyperErr} (h : ∀ x ∈ l, ∃ t, Wire.BaseOf m rf x.1 t) : signBases m l rf ≠ .err e := by
  intro he
  obtain ⟨a, x, b, rfl, hx, _⟩ := (signBases_err hw hf).1 he
  obtain ⟨c, hc⟩ := (buildBase_good hw hf _).2 (h x (by simp))
  rw [(buildBase_err hw hf).2 hx] at hc; cases hc

/-- What one signer gives once its base is built. -/
theorem headers_of {m : Msg} {rf : Option Request} (hw : WfHeaders m.headers) (hf : ∀ r, rf = some r → WfHeaders r.headers)
    {x : Signer} {b : SigBase × SigningKey × Option Str} (h : buildBase m x.1 rf = .ok b.1 ∧ b.2 = x.2) :
    (∃ t, Wire.BaseOf m rf x.1 t) ∧ ∀ t, Wire.BaseOf m rf x.1 t →
      b.1.headers b.2.1 b.2.2 = (do let s ← x.2.1.sign (utf8 t); Res.ok ⟨x.2.2.getD (c! "sig"), s, x.1⟩) := by
  refine ⟨(buildBase_good hw hf _).1 ⟨_, h.1⟩, ?_⟩
  intro t ht
  obtain ⟨b', h1, h2⟩ := (buildBase_spec hw hf _).2 (wireBaseOf_iff.1 ht)
  rw [h.1] at h1; injection h1 with h1; subst h1
  rw [h.2]
  unfold SigBase.headers SigBase.rawSignature SigBase.bytes
  rw [h2, buildBase_params h.1]

theorem signing_err {m : Msg} {rf : Option Request} (hw : WfHeaders m.headers) (hf : ∀ r, rf = some r → WfHeaders r.headers)
    (l : List Signer) (e : HyperErr) : (setSignatures m l rf).2 = .err e ↔ Wire.SigningFails m rf l e := by
  unfold setSignatures
  cases hb : signBases m l rf with
  | panic =>
    exfalso
    obtain ⟨_, _, _, _, x, _, hx⟩ := Res.collect_eq_panic.1 hb
    rcases Res.bind_eq_panic.1 hx with h | ⟨_, _, h⟩
    · exact buildBase_ne_panic _ _ _ h
    · cases h
  | err e0 =>
    simp only [Res.bind_err]
    constructor
    · intro h; injection h with h; subst h; exact .base ((signBases_err hw hf).1 hb)
    · intro h
      cases h with
      | base h => rw [(signBases_err hw hf).2 h] at hb; injection hb with hb; rw [hb]
      | key h => exact absurd hb (signBases_not_err hw hf (fun x hx => by obtain ⟨t, h, _⟩ := h x hx; exact ⟨t, h⟩))
      | header h => exact absurd hb (signBases_not_err hw hf (fun x hx => by obtain ⟨t, _, h, _⟩ := h x hx; exact ⟨t, h⟩))
  | ok bs =>
    simp only [Res.bind_ok]
    have hR := signBases_ok.1 hb
    have hbase : ∀ x ∈ l, ∃ t, Wire.BaseOf m rf x.1 t := by
      intro x hx
      obtain ⟨b, _, h⟩ := forall₂_mem_left hR x hx
      exact (headers_of hw hf h).1
    have hnb : ∀ e, ¬ Wire.FirstBad (fun x : Signer => ∃ t, Wire.BaseOf m rf x.1 t) (fun x => Wire.BaseFails m rf x.1 e) l := by
      intro e h; rw [(signBases_err hw hf).2 h] at hb; cases hb
    have hall : ∀ e, signAll bs = .err e ↔ (∀ x ∈ l, ∃ t, Wire.BaseOf m rf x.1 t ∧ x.2.1.sign (utf8 t) ≠ .panic) ∧
        ∃ e', e = .httpSig e' ∧ Wire.FirstBad (fun x : Signer => ∃ t s, Wire.BaseOf m rf x.1 t ∧ x.2.1.sign (utf8 t) = .ok s)
          (fun x => ∃ t, Wire.BaseOf m rf x.1 t ∧ x.2.1.sign (utf8 t) = .err e') l := by
      intro e
      unfold signAll
      rw [gather_first (by intro r; cases r <;> rfl)]
      refine and_congr ?_ (exists_congr (fun e' => and_congr Iff.rfl ?_))
      · constructor
        · intro h x hx
          obtain ⟨b, hbm, hxb⟩ := forall₂_mem_left hR x hx
          obtain ⟨⟨t, ht⟩, h2⟩ := headers_of hw hf hxb
          refine ⟨t, ht, fun hp => h ?_⟩
          rw [List.mem_map]
          exact ⟨b, hbm, by rw [h2 t ht, hp]; rfl⟩
        · intro h hp
          obtain ⟨b, hbm, hp⟩ := List.mem_map.1 hp
          obtain ⟨x, hx, hxb⟩ := forall₂_mem_right hR b hbm
          obtain ⟨t, ht, hn⟩ := h x hx
          rw [(headers_of hw hf hxb).2 t ht] at hp
          rcases Res.bind_eq_panic.1 hp with h | ⟨_, _, h⟩
          · exact hn h
          · cases h
      · rw [firstBad_map]
        symm
        refine firstBad_forall₂ hR (fun x b hxb => ?_) (fun x b hxb => ?_)
        · obtain ⟨⟨t, ht⟩, h2⟩ := headers_of hw hf hxb
          constructor
          · rintro ⟨t, s, h3, h4⟩; exact ⟨_, by rw [h2 t h3, h4]; rfl⟩
          · rintro ⟨sh, h3⟩
            rw [h2 t ht] at h3
            obtain ⟨s, h4, _⟩ := Res.bind_eq_ok.1 h3
            exact ⟨t, s, ht, h4⟩
        · obtain ⟨⟨t, ht⟩, h2⟩ := headers_of hw hf hxb
          constructor
          · rintro ⟨t, h3, h4⟩; rw [h2 t h3, h4]; rfl
          · intro h3
            rw [h2 t ht] at h3
            rcases Res.bind_eq_err.1 h3 with h | ⟨_, _, h⟩
            · exact ⟨t, ht, h⟩
            · cases h
    have hgood : (∀ x ∈ l, ∃ t s, Wire.BaseOf m rf x.1 t ∧ x.2.1.sign (utf8 t) = .ok s) → ∃ hs, signAll bs = .ok hs := by
      intro h
      have : ∀ b ∈ bs, ∃ sh, b.1.headers b.2.1 b.2.2 = .ok sh := by
        intro b hbm
        obtain ⟨x, hx, hxb⟩ := forall₂_mem_right hR b hbm
        obtain ⟨t, s, h1, h2⟩ := h x hx
        exact ⟨_, by rw [(headers_of hw hf hxb).2 t h1, h2]; rfl⟩
      clear hall hR hnb hb
      induction bs with
      | nil => exact ⟨[], rfl⟩
      | cons b bs ih =>
        obtain ⟨sh, h1⟩ := this b (by simp)
        obtain ⟨hs, h2⟩ := ih (fun x hx => this x (by simp [hx]))
        exact ⟨sh :: hs, signAll_ok.2 (.cons h1 (signAll_ok.1 h2))⟩
    have hline : ∀ x sh, SignedBy m rf x sh → (¬ Wire.LineOk (utf8 (x.2.2.getD (c! "sig") ++ '=' :: paramsText x.1)) ↔ hvOfStr sh.inputValue = none) := by
      intro x sh h
      have : sh.inputValue = x.2.2.getD (c! "sig") ++ '=' :: paramsText x.1 := by
        rw [(C58_header_values sh).1, h.name, h.params]; simp [Signer.label]
      rw [this, lineOk_iff]; simp
    cases hs : signAll bs with
    | panic =>
      simp only [reduceCtorEq, false_iff]
      intro h
      cases h with
      | base h => exact hnb _ h
      | key h1 h2 => rw [(hall _).2 ⟨h1, _, rfl, h2⟩] at hs; cases hs
      | header h1 =>
        obtain ⟨_, h⟩ := hgood h1
        rw [h] at hs; cases hs
    | err e0 =>
      constructor
      · intro h
        injection h with h; subst h
        obtain ⟨h1, e', rfl, h2⟩ := (hall _).1 hs
        exact .key h1 h2
      · intro h
        cases h with
        | base h => exact absurd h (hnb _)
        | key h1 h2 => rw [(hall _).2 ⟨h1, _, rfl, h2⟩] at hs; injection hs with hs; rw [hs]
        | header h1 =>
          obtain ⟨_, h⟩ := hgood h1
          rw [h] at hs; cases hs
    | ok hs' =>
      have hS : List.Forall₂ (SignedBy m rf) l hs' := (sign_stage hw hf l hs').1 (by rw [hb, Res.bind_ok, hs])
      have hsig : ∀ x ∈ l, ∃ t s, Wire.BaseOf m rf x.1 t ∧ x.2.1.sign (utf8 t) = .ok s := by
        intro x hx
        obtain ⟨sh, _, h⟩ := forall₂_mem_left hS x hx
        obtain ⟨t, h1, h2⟩ := h.signature
        exact ⟨t, _, wireBaseOf_iff.2 h1, h2⟩
      simp only
      rcases appendAll_eq m.headers hs' with ⟨h1, h2⟩ | ⟨l1, sh, l2, h1, _, h3, h4⟩
      · rw [h2]
        simp only [reduceCtorEq, false_iff]
        intro h
        cases h with
        | base h => exact hnb _ h
        | key h1 h2 => rw [(hall _).2 ⟨h1, _, rfl, h2⟩] at hs; cases hs
        | header _ hx hn =>
          obtain ⟨sh, hsh, h⟩ := forall₂_mem_left hS _ hx
          have := h1 sh hsh
          rw [(hline _ _ h).1 hn] at this; cases this
      · rw [h4]
        obtain ⟨x, hx, hxs⟩ := forall₂_mem_right hS sh (by rw [h1]; simp)
        constructor
        · intro h; injection h with h; subst h
          exact .header hsig hx ((hline _ _ hxs).2 h3)
        · intro h
          cases h with
          | base h => exact absurd h (hnb _)
          | key h1 h2 => rw [(hall _).2 ⟨h1, _, rfl, h2⟩] at hs; cases hs
          | header => rfl

end Verif
