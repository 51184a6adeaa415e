import Verif.Proofs.RepairText
/-! Components and signature base of the repaired library. -/
namespace Verif.Repair
open Sfv Spec Spec.Repaired

theorem extractHttpField_ok {m : Msg} (hw : WfHeaders m.headers) (f : Str) (ps : List CParam) (c : Component) :
    extractHttpField m ⟨.field f, ps⟩ = .ok c ↔ ∃ v, Repaired.FieldValue m.headers f ps v ∧ c = ⟨⟨.field f, ps⟩, .plain v⟩ := by
  unfold extractHttpField Repaired.FieldValue buildField
  simp only [Res.bind_eq_ok, Res.mapErr_eq_ok, headerTexts_ok hw, fieldParams_ok]
  constructor
  · rintro ⟨ts, h1, out, h2, h3⟩
    split at h3
    · cases h3
    · rename_i hne
      injection h3 with h3
      exact ⟨_, ⟨ts, out, h1, h2, hne, rfl⟩, h3.symm⟩
  · rintro ⟨v, ⟨ts, out, h1, h2, hne, rfl⟩, rfl⟩
    exact ⟨ts, h1, out, h2, by rw [if_neg hne]⟩

theorem extractDerived_other {m : Msg} {d : Derived} (hd : d ≠ .requestTarget) (ps : List CParam) :
    extractDerived m ⟨.derived d, ps⟩ = Verif.extractDerived m ⟨.derived d, ps⟩ := by
  unfold extractDerived Verif.extractDerived
  have : derivedValues m d = Verif.derivedValues m d := by cases d <;> first | rfl | exact absurd rfl hd
  simp only [this]

theorem extractDerived_target (m : Msg) (ps : List CParam) (v : Str) (hr : m.isReq = true ∨ CParam.req ∉ ps) :
    (∃ c, extractDerived m ⟨.derived .requestTarget, ps⟩ = .ok c ∧ c.value.disp = v) ↔
      ∃ r, m = .req r ∧ DerivedParams .requestTarget ps ∧ v = target r := by
  cases m with
  | res s =>
    simp only [reduceCtorEq, false_and, exists_false, iff_false, not_exists, not_and]
    intro c hc
    exfalso
    unfold extractDerived at hc
    simp only [Res.bind_eq_ok] at hc
    obtain ⟨_, h1, _, h2, _⟩ := hc
    have hreq : CParam.req ∉ ps := hr.resolve_left (by simp [Msg.isReq])
    simp only [checkDerivedKind] at h2
    rw [if_pos (by simp [hreq])] at h2
    cases h2
  | req r =>
    have hpar : checkDerivedParams (.req r) .requestTarget ps = .ok () ↔ DerivedParams .requestTarget ps := by
      rw [checkDerivedParams_ok]; unfold DerivedParams; simp [Msg.isReq]
    have hv : derivedValues (.req r) .requestTarget = .ok [target r] := by
      simp only [derivedValues, Msg.method, Msg.uri, Res.bind_ok, target]
      split <;> rfl
    unfold extractDerived
    simp only [Res.bind_eq_ok, Res.mapErr_eq_ok, hv, Res.ok.injEq, exists_eq_left']
    constructor
    · rintro ⟨c, ⟨_, h1, _, _, h3⟩, h4⟩
      have hp := hpar.1 h1
      obtain ⟨_, w, h5, rfl⟩ := (build_derived _ ps _ hp c).1 h3
      simp only [derivedValue] at h5
      injection h5 with h5
      subst h5
      exact ⟨r, rfl, hp, h4.symm⟩
    · rintro ⟨r', e, hp, rfl⟩
      injection e with e; subst e
      exact ⟨_, ⟨(), hpar.2 hp, (), by simp [checkDerivedKind], (build_derived _ ps _ hp _).2 ⟨by simp, .plain (target r), rfl, rfl⟩⟩, rfl⟩

theorem extractComponent_ok {m : Msg} (hw : WfHeaders m.headers) (i : CId) (hr : m.isReq = true ∨ CParam.req ∉ i.params) (v : Str) :
    (∃ c, extractComponent m i = .ok c ∧ c.value.disp = v) ↔ Repaired.ValueIn m i v := by
  obtain ⟨n, ps⟩ := i
  cases n with
  | field f =>
    unfold extractComponent Repaired.ValueIn
    simp only
    constructor
    · rintro ⟨c, h1, h2⟩
      obtain ⟨w, h3, rfl⟩ := (extractHttpField_ok hw f ps c).1 h1
      simp only [CValue.disp] at h2; subst h2; exact h3
    · intro h
      exact ⟨_, (extractHttpField_ok hw f ps _).2 ⟨v, h, rfl⟩, rfl⟩
  | derived d =>
    unfold extractComponent Repaired.ValueIn
    simp only
    split
    · rename_i hd; subst hd; exact extractDerived_target m ps v hr
    · rename_i hd
      rw [extractDerived_other hd]
      exact Verif.extractComponent_ok hw ⟨.derived d, ps⟩ hr v

theorem extractFor_ok {m : Msg} {rf : Option Request} (hw : WfHeaders m.headers) (hf : ∀ r, rf = some r → WfHeaders r.headers)
    (i : CId) (v : Str) : (∃ c, extractFor m rf i = .ok c ∧ c.value.disp = v) ↔ Repaired.HasValue m rf i v := by
  unfold extractFor Repaired.HasValue
  by_cases hreq : CParam.req ∈ i.params
  · rw [if_pos (by simpa using hreq), if_pos hreq]
    cases m with
    | req r => simp [Msg.isReq]
    | res s =>
      cases rf with
      | none => simp [Msg.isReq]
      | some r =>
        rw [if_neg (by simp [Msg.isReq])]
        simp only
        rw [extractComponent_ok (m := .req r) (hf r rfl) i (Or.inl rfl) v]
        constructor
        · intro h; exact ⟨s, r, rfl, rfl, h⟩
        · rintro ⟨s', r', h1, h2, h3⟩
          injection h2 with h2; subst h2; exact h3
  · rw [if_neg (by simpa using hreq), if_neg hreq]
    exact extractComponent_ok hw i (Or.inr hreq) v

theorem extractComponent_id {m : Msg} {i : CId} {c : Component} (h : extractComponent m i = .ok c) : c.id = i := by
  unfold extractComponent at h
  split at h
  · unfold extractHttpField at h
    split at h
    · cases h
    obtain ⟨vs, _, h2⟩ := Res.bind_eq_ok.1 h
    obtain ⟨out, _, h3⟩ := Res.bind_eq_ok.1 (Res.mapErr_eq_ok.1 h2)
    split at h3
    · cases h3
    · injection h3 with h3; rw [← h3]
  · unfold extractDerived at h
    split at h
    · cases h
    obtain ⟨_, _, h2⟩ := Res.bind_eq_ok.1 h
    obtain ⟨_, _, h3⟩ := Res.bind_eq_ok.1 h2
    obtain ⟨vs, _, h4⟩ := Res.bind_eq_ok.1 h3
    exact build_id (Res.mapErr_eq_ok.1 h4)

theorem extractFor_id {m : Msg} {rf : Option Request} {i : CId} {c : Component} (h : extractFor m rf i = .ok c) : c.id = i := by
  unfold extractFor at h
  split at h
  · split at h
    · cases h
    split at h
    · cases h
    · exact extractComponent_id h
  · exact extractComponent_id h

theorem buildBase_ok {m : Msg} {p : SigParams} {rf : Option Request} {b : SigBase} :
    buildBase m p rf = .ok b ↔ b.params = p ∧ List.Forall₂ (fun i c => extractFor m rf i = .ok c) p.covered b.lines := by
  unfold buildBase
  have key : ∀ lines, List.Forall₂ (fun i c => extractFor m rf i = .ok c) p.covered lines → SigBase.tryNew lines p = .ok ⟨lines, p⟩ := by
    intro lines h
    unfold SigBase.tryNew
    rw [if_neg (by simpa using h.length_eq.symm), if_neg]
    simp only [Decidable.not_not, List.all_eq_true]
    generalize p.covered = ids at h
    induction h with
    | nil => simp
    | @cons i c is cs h _ ih =>
      intro lc hlc
      simp only [List.zip_cons_cons, List.mem_cons] at hlc
      rcases hlc with rfl | hlc
      · rw [extractFor_id h]; exact eqv_refl i
      · exact ih lc hlc
  constructor
  · intro h
    obtain ⟨lines, h1, h2⟩ := Res.bind_eq_ok.1 h
    rw [Res.collect_ok_iff] at h1
    rw [key lines h1] at h2
    injection h2 with h2; subst h2
    exact ⟨rfl, h1⟩
  · rintro ⟨rfl, h⟩
    rw [Res.collect_ok_iff.2 h]
    simp only [Res.bind_ok]
    rw [key _ h]; rfl

/-- The text of a base in structured field form. -/
def text (ids : List CId) (vs : List Str) (p : SigParams) : Str :=
  (List.zipWith (fun i v => serItem (itemOf i) ++ c! ": " ++ v ++ c! "\n") ids vs).flatten ++ c! "\"@signature-params\": " ++ serInner (listOf p)

theorem baseDisp_text {m : Msg} {p : SigParams} {rf : Option Request} {b : SigBase} (h : buildBase m p rf = .ok b) :
    baseDisp b = text p.covered (b.lines.map (fun c => c.value.disp)) p := by
  obtain ⟨rfl, h⟩ := buildBase_ok.1 h
  unfold baseDisp text
  have : ∀ ids cs, List.Forall₂ (fun i c => extractFor m rf i = .ok c) ids cs →
      cs.flatMap (fun l => idDisp l.id ++ ':' :: ' ' :: l.value.disp ++ ['\n']) =
        (List.zipWith (fun i v => serItem (itemOf i) ++ c! ": " ++ v ++ c! "\n") ids (cs.map (fun c => c.value.disp))).flatten := by
    intro ids cs h
    induction h with
    | nil => rfl
    | cons h _ ih =>
      rw [List.flatMap_cons, ih, List.map_cons, List.zipWith_cons_cons, List.flatten_cons, ← extractFor_id h, itemOf_eq, idDisp_eq]
      simp
  rw [this _ _ h, disp_eq, ← listOf_eq]
  simp [serEntry]

theorem buildBase_spec {m : Msg} {p : SigParams} {rf : Option Request} (hw : WfHeaders m.headers)
    (hf : ∀ r, rf = some r → WfHeaders r.headers) (t : Str) :
    (∃ b, buildBase m p rf = .ok b ∧ baseDisp b = t) ↔ Repaired.BaseOf m rf p t := by
  constructor
  · rintro ⟨b, h1, rfl⟩
    refine ⟨b.lines.map (fun c : Component => c.value.disp), ?_, baseDisp_text h1⟩
    obtain ⟨rfl, h2⟩ := buildBase_ok.1 h1
    generalize b.params.covered = ids at h2
    generalize b.lines = cs at h2
    clear h1
    induction h2 with
    | nil => exact .nil
    | cons h _ ih => exact .cons ((extractFor_ok hw hf _ _).1 ⟨_, h, rfl⟩) ih
  · rintro ⟨vs, h1, rfl⟩
    have : ∃ cs, List.Forall₂ (fun i c => extractFor m rf i = .ok c) p.covered cs ∧ cs.map (fun c => c.value.disp) = vs := by
      generalize p.covered = ids at h1
      induction h1 with
      | nil => exact ⟨[], .nil, rfl⟩
      | cons h _ ih =>
        obtain ⟨c, hc, hv⟩ := (extractFor_ok hw hf _ _).2 h
        obtain ⟨cs, h2, h3⟩ := ih
        exact ⟨c :: cs, .cons hc h2, by rw [List.map_cons, hv, h3]⟩
    obtain ⟨cs, h2, h3⟩ := this
    have hb := buildBase_ok (m := m) (p := p) (rf := rf) (b := ⟨cs, p⟩) |>.2 ⟨rfl, h2⟩
    exact ⟨_, hb, by rw [baseDisp_text hb, ← h3]; rfl⟩

theorem extractComponent_ne_panic (m : Msg) (i : CId) : extractComponent m i ≠ .panic := by
  obtain ⟨n, ps⟩ := i
  unfold extractComponent
  cases n with
  | field f =>
    simp only [extractHttpField]
    refine bind_ne_panic (headerTexts_ne_panic _ _) (fun vs _ => ?_)
    rw [ne_eq, Res.mapErr_eq_panic]
    refine bind_ne_panic (fieldParams_ne_panic _ _) (fun vs' _ => ?_)
    split <;> simp
  | derived d =>
    simp only
    by_cases hd : d = .requestTarget
    · subst hd
      intro h
      have h0 := Verif.extractComponent_ne_panic m ⟨.derived .requestTarget, ps⟩
      have h0 : ¬ ((checkDerivedParams m .requestTarget ps >>= fun _ => checkDerivedKind m .requestTarget ps >>= fun _ =>
        Verif.derivedValues m .requestTarget >>= fun vs => (Component.build ⟨.derived .requestTarget, ps⟩ vs).mapErr HyperErr.httpSig) = .panic) := h0
      unfold extractDerived at h
      simp only [Res.bind_eq_panic] at h h0
      rcases h with h | ⟨a, h1, h | ⟨b, h2, h | ⟨vs, h3, h⟩⟩⟩
      · exact h0 (Or.inl h)
      · exact h0 (Or.inr ⟨a, h1, Or.inl h⟩)
      · cases m with
        | req r =>
          simp only [derivedValues, Msg.method, Msg.uri, Res.bind_ok] at h
          split at h <;> cases h
        | res r => cases h
      · exact build_ne_panic _ _ (Res.mapErr_eq_panic.1 h)
    · rw [extractDerived_other hd]
      exact Verif.extractComponent_ne_panic m ⟨.derived d, ps⟩

theorem extractFor_ne_panic (m : Msg) (rf : Option Request) (i : CId) : extractFor m rf i ≠ .panic := by
  unfold extractFor
  split
  · split
    · simp
    split
    · simp
    · exact extractComponent_ne_panic _ _
  · exact extractComponent_ne_panic _ _

theorem buildBase_ne_panic (m : Msg) (p : SigParams) (rf : Option Request) : buildBase m p rf ≠ .panic := by
  refine bind_ne_panic (collect_ne_panic (extractFor_ne_panic m rf) _) (fun lines _ => ?_)
  rw [ne_eq, Res.mapErr_eq_panic]
  unfold SigBase.tryNew
  split
  · simp
  split <;> simp

end Verif.Repair
