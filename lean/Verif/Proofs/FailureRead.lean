import Verif.Proofs.Failure
/-! The errors of the readers are those of `Spec/Failure.lean`. -/
namespace Verif
open Sfv Spec Grammar

/-! ### Identifiers -/

theorem ofBare_err {b : Bare} {e : SigErr} : CName.ofBare b = .err e ↔ (∀ n, b ≠ .str n) ∧ e = .invalidComponentName := by
  cases b with
  | str s =>
    simp only [CName.ofBare]
    have : ∀ s e, Derived.ofStr s ≠ .err e := by
      intro s e; unfold Derived.ofStr
      repeat' split
      all_goals simp
    split
    · rw [Res.bind_eq_err]; simp [this]
    · simp
  | _ => simp [CName.ofBare, eq_comm]

theorem ofKV_total (kv : Str × Bare) : (∃ p, CParam.ofKV kv = .ok p) ∨ CParam.ofKV kv = .err .invalidComponentParam := by
  unfold CParam.ofKV
  repeat' split
  all_goals first | exact Or.inl ⟨_, rfl⟩ | exact Or.inr rfl | (cases asString kv.2 <;> simp)

theorem cparamsOf_err {ps : Params} {e : SigErr} :
    cparamsOf ps = .err e ↔ (∃ kv ∈ ps, ∀ p, ¬ Wire.ParamOf kv p) ∧ e = .invalidComponentParam := by
  unfold cparamsOf
  rw [Res.bind_eq_err, Res.collect_eq_err_of (fun x _ => ofKV_total x)]
  have : ∀ kv, CParam.ofKV kv = .err .invalidComponentParam ↔ ∀ p, ¬ Wire.ParamOf kv p := by
    intro kv
    simp only [paramOf_iff]
    rcases ofKV_total kv with ⟨p, h⟩ | h
    · rw [h]; simp
    · rw [h]; simp
  simp [this]

theorem check_err {n : CName} {ps : List CParam} {e : SigErr} :
    CId.check ⟨n, ps⟩ = .err e ↔ (∃ p ∈ ps, ¬ Wire.Allowed n p) ∧ e = .invalidComponentId := by
  unfold CId.check
  simp only
  have h1 : (ps.any CParam.isName && n != .derived .queryParam) = true ↔ ∃ p ∈ ps, p.isName = true ∧ ¬ Wire.Allowed n p := by
    simp only [Bool.and_eq_true, List.any_eq_true, bne_iff_ne, ne_eq]
    constructor
    · rintro ⟨⟨p, hp, h⟩, h2⟩
      refine ⟨p, hp, h, ?_⟩
      cases p <;> first | (cases h; done) | exact h2
    · rintro ⟨p, hp, h, h2⟩
      refine ⟨⟨p, hp, h⟩, ?_⟩
      cases p <;> first | (cases h; done) | exact h2
  have h2 : (ps.any CParam.isFieldOnly && !n.isField) = true ↔ ∃ p ∈ ps, p.isFieldOnly = true ∧ ¬ Wire.Allowed n p := by
    have hn : (!n.isField) = true ↔ ¬ ∃ f, n = .field f := by cases n <;> simp [CName.isField]
    rw [Bool.and_eq_true, List.any_eq_true, hn]
    constructor
    · rintro ⟨⟨p, hp, h⟩, h2⟩
      refine ⟨p, hp, h, ?_⟩
      cases p <;> first | (cases h; done) | exact h2
    · rintro ⟨p, hp, h, h2⟩
      refine ⟨⟨p, hp, h⟩, ?_⟩
      cases p <;> first | (cases h; done) | exact h2
  have h3 : (∃ p ∈ ps, ¬ Wire.Allowed n p) ↔ (∃ p ∈ ps, p.isName = true ∧ ¬ Wire.Allowed n p) ∨ ∃ p ∈ ps, p.isFieldOnly = true ∧ ¬ Wire.Allowed n p := by
    constructor
    · rintro ⟨p, hp, h⟩
      cases p with
      | req => exact absurd trivial h
      | name s => exact Or.inl ⟨_, hp, rfl, h⟩
      | _ => exact Or.inr ⟨_, hp, rfl, h⟩
    · rintro (⟨p, hp, _, h⟩ | ⟨p, hp, _, h⟩) <;> exact ⟨p, hp, h⟩
  rw [h3, ← h1, ← h2]
  by_cases h : (ps.any CParam.isName && n != .derived .queryParam) = true
  · rw [if_pos h]
    exact ⟨fun he => by injection he with he; exact ⟨Or.inl h, he.symm⟩, fun he => by rw [he.2]⟩
  · rw [if_neg h]
    by_cases h' : (ps.any CParam.isFieldOnly && !n.isField) = true
    · rw [if_pos h']
      exact ⟨fun he => by injection he with he; exact ⟨Or.inr h', he.symm⟩, fun he => by rw [he.2]⟩
    · rw [if_neg h']
      exact ⟨fun he => (by cases he), fun he => (he.1.elim h h').elim⟩

theorem ofItem_err {it : Item} {e : SigErr} (hn : (it.params.map Prod.fst).Nodup) : CId.ofItem it = .err e ↔ Wire.IdFails it e := by
  unfold CId.ofItem
  rw [Res.bind_eq_err, ofBare_err]
  constructor
  · rintro (⟨h, rfl⟩ | ⟨c, h1, h⟩)
    · exact .name h
    · obtain ⟨h2, h3⟩ := ofBare_ok h1
      have hnm : Wire.NameOf (nameText c) c := nameOf_iff.2 (by rw [← h2]; exact h1)
      rcases Res.bind_eq_err.1 h with h | ⟨ps, h4, h⟩
      · obtain ⟨⟨kv, h5, h6⟩, rfl⟩ := cparamsOf_err.1 h
        exact .param h2 hnm h5 h6
      · obtain ⟨⟨p, h5, h6⟩, rfl⟩ := check_err.1 h
        exact .place h2 hnm ((forall₂_paramOf hn).2 h4) h5 h6
  · intro h
    cases h with
    | name h => exact Or.inl ⟨h, rfl⟩
    | @param n c kv h1 h2 h3 h4 =>
      refine Or.inr ⟨c, by rw [h1]; exact nameOf_iff.1 h2, Res.bind_eq_err.2 (Or.inl (cparamsOf_err.2 ⟨⟨_, h3, h4⟩, rfl⟩))⟩
    | @place n c ps p h1 h2 h3 h4 h5 =>
      refine Or.inr ⟨c, by rw [h1]; exact nameOf_iff.1 h2, Res.bind_eq_err.2 (Or.inr ⟨ps, (forall₂_paramOf hn).1 h3, check_err.2 ⟨⟨_, h4, h5⟩, rfl⟩⟩)⟩

theorem idItem_iff {s : Str} {it : Item} :
    Wire.IdItem s it ↔ (if trim s ≠ [] ∧ '"' ∉ trim s then parseItemTop ('"' :: (trim s ++ ['"'])) else parseItemTop (trim s)) = some it := by
  unfold Wire.IdItem
  constructor
  · rintro ⟨v, hv, h⟩
    rw [trimmed_iff] at hv; subst hv
    rcases h with ⟨h1, h2⟩ | ⟨h1, h2, h3⟩
    · rw [if_neg (by simp [h1]), (parseItemTop_iff _ _).2 h2]
    · rw [if_pos ⟨h1, h2⟩, show '"' :: (trim s ++ ['"']) = quoted (trim s) from by simp [quoted], (parseItemTop_iff _ _).2 h3]
  · intro h1
    refine ⟨trim s, trim_shape s, ?_⟩
    split at h1
    · rename_i hc
      exact Or.inr ⟨hc.1, hc.2, (parseItemTop_iff _ _).1 (by rw [show quoted (trim s) = '"' :: (trim s ++ ['"']) from by simp [quoted]]; exact h1)⟩
    · rename_i hc
      refine Or.inl ⟨?_, (parseItemTop_iff _ _).1 h1⟩
      by_contra hq
      have : trim s = [] := by by_contra hne; exact hc ⟨hne, hq⟩
      rw [this] at h1; cases h1

theorem ofStr_err {s : Str} {e : SigErr} : CId.ofStr s = .err e ↔ Wire.IdTextFails s e := by
  unfold CId.ofStr
  simp only
  have hi := @idItem_iff s
  generalize hp : (if trim s ≠ [] ∧ '"' ∉ trim s then parseItemTop ('"' :: (trim s ++ ['"'])) else parseItemTop (trim s)) = o at hi
  have hl : ∀ it, o = some it → (it.params.map Prod.fst).Nodup := by
    intro it h
    subst h
    split at hp <;> exact (parseItemTop_legal hp).2.1
  cases o with
  | none =>
    constructor
    · intro h; injection h with h; subst h; exact .parse (fun it h => by cases hi.1 h)
    · intro h
      cases h with
      | parse => rfl
      | item h => cases hi.1 h
  | some it =>
    simp only [Res.ofOption_some, Res.bind_ok]
    rw [ofItem_err (hl it rfl)]
    constructor
    · intro h; exact .item (hi.2 rfl) h
    · intro h
      cases h with
      | parse h => exact absurd (hi.2 rfl) (h it)
      | item h1 h2 => have := hi.1 h1; injection this with this; subst this; exact h2

theorem contains_infix {pat s : Str} : containsStr pat s = true ↔ pat <:+: s := by
  induction s with
  | nil => simp [containsStr]
  | cons x t ih =>
    simp only [containsStr, Bool.or_eq_true, ih, List.isPrefixOf_iff_prefix]
    rw [List.infix_cons_iff]

theorem componentOfStr_err {s : Str} {e : SigErr} : Component.ofStr s = .err e ↔ Wire.LineFails s e := by
  unfold Component.ofStr
  cases hs : splitOnce ':' s with
  | none =>
    have hn := splitOnce_none.1 hs
    constructor
    · intro h; injection h with h; subst h; exact .colon hn
    · intro h
      cases h with
      | colon => rfl
      | quotes h => rw [h] at hn; simp at hn
      | id h => rw [h] at hn; simp at hn
  | some iv =>
    obtain ⟨i, v⟩ := iv
    obtain ⟨e1, e2⟩ := splitOnce_some hs
    have huniq : ∀ i' v', s = i' ++ ':' :: v' → ':' ∉ i' → i' = i := by
      intro i' v' h1 h2
      rw [h1, splitOnce_append _ h2] at hs
      injection hs with hs; injection hs
    simp only [contains_infix]
    split
    · rename_i hc
      rw [Res.bind_eq_err, ofStr_err]
      constructor
      · rintro (h | ⟨_, _, h⟩)
        · exact .id e1 e2 (trim_shape i) hc.1 hc.2 h
        · cases h
      · intro h
        cases h with
        | colon h => rw [e1] at h; simp at h
        | quotes h1 h2 h3 h4 =>
          rw [trimmed_iff.1 h3, huniq _ _ h1 h2] at h4; exact absurd hc h4
        | id h1 h2 h3 _ _ h4 =>
          rw [trimmed_iff.1 h3, huniq _ _ h1 h2] at h4; exact Or.inl h4
    · rename_i hc
      constructor
      · intro h; injection h with h; subst h; exact .quotes e1 e2 (trim_shape i) hc
      · intro h
        cases h with
        | colon h => rw [e1] at h; simp at h
        | quotes => rfl
        | id h1 h2 h3 h4 h5 =>
          rw [trimmed_iff.1 h3, huniq _ _ h1 h2] at h4 h5; exact absurd ⟨h4, h5⟩ hc

/-! ### Parameters -/

theorem covered_err {it : Item} {e : SigErr} (h : LegalItem it) : CId.ofStr (serItem it) = .err e ↔ Wire.CoveredFails it e := by
  unfold Wire.CoveredFails
  by_cases hs : '"' ∈ serItem it
  · rw [ofStr_serItem_str h hs, ofItem_err h.2.1]
    constructor
    · intro h'; exact ⟨_, canonItem_iff.2 ⟨h, rfl⟩, hs, h'⟩
    · rintro ⟨_, _, _, h'⟩; exact h'
  · rw [ofStr_serItem_other h hs, ofItem_err (by simp)]
    constructor
    · intro h'
      cases h' with
      | name h' => exact absurd rfl (h' _)
      | param _ _ h' => cases h'
      | place _ _ h1 h2 => cases h1; cases h2
    · rintro ⟨t, ht, hq, _⟩
      rw [(canonItem_iff.1 ht).2] at hq; exact absurd hq hs

theorem ofEntry_err {l : InnerList} {e : SigErr} (hl : LegalEntry (.inner l)) :
    SigParams.ofEntry (.inner l) = .err e ↔ Wire.InnerFails l e := by
  unfold SigParams.ofEntry
  simp only
  rw [Res.bind_eq_err, Res.collect_eq_err]
  have hfb := firstBad_congr (l := l.items) (g := fun i => ∃ y, CId.ofStr (serItem i) = .ok y) (g' := fun it => ∃ i, Wire.CoveredId it i)
    (b := fun i => CId.ofStr (serItem i) = .err e) (b' := fun it => Wire.CoveredFails it e)
    (fun it hi => exists_congr (fun i => (coveredId_iff (hl.1 it hi)).symm)) (fun it hi => covered_err (hl.1 it hi))
  rw [hfb]
  have hu : ∀ ids, List.Forall₂ Wire.CoveredId l.items ids →
      (hasUnique ids = true ↔ ids.Pairwise (fun i j => ¬ (i.name = j.name ∧ i.params.Perm j.params))) := by
    intro ids hc
    refine hasUnique_iff (by
      intro j hj
      obtain ⟨it, _, hof⟩ := forall₂_mem_right ((covered_iff hl.1).1 hc) j hj
      exact labels_nodup (ofStr_rules hof).distinct)
  constructor
  · rintro (h | ⟨ids, h1, h⟩)
    · exact .item h
    · have h1 := (covered_iff hl.1).2 (Res.collect_ok_iff.1 h1)
      split at h
      · rename_i hn
        injection h with h; subst h
        exact .twice h1 (by rw [← hu _ h1]; exact hn)
      · exact absurd h (setKVs_ne_err _ _ _)
  · intro h
    cases h with
    | item h => exact Or.inl h
    | twice h1 h2 =>
      refine Or.inr ⟨_, Res.collect_ok_iff.2 ((covered_iff hl.1).1 h1), ?_⟩
      rw [if_pos (by rw [hu _ h1]; exact h2)]

theorem paramsText_err {s : Str} {e : SigErr} : SigParams.ofStr s = .err e ↔ Wire.ParamsTextFails s e := by
  unfold SigParams.ofStr
  cases hp : parseList s with
  | none =>
    have hno : ∀ l, ¬ ListText l s := by intro l h; rw [(C63_list _ _).2 h] at hp; cases hp
    constructor
    · intro h; injection h with h; subst h; exact .parse hno
    · intro h
      cases h with
      | parse => rfl
      | shape h => exact absurd h (hno _)
      | inner h => exact absurd h (hno _)
  | some l =>
    have hl := (C63_list _ _).1 hp
    have huniq : ∀ l', ListText l' s → l' = l := by
      intro l' h; rw [(C63_list _ _).2 h] at hp; injection hp
    simp only [Res.ofOption_some, Res.bind_ok]
    split
    · rename_i i
      rw [ofEntry_err (parseList_legal hp _ (by simp))]
      constructor
      · intro h; exact .inner hl h
      · intro h
        cases h with
        | parse h => exact absurd hl (h _)
        | shape h1 h2 => exact absurd (huniq _ h1) (h2 i)
        | inner h1 h2 => have := huniq _ h1; injection this with this; injection this with this; subst this; exact h2
    · rename_i hno
      constructor
      · intro h; injection h with h; subst h; exact .shape hl (fun i hi => hno i hi)
      · intro h
        cases h with
        | parse h => exact absurd hl (h _)
        | shape => rfl
        | inner h1 => exact absurd (huniq _ h1).symm (hno _)

/-! ### The two header fields -/

theorem dictText_none {s : Str} : parseDict s = none ↔ ∀ d, ¬ DictText d s := by
  constructor
  · intro h d hd; rw [(C63_dict _ _).2 hd] at h; cases h
  · intro h
    cases hp : parseDict s with
    | none => rfl
    | some d => exact absurd ((C63_dict _ _).1 hp) (h d)

theorem tryParse_unpaired {s t : Str} {a b : Dict} (ha : parseDict s = some a) (hb : parseDict t = some b) (h : ¬ Wire.Paired a b) :
    SigHeaders.tryParse s t = .err .buildSignatureHeader := by
  by_cases h1 : ∀ k, k ∈ a.map Prod.fst ↔ k ∈ b.map Prod.fst
  · apply C13_wrong_kind s t a b ha hb
    by_cases h2 : ∀ kv ∈ a, ∃ x ps, kv.2 = .item ⟨.bytes x, ps⟩
    · right
      by_contra h3
      apply h
      refine ⟨h1, h2, ?_⟩
      intro kv hkv
      by_contra h4
      exact h3 ⟨kv, hkv, fun il e => h4 ⟨il, e⟩⟩
    · left
      rw [not_forall] at h2
      obtain ⟨kv, h2⟩ := h2
      rw [Classical.not_imp] at h2
      exact ⟨kv, h2.1, fun x ps e => h2.2 ⟨x, ps, e⟩⟩
  · rw [not_forall] at h1
    obtain ⟨k, h1⟩ := h1
    refine C13_missing_label s t a b ha hb k ?_
    tauto

theorem tryParse_paired {s t : Str} {a b : Dict} (ha : parseDict s = some a) (hb : parseDict t = some b) (h : Wire.Paired a b) :
    SigHeaders.tryParse s t = (Res.collect (parseOne a) b >>= fun l => .ok (imOfList l)) := by
  have nb := (parseDict_legal hb).1
  have na := (parseDict_legal ha).1
  rw [tryParse_of ha hb]
  have hperm : (a.map Prod.fst).Perm (b.map Prod.fst) := (List.perm_ext_iff_of_nodup na nb).2 h.1
  have hlen : a.length = b.length := by simpa using hperm.length_eq
  unfold pairParse
  rw [if_neg (by simpa using hlen), if_neg, if_neg, if_neg]
  · simp only [not_not, List.all_eq_true]
    intro kv hkv; exact entryIsInner_iff.2 (h.2.2 kv hkv)
  · simp only [not_not, List.all_eq_true]
    intro kv hkv
    obtain ⟨x, hx⟩ := h.2.1 kv hkv
    rw [entryBytes_iff.2 hx]; rfl
  · simp only [not_not, List.all_eq_true]
    intro kv hkv
    exact imGet_isSome.2 ((h.1 _).1 (List.mem_map_of_mem hkv))

theorem parseOne_paired {a b : Dict} (na : (a.map Prod.fst).Nodup) (h : Wire.Paired a b) {kv : Str × Entry} (hkv : kv ∈ b) :
    ∃ x, parseOne a kv = (SigParams.ofEntry kv.2 >>= fun p => .ok (kv.1, ⟨kv.1, x, p⟩)) := by
  obtain ⟨kv', h1, h2⟩ := List.mem_map.1 ((h.1 kv.1).2 (List.mem_map_of_mem hkv))
  obtain ⟨x, ps, hx⟩ := h.2.1 kv' h1
  refine ⟨x, ?_⟩
  unfold parseOne
  have : imGet a kv.1 = some kv'.2 := by rw [← h2]; exact imGet_of_mem na h1
  rw [this, hx]
  rfl

theorem headers_err {s t : Str} {e : SigErr} : SigHeaders.tryParse s t = .err e ↔ Wire.HeadersFail s t e := by
  cases ha : parseDict s with
  | none =>
    have hno := dictText_none.1 ha
    rw [C13_not_a_dictionary s t (Or.inl ha)]
    constructor
    · intro h; injection h with h; subst h; exact .parse (Or.inl hno)
    · intro h
      cases h with
      | parse => rfl
      | labels h => exact absurd h (hno _)
      | params h => exact absurd h (hno _)
  | some a =>
    cases hb : parseDict t with
    | none =>
      have hno := dictText_none.1 hb
      rw [C13_not_a_dictionary s t (Or.inr hb)]
      constructor
      · intro h; injection h with h; subst h; exact .parse (Or.inr hno)
      · intro h
        cases h with
        | parse => rfl
        | labels _ h => exact absurd h (hno _)
        | params _ h => exact absurd h (hno _)
    | some b =>
      have hA := (C63_dict _ _).1 ha
      have hB := (C63_dict _ _).1 hb
      have ua : ∀ a', DictText a' s → a' = a := by
        intro a' h; rw [(C63_dict _ _).2 h] at ha; injection ha
      have ub : ∀ b', DictText b' t → b' = b := by
        intro b' h; rw [(C63_dict _ _).2 h] at hb; injection hb
      by_cases hp : Wire.Paired a b
      · rw [tryParse_paired ha hb hp, Res.bind_eq_err, Res.collect_eq_err]
        have hfb : Wire.FirstBad (fun kv => ∃ y, parseOne a kv = .ok y) (fun kv => parseOne a kv = .err e) b ↔
            Wire.FirstBad (fun kv => ∃ il p, kv.2 = .inner il ∧ Wire.ParamsOf il p) (fun kv => ∃ il, kv.2 = .inner il ∧ Wire.InnerFails il e) b := by
          refine firstBad_congr (fun kv hkv => ?_) (fun kv hkv => ?_)
          · obtain ⟨x, hx⟩ := parseOne_paired (parseDict_legal ha).1 hp hkv
            obtain ⟨il, hil⟩ := hp.2.2 kv hkv
            have hleg := ((parseDict_legal hb).2 kv hkv).2
            rw [hil] at hleg
            rw [hx, hil]
            constructor
            · rintro ⟨y, h⟩
              obtain ⟨p, h1, _⟩ := Res.bind_eq_ok.1 h
              exact ⟨il, p, rfl, (paramsOf_iff hleg).2 h1⟩
            · rintro ⟨il', p, h1, h2⟩
              injection h1 with h1; subst h1
              exact ⟨_, by rw [(paramsOf_iff hleg).1 h2]; rfl⟩
          · obtain ⟨x, hx⟩ := parseOne_paired (parseDict_legal ha).1 hp hkv
            obtain ⟨il, hil⟩ := hp.2.2 kv hkv
            have hleg := ((parseDict_legal hb).2 kv hkv).2
            rw [hil] at hleg
            rw [hx, hil, Res.bind_eq_err, ofEntry_err hleg]
            constructor
            · rintro (h | ⟨_, _, h⟩)
              · exact ⟨il, rfl, h⟩
              · cases h
            · rintro ⟨il', h1, h2⟩
              injection h1 with h1; subst h1
              exact Or.inl h2
        rw [hfb]
        constructor
        · rintro (h | ⟨_, _, h⟩)
          · exact .params hA hB hp h
          · cases h
        · intro h
          cases h with
          | parse h => rcases h with h | h; exacts [absurd hA (h _), absurd hB (h _)]
          | labels h1 h2 h3 => rw [ua _ h1, ub _ h2] at h3; exact absurd hp h3
          | params h1 h2 _ h4 => rw [ub _ h2] at h4; exact Or.inl h4
      · rw [tryParse_unpaired ha hb hp]
        constructor
        · intro h; injection h with h; subst h; exact .labels hA hB hp
        · intro h
          cases h with
          | parse h => rcases h with h | h; exacts [absurd hA (h _), absurd hB (h _)]
          | labels => rfl
          | params h1 h2 h3 => rw [ua _ h1, ub _ h2] at h3; exact absurd h3 hp

theorem carries_err {m : Msg} (hw : WfHeaders m.headers) {e : HyperErr} :
    extractSignatureHeaders m = .err e ↔ Wire.CarriesFails m.headers e := by
  have hnl : ∀ n ts l, Wire.LinesText m.headers n ts → l ∈ Wire.linesOf m.headers n → ¬ ∀ t, ¬ Wire.LineText l t := by
    intro n ts l h1 h2 h3
    obtain ⟨t, _, h⟩ := forall₂_mem_left h1 l h2
    exact h3 t h
  have hnn : ∀ n ts, Wire.LinesText m.headers n ts → ts ≠ [] → Wire.linesOf m.headers n ≠ [] := by
    intro n ts h1 h2 h3
    unfold Wire.LinesText at h1
    rw [h3] at h1; cases h1; exact h2 rfl
  rcases extract_cases hw with ⟨h1, h2, h3⟩ | ⟨h1, h2, h3, h4⟩ | ⟨h1, h2, ts, us, h3⟩
  · rw [h2]
    constructor
    · intro h; injection h with h; subst h; exact .missing h1
    · intro h
      cases h with
      | missing => rfl
      | line g1 g2 => exact absurd h1 (not_or.2 ⟨g1, g2⟩)
      | parse g1 g2 g3 g4 => exact absurd h1 (not_or.2 ⟨hnn _ _ g1 g3, hnn _ _ g2 g4⟩)
  · rw [h4]
    constructor
    · intro h; injection h with h; subst h
      by_contra hn
      apply h3
      have key : ∀ n, (∀ l ∈ Wire.linesOf m.headers n, ∃ t, Wire.LineText l t) → ∃ ts, LineTexts (fieldLines m.headers n) ts := by
        intro n h
        rw [linesOf_eq] at h
        generalize fieldLines m.headers n = ls at h
        induction ls with
        | nil => exact ⟨[], .nil⟩
        | cons l ls ih =>
          obtain ⟨t, ht⟩ := h l (by simp)
          obtain ⟨ts, hts⟩ := ih (fun x hx => h x (by simp [hx]))
          exact ⟨t :: ts, .cons (lineText_iff.1 ht) hts⟩
      have hall : ∀ l ∈ Wire.linesOf m.headers (c! "signature-input") ++ Wire.linesOf m.headers (c! "signature"), ∃ t, Wire.LineText l t := by
        intro l hl
        by_contra hc
        exact hn (.line h1 h2 hl (fun t ht => hc ⟨t, ht⟩))
      obtain ⟨ts, hts⟩ := key (c! "signature-input") (fun l hl => hall l (List.mem_append_left _ hl))
      obtain ⟨us, hus⟩ := key (c! "signature") (fun l hl => hall l (List.mem_append_right _ hl))
      exact ⟨ts, us, hts, hus, fun he => h1 ((lineTexts_nil hts).1 he), fun he => h2 ((lineTexts_nil hus).1 he)⟩
    · intro h
      cases h with
      | missing g => exact absurd g (not_or.2 ⟨h1, h2⟩)
      | line => rfl
      | parse g1 g2 g3 g4 => exact absurd ⟨_, _, linesText_iff.1 g1, linesText_iff.1 g2, g3, g4⟩ h3
  · rw [extract_of_texts hw h3, Res.mapErr_eq_err]
    obtain ⟨t1, t2, t3, t4⟩ := h3
    constructor
    · rintro ⟨e', h, rfl⟩
      refine .parse (linesText_iff.2 t1) (linesText_iff.2 t2) t3 t4 ?_
      rw [commas_eq, commas_eq]; exact headers_err.1 h
    · intro h
      cases h with
      | missing g => exact absurd g (not_or.2 ⟨h1, h2⟩)
      | line _ _ g3 g4 =>
        rcases List.mem_append.1 g3 with g | g
        · exact absurd g4 (hnl _ _ _ (linesText_iff.2 t1) g)
        · exact absurd g4 (hnl _ _ _ (linesText_iff.2 t2) g)
      | parse g1 g2 g3 g4 g5 =>
        rw [lineTexts_inj (linesText_iff.1 g1) t1, lineTexts_inj (linesText_iff.1 g2) t2, commas_eq, commas_eq] at g5
        exact ⟨_, headers_err.2 g5, rfl⟩

theorem verify_err {now : UInt64} {m : Msg} {rf : Option Request} {k : VerifyingKey} {id : Option Str} (hw : WfHeaders m.headers)
    (hf : ∀ r, rf = some r → WfHeaders r.headers) {e : HyperErr} :
    verifySignature now m k id rf = .err e ↔ Wire.VerifyFails now m rf k id e := by
  rw [verifySignature_eq, Res.bind_eq_err, carries_err hw]
  constructor
  · rintro (h | ⟨l, h1, h2⟩)
    · exact .carries h
    · have hl := wireCarries_iff.2 ((extractSignatureHeaders_ok hw l).1 h1)
      obtain ⟨_, _, c1, c2, c3⟩ := verifyOne_cases (now := now) (k := k) (id := id) hw hf l
      rcases c3 e h2 with rfl | rfl
      · exact .none hl (fun kv hkv h => c1.1 h2 kv hkv (wireCandidate_iff.1 h))
      · obtain ⟨d1, ⟨kv, d2, d3⟩, d4⟩ := c2.1 h2
        exact .invalid hl d2 (wireCandidate_iff.2 d3) (fun kv hkv h => d1 kv hkv (wireCrashes_iff.1 h)) (fun kv hkv h => d4 kv hkv (wireAccepts_iff.1 h))
  · intro h
    cases h with
    | carries h => exact Or.inl h
    | @none l h1 h2 =>
      obtain ⟨_, _, c1, c2, c3⟩ := verifyOne_cases (now := now) (k := k) (id := id) hw hf l
      exact Or.inr ⟨l, (extractSignatureHeaders_ok hw l).2 (wireCarries_iff.1 h1), c1.2 (fun kv hkv h => h2 kv hkv (wireCandidate_iff.2 h))⟩
    | @invalid l kv h1 h2 h3 h4 h5 =>
      obtain ⟨_, _, c1, c2, c3⟩ := verifyOne_cases (now := now) (k := k) (id := id) hw hf l
      exact Or.inr ⟨l, (extractSignatureHeaders_ok hw l).2 (wireCarries_iff.1 h1), c2.2 ⟨fun kv hkv h => h4 kv hkv (wireCrashes_iff.2 h),
        ⟨kv, h2, wireCandidate_iff.1 h3⟩, fun kv hkv h => h5 kv hkv (wireAccepts_iff.2 h)⟩⟩

end Verif
