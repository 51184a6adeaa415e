import Verif.Proofs.ErrSays
/-! The messages of reading and verifying. -/
namespace Verif
open Sfv Spec Grammar

section
variable {L : ErrLib}

/-! ### Identifiers -/

theorem ofBareT_err {b : Bare} {e : SigErr} {t : Str} : CName.ofBareT L b = .err ⟨e, t⟩ ↔
    (∀ n, b ≠ .str n) ∧ e = .invalidComponentName ∧ t = c! "Invalid http message component name: " ++ L.bare b := by
  cases b with
  | str s =>
    simp only [CName.ofBareT, Res.mapErr_eq_err]
    constructor
    · rintro ⟨e', h, _⟩; exact absurd rfl ((ofBare_err.1 h).1 s)
    · rintro ⟨h, _⟩; exact absurd rfl (h s)
  | _ => simp only [CName.ofBareT, err_eta]; simp

theorem ofKVT_err {kv : Str × Bare} {e : SigErr} {t : Str} :
    CParam.ofKVT kv = .err ⟨e, t⟩ ↔ (∀ p, ¬ Wire.ParamOf kv p) ∧ e = .invalidComponentParam ∧ t = c! "Invalid http field param: " ++ kv.1 := by
  have hk := ofKVT_kind kv
  have h1 : ∀ e t, CParam.ofKVT kv = .err ⟨e, t⟩ → e = .invalidComponentParam ∧ t = c! "Invalid http field param: " ++ kv.1 := by
    intro e t h
    unfold CParam.ofKVT at h
    split at h
    · cases h
    split at h
    · cases h
    split at h
    · cases h
    split at h
    · cases h
    split at h
    · rename_i hn
      rcases Res.bind_eq_err.1 h with h | ⟨_, _, h⟩
      · obtain ⟨_, h⟩ := Res.ofOption_eq_err.1 h
        injection h with h1 h2; rw [h1, h2, hn]; exact ⟨rfl, rfl⟩
      · cases h
    split at h
    · rename_i hn
      rcases Res.bind_eq_err.1 h with h | ⟨_, _, h⟩
      · obtain ⟨_, h⟩ := Res.ofOption_eq_err.1 h
        injection h with h1 h2; rw [h1, h2, hn]; exact ⟨rfl, rfl⟩
      · cases h
    exact err_eta.1 h
  constructor
  · intro h
    refine ⟨fun p hp => ?_, h1 _ _ h⟩
    rw [h] at hk
    rw [paramOf_iff.1 hp] at hk; cases hk
  · rintro ⟨h, h2, h3⟩
    cases hr : CParam.ofKVT kv with
    | ok p => exact absurd (paramOf_iff.2 ((Res.ok_of_kind hk p).1 hr)) (h p)
    | panic =>
      rw [hr] at hk
      rcases ofKV_total kv with ⟨p, h⟩ | h <;> rw [h] at hk <;> cases hk
    | err x =>
      obtain ⟨e', t'⟩ := x
      obtain ⟨h4, h5⟩ := h1 _ _ hr
      rw [h2, h3, h4, h5]

theorem cparamsOfT_err {ps : Params} {e : SigErr} {t : Str} :
    cparamsOfT ps = .err ⟨e, t⟩ ↔ Wire.FirstBad (fun kv => ∃ p, Wire.ParamOf kv p)
      (fun kv => (∀ p, ¬ Wire.ParamOf kv p) ∧ t = c! "Invalid http field param: " ++ kv.1) ps ∧ e = .invalidComponentParam := by
  unfold cparamsOfT
  rw [Res.bind_eq_err, Res.collect_eq_err]
  have : (∃ a, Res.collect CParam.ofKVT ps = .ok a ∧ (Res.ok (isOfList a) : Res SigErrT _) = .err ⟨e, t⟩) ↔ False := by simp
  rw [this, or_false, firstBad_congr (g' := fun kv => ∃ p, Wire.ParamOf kv p)
    (b' := fun kv => ((∀ p, ¬ Wire.ParamOf kv p) ∧ t = c! "Invalid http field param: " ++ kv.1) ∧ e = .invalidComponentParam)]
  · constructor
    · rintro ⟨a, x, b, h1, ⟨h2, h3⟩, h4⟩; exact ⟨⟨a, x, b, h1, h2, h4⟩, h3⟩
    · rintro ⟨⟨a, x, b, h1, h2, h4⟩, h3⟩; exact ⟨a, x, b, h1, ⟨h2, h3⟩, h4⟩
  · intro kv _
    exact exists_congr (fun p => by rw [Res.ok_of_kind (ofKVT_kind kv), paramOf_iff])
  · intro kv _
    rw [ofKVT_err]; tauto

theorem checkT_err {n : CName} {ps : List CParam} {e : SigErr} {t : Str} :
    CId.checkT ⟨n, ps⟩ = .err ⟨e, t⟩ ↔
      (∃ p ∈ ps, ¬ Wire.Allowed n p) ∧ e = .invalidComponentId ∧ t = c! "Invalid http message component id: " ++ idText ⟨n, ps⟩ := by
  have hk := checkT_kind ⟨n, ps⟩
  have h1 : ∀ e t, CId.checkT ⟨n, ps⟩ = .err ⟨e, t⟩ → e = .invalidComponentId ∧ t = c! "Invalid http message component id: " ++ idText ⟨n, ps⟩ := by
    intro e t h
    rw [← C58_id_text]
    unfold CId.checkT at h
    split at h
    · exact err_eta.1 h
    split at h
    · exact err_eta.1 h
    · cases h
  constructor
  · intro h
    rw [h] at hk
    exact ⟨(check_err.1 hk.symm).1, h1 _ _ h⟩
  · rintro ⟨h, h2, h3⟩
    rw [check_err.2 ⟨h, rfl⟩] at hk
    obtain ⟨⟨e', t'⟩, h4, h5⟩ := Res.mapErr_eq_err.1 hk
    obtain ⟨h6, h7⟩ := h1 _ _ h4
    rw [h4, h2, h3, h6, h7]

theorem ofItemT_err {it : Item} {e : SigErr} {t : Str} (hn : (it.params.map Prod.fst).Nodup) : CId.ofItemT L it = .err ⟨e, t⟩ ↔ Wire.IdSays L it e t := by
  unfold CId.ofItemT
  rw [Res.bind_eq_err, ofBareT_err]
  simp only [Res.ok_of_kind (ofBareT_kind L it.bare)]
  constructor
  · rintro (⟨h, rfl, rfl⟩ | ⟨c, h1, h⟩)
    · exact .name h
    · obtain ⟨h2, h3⟩ := ofBare_ok h1
      have hnm : Wire.NameOf (nameText c) c := nameOf_iff.2 (by rw [← h2]; exact h1)
      rcases Res.bind_eq_err.1 h with h | ⟨ps, h4, h⟩
      · obtain ⟨h5, rfl⟩ := cparamsOfT_err.1 h
        exact .param h2 hnm h5
      · obtain ⟨⟨p, h5, h6⟩, rfl, rfl⟩ := checkT_err.1 h
        exact .place h2 hnm ((forall₂_paramOf hn).2 ((Res.ok_of_kind (cparamsOfT_kind _) _).1 h4)) h5 h6
  · intro h
    cases h with
    | name h => exact Or.inl ⟨h, rfl, rfl⟩
    | @param n c kv h1 h2 h3 =>
      refine Or.inr ⟨c, by rw [h1]; exact nameOf_iff.1 h2, Res.bind_eq_err.2 (Or.inl (cparamsOfT_err.2 ⟨h3, rfl⟩))⟩
    | @place n c ps p h1 h2 h3 h4 h5 =>
      refine Or.inr ⟨c, by rw [h1]; exact nameOf_iff.1 h2, Res.bind_eq_err.2 (Or.inr ⟨ps, (Res.ok_of_kind (cparamsOfT_kind _) _).2 ((forall₂_paramOf hn).1 h3),
        checkT_err.2 ⟨⟨_, h4, h5⟩, rfl, rfl⟩⟩)⟩

theorem asked_iff {s w : Str} : Wire.Asked s w ↔ w = if trim s ≠ [] ∧ '"' ∉ trim s then '"' :: (trim s ++ ['"']) else trim s := by
  constructor
  · intro h
    cases h with
    | plain h1 h2 =>
      rw [trimmed_iff] at h1; subst h1
      rw [if_neg]; rintro ⟨h3, h4⟩; rcases h2 with h2 | h2; exacts [h3 h2, h4 h2]
    | quoted h1 h2 h3 =>
      rw [trimmed_iff] at h1; subst h1
      rw [if_pos ⟨h2, h3⟩]; simp [quoted]
  · intro h
    split at h
    · rename_i hc
      have := Wire.Asked.quoted (trim_shape s) hc.1 hc.2
      rw [h]; simpa [quoted] using this
    · rename_i hc
      rw [h]
      refine .plain (trim_shape s) ?_
      by_contra hn
      rw [not_or] at hn
      exact hc hn

theorem ofStrT_err {s : Str} {e : SigErr} {t : Str} : CId.ofStrT L s = .err ⟨e, t⟩ ↔ Wire.IdTextSays L s e t := by
  unfold CId.ofStrT
  simp only
  have ha := @asked_iff s
  generalize (if trim s ≠ [] ∧ '"' ∉ trim s then '"' :: (trim s ++ ['"']) else trim s) = w at ha
  cases hp : parseItemTop w with
  | none =>
    have hno : ∀ it, ¬ ItemFieldText it w := by intro it h; rw [(parseItemTop_iff _ _).2 h] at hp; cases hp
    simp only [Res.ofOption_none, Res.bind_err, err_eta]
    constructor
    · rintro ⟨rfl, rfl⟩; exact .parse (ha.2 rfl) hno
    · intro h
      cases h with
      | parse h1 => rw [ha.1 h1]; exact ⟨rfl, rfl⟩
      | item h1 h2 => rw [ha.1 h1] at h2; exact absurd h2 (hno _)
  | some it =>
    have hit := (parseItemTop_iff _ _).1 hp
    simp only [Res.ofOption_some, Res.bind_ok]
    rw [ofItemT_err (parseItemTop_legal hp).2.1]
    constructor
    · intro h; exact .item (ha.2 rfl) hit h
    · intro h
      cases h with
      | parse h1 h => rw [ha.1 h1] at h; exact absurd hit (h it)
      | item h1 h2 h3 =>
        rw [ha.1 h1] at h2
        rw [(parseItemTop_iff _ _).2 h2] at hp
        injection hp with hp; subst hp; exact h3

theorem componentOfStrT_err {s : Str} {e : SigErr} {x : Str} : Component.ofStrT L s = .err ⟨e, x⟩ ↔ Wire.LineSays L s e x := by
  unfold Component.ofStrT
  cases hs : splitOnce ':' s with
  | none =>
    have hn := splitOnce_none.1 hs
    simp only [err_eta]
    constructor
    · rintro ⟨rfl, rfl⟩; exact .colon hn
    · intro h
      cases h with
      | colon => exact ⟨rfl, rfl⟩
      | quotes h => rw [h] at hn; simp at hn
      | id h => rw [h] at hn; simp at hn
  | some iv =>
    obtain ⟨i, v⟩ := iv
    obtain ⟨e1, e2⟩ := splitOnce_some hs
    have huniq : ∀ i' v', s = i' ++ ':' :: v' → ':' ∉ i' → i' = i := by
      intro i' v' h1 h2
      rw [h1, splitOnce_append _ h2] at hs
      injection hs with hs; injection hs
    simp only [contains_infix]
    split
    · rename_i hc
      rw [Res.bind_eq_err, ofStrT_err]
      constructor
      · rintro (h | ⟨_, _, h⟩)
        · exact .id e1 e2 (trim_shape i) hc.1 hc.2 h
        · cases h
      · intro h
        cases h with
        | colon h => rw [e1] at h; simp at h
        | quotes h1 h2 h3 h4 =>
          rw [trimmed_iff.1 h3, huniq _ _ h1 h2] at h4; exact absurd hc h4
        | id h1 h2 h3 _ _ h4 =>
          rw [trimmed_iff.1 h3, huniq _ _ h1 h2] at h4; exact Or.inl h4
    · rename_i hc
      rw [err_eta]
      constructor
      · rintro ⟨rfl, rfl⟩; exact .quotes e1 e2 (trim_shape i) hc
      · intro h
        cases h with
        | colon h => rw [e1] at h; simp at h
        | quotes h1 h2 h3 => rw [trimmed_iff.1 h3, huniq _ _ h1 h2]; exact ⟨rfl, rfl⟩
        | id h1 h2 h3 h4 h5 =>
          rw [trimmed_iff.1 h3, huniq _ _ h1 h2] at h4 h5; exact absurd ⟨h4, h5⟩ hc

/-! ### Parameters -/

theorem coveredT_err {it : Item} {e : SigErr} {x : Str} (h : LegalItem it) : CId.ofStrT L (serItem it) = .err ⟨e, x⟩ ↔ Wire.CoveredSays L it e x := by
  unfold Wire.CoveredSays
  by_cases hs : '"' ∈ serItem it
  · have : CId.ofStrT L (serItem it) = CId.ofItemT L it := by
      unfold CId.ofStrT
      simp only
      rw [trim_serItem h, if_neg (by simp [hs]), parseItemTop_ser h]
      rfl
    rw [this, ofItemT_err h.2.1]
    constructor
    · intro h'; exact ⟨_, canonItem_iff.2 ⟨h, rfl⟩, hs, h'⟩
    · rintro ⟨_, _, _, h'⟩; exact h'
  · have hk := ofStrT_kind L (serItem it)
    constructor
    · intro h'
      rw [h'] at hk
      obtain ⟨t, ht, hq, _⟩ := (covered_err h).1 hk.symm
      rw [(canonItem_iff.1 ht).2] at hq; exact absurd hq hs
    · rintro ⟨t, ht, hq, _⟩
      rw [(canonItem_iff.1 ht).2] at hq; exact absurd hq hs

theorem ofEntryT_err {l : InnerList} {e : SigErr} {x : Str} (hl : LegalEntry (.inner l)) :
    SigParams.ofEntryT L (.inner l) = .err ⟨e, x⟩ ↔ Wire.InnerSays L l e x := by
  unfold SigParams.ofEntryT
  simp only
  rw [Res.bind_eq_err, Res.collect_eq_err]
  have hfb := firstBad_congr (l := l.items) (g := fun i => ∃ y, CId.ofStrT L (serItem i) = .ok y) (g' := fun it => ∃ i, Wire.CoveredId it i)
    (b := fun i => CId.ofStrT L (serItem i) = .err ⟨e, x⟩) (b' := fun it => Wire.CoveredSays L it e x)
    (fun it hi => exists_congr (fun i => by rw [Res.ok_of_kind (ofStrT_kind L _), coveredId_iff (hl.1 it hi)])) (fun it hi => coveredT_err (hl.1 it hi))
  rw [hfb]
  have hu : ∀ ids, List.Forall₂ Wire.CoveredId l.items ids →
      (hasUnique ids = true ↔ ids.Pairwise (fun i j => ¬ (i.name = j.name ∧ i.params.Perm j.params))) := by
    intro ids hc
    refine hasUnique_iff (by
      intro j hj
      obtain ⟨it, _, hof⟩ := forall₂_mem_right ((covered_iff hl.1).1 hc) j hj
      exact labels_nodup (ofStr_rules hof).distinct)
  have hco : ∀ ids, Res.collect (fun i => CId.ofStrT L (serItem i)) l.items = .ok ids ↔ List.Forall₂ Wire.CoveredId l.items ids := by
    intro ids
    rw [Res.ok_of_kind (Res.mapErr_collect (fun a _ => ofStrT_kind L _)), Res.collect_ok_iff, covered_iff hl.1]
  constructor
  · rintro (h | ⟨ids, h1, h⟩)
    · exact .item h
    · have h1 := (hco _).1 h1
      split at h
      · rename_i hn
        obtain ⟨rfl, rfl⟩ := err_eta.1 h
        exact .twice h1 (by rw [← hu _ h1]; exact hn)
      · obtain ⟨e', h2, _⟩ := Res.mapErr_eq_err.1 h
        exact absurd h2 (setKVs_ne_err _ _ _)
  · intro h
    cases h with
    | item h => exact Or.inl h
    | twice h1 h2 =>
      refine Or.inr ⟨_, (hco _).2 h1, ?_⟩
      rw [if_pos (by rw [hu _ h1]; exact h2)]

theorem paramsTextT_err {s : Str} {e : SigErr} {x : Str} : SigParams.ofStrT L s = .err ⟨e, x⟩ ↔ Wire.ParamsTextSays L s e x := by
  unfold SigParams.ofStrT
  cases hp : parseList s with
  | none =>
    have hno := listText_none.1 hp
    simp only [Res.ofOption_none, Res.bind_err, err_eta]
    constructor
    · rintro ⟨rfl, rfl⟩; exact .parse hno
    · intro h
      cases h with
      | parse => exact ⟨rfl, rfl⟩
      | shape h => exact absurd h (hno _)
      | inner h => exact absurd h (hno _)
  | some l =>
    have hl := (C63_list _ _).1 hp
    have huniq : ∀ l', ListText l' s → l' = l := by
      intro l' h; rw [(C63_list _ _).2 h] at hp; injection hp
    simp only [Res.ofOption_some, Res.bind_ok]
    split
    · rename_i i
      rw [ofEntryT_err (parseList_legal hp _ (by simp))]
      constructor
      · intro h; exact .inner hl h
      · intro h
        cases h with
        | parse h => exact absurd hl (h _)
        | shape h1 h2 => exact absurd (huniq _ h1) (h2 i)
        | inner h1 h2 => have := huniq _ h1; injection this with this; injection this with this; subst this; exact h2
    · rename_i hno
      rw [err_eta]
      constructor
      · rintro ⟨rfl, rfl⟩; exact .shape hl (fun i hi => hno i hi)
      · intro h
        cases h with
        | parse h => exact absurd hl (h _)
        | shape => exact ⟨rfl, rfl⟩
        | inner h1 => exact absurd (huniq _ h1).symm (hno _)

/-! ### The two header fields -/

theorem headersT_err {s t : Str} {e : SigErr} {x : Str} : SigHeaders.tryParseT L s t = .err ⟨e, x⟩ ↔ Wire.HeadersSay L s t e x := by
  unfold SigHeaders.tryParseT
  cases hb : parseDict t with
  | none =>
    have hno := dictText_none.1 hb
    simp only [Res.ofOption_none, Res.bind_err, err_eta]
    constructor
    · rintro ⟨rfl, rfl⟩; exact .input hno
    · intro h
      cases h with
      | input => exact ⟨rfl, rfl⟩
      | signature h => exact absurd h (hno _)
      | pair _ h => exact absurd h (hno _)
      | params _ h => exact absurd h (hno _)
  | some b =>
    have hB := (C63_dict _ _).1 hb
    have ub : ∀ b', DictText b' t → b' = b := by
      intro b' h; rw [(C63_dict _ _).2 h] at hb; injection hb
    simp only [Res.ofOption_some, Res.bind_ok]
    cases ha : parseDict s with
    | none =>
      have hno := dictText_none.1 ha
      simp only [Res.ofOption_none, Res.bind_err, err_eta]
      constructor
      · rintro ⟨rfl, rfl⟩; exact .signature hB hno
      · intro h
        cases h with
        | input h => exact absurd hB (h _)
        | signature => exact ⟨rfl, rfl⟩
        | pair h => exact absurd h (hno _)
        | params h => exact absurd h (hno _)
    | some a =>
      have hA := (C63_dict _ _).1 ha
      have ua : ∀ a', DictText a' s → a' = a := by
        intro a' h; rw [(C63_dict _ _).2 h] at ha; injection ha
      have na := (parseDict_legal ha).1
      have nb := (parseDict_legal hb).1
      simp only [Res.ofOption_some, Res.bind_ok]
      have hpair : ∀ {e x}, Wire.HeadersSay L s t e x → (e = .buildSignatureHeader ∧ Wire.PairSays a b x) ∨ Wire.Paired a b := by
        intro e x h
        cases h with
        | input h => exact absurd hB (h _)
        | signature _ h => exact absurd hA (h _)
        | pair h1 h2 h3 => rw [ua _ h1, ub _ h2] at h3; exact Or.inl ⟨rfl, h3⟩
        | params h1 h2 h3 => rw [ua _ h1, ub _ h2] at h3; exact Or.inr h3
      have hplen : Wire.Paired a b → a.length = b.length := by
        intro h
        have := ((List.perm_ext_iff_of_nodup na nb).2 h.1).length_eq
        simpa using this
      by_cases hlen : a.length = b.length
      swap
      · rw [if_pos hlen, err_eta]
        constructor
        · rintro ⟨rfl, rfl⟩; exact .pair hA hB (.number hlen)
        · intro h
          rcases hpair h with ⟨rfl, h1⟩ | h1
          · cases h1 with
            | number => exact ⟨rfl, rfl⟩
            | labels h1 => exact absurd h1 hlen
            | bytes h1 => exact absurd (by simpa using ((List.perm_ext_iff_of_nodup na nb).2 h1).length_eq) hlen
            | inner h1 => exact absurd (by simpa using ((List.perm_ext_iff_of_nodup na nb).2 h1).length_eq) hlen
          · exact absurd (hplen h1) hlen
      rw [if_neg (by simpa using hlen)]
      by_cases hlab : ∀ k ∈ a.map Prod.fst, k ∈ b.map Prod.fst
      swap
      · rw [if_pos, err_eta]
        · obtain ⟨k, hk⟩ := not_forall.1 hlab
          obtain ⟨hk1, hk2⟩ := Classical.not_imp.1 hk
          constructor
          · rintro ⟨rfl, rfl⟩; exact .pair hA hB (.labels hlen hk1 hk2)
          · intro h
            rcases hpair h with ⟨rfl, h1⟩ | h1
            · cases h1 with
              | number h1 => exact absurd hlen h1
              | labels => exact ⟨rfl, rfl⟩
              | bytes h1 => exact absurd ((h1 k).1 hk1) hk2
              | inner h1 => exact absurd ((h1 k).1 hk1) hk2
            · exact absurd ((h1.1 k).1 hk1) hk2
        · intro h
          apply hlab
          intro k hk
          obtain ⟨kv, h1, rfl⟩ := List.mem_map.1 hk
          exact imGet_isSome.1 ((List.all_eq_true.1 h) kv h1)
      rw [if_neg (by
        simp only [not_not, List.all_eq_true]
        intro kv hkv
        exact imGet_isSome.2 (hlab _ (List.mem_map_of_mem hkv)))]
      have hiff : ∀ k, k ∈ a.map Prod.fst ↔ k ∈ b.map Prod.fst := by
        have hsub : (a.map Prod.fst).Subperm (b.map Prod.fst) := List.subperm_of_subset na hlab
        have hperm := hsub.perm_of_length_le (by simp [hlen])
        intro k; exact hperm.mem_iff
      by_cases hby : ∀ kv ∈ a, ∃ x ps, kv.2 = .item ⟨.bytes x, ps⟩
      swap
      · rw [if_pos, err_eta]
        · obtain ⟨kv, hk⟩ := not_forall.1 hby
          obtain ⟨hk1, hk2⟩ := Classical.not_imp.1 hk
          constructor
          · rintro ⟨rfl, rfl⟩; exact .pair hA hB (.bytes hiff hk1 (fun x ps h => hk2 ⟨x, ps, h⟩))
          · intro h
            rcases hpair h with ⟨rfl, h1⟩ | h1
            · cases h1 with
              | number h1 => exact absurd hlen h1
              | labels _ h1 h2 => exact absurd ((hiff _).1 h1) h2
              | bytes => exact ⟨rfl, rfl⟩
              | inner _ h1 => exact absurd h1 hby
            · exact absurd h1.2.1 hby
        · intro h
          apply hby
          intro kv hk
          have := (List.all_eq_true.1 h) kv hk
          obtain ⟨x, hx⟩ := Option.isSome_iff_exists.1 this
          exact ⟨x, entryBytes_iff.1 hx⟩
      rw [if_neg (by
        simp only [not_not, List.all_eq_true]
        intro kv hkv
        obtain ⟨x, hx⟩ := hby kv hkv
        rw [entryBytes_iff.2 hx]; rfl)]
      by_cases hin : ∀ kv ∈ b, ∃ il, kv.2 = .inner il
      swap
      · rw [if_pos, err_eta]
        · obtain ⟨kv, hk⟩ := not_forall.1 hin
          obtain ⟨hk1, hk2⟩ := Classical.not_imp.1 hk
          constructor
          · rintro ⟨rfl, rfl⟩; exact .pair hA hB (.inner hiff hby hk1 (fun il h => hk2 ⟨il, h⟩))
          · intro h
            rcases hpair h with ⟨rfl, h1⟩ | h1
            · cases h1 with
              | number h1 => exact absurd hlen h1
              | labels _ h1 h2 => exact absurd ((hiff _).1 h1) h2
              | bytes _ h1 h2 => obtain ⟨x, ps, h3⟩ := hby _ h1; exact absurd h3 (h2 x ps)
              | inner => exact ⟨rfl, rfl⟩
            · exact absurd h1.2.2 hin
        · intro h
          apply hin
          intro kv hk
          exact entryIsInner_iff.1 ((List.all_eq_true.1 h) kv hk)
      rw [if_neg (by
        simp only [not_not, List.all_eq_true]
        intro kv hkv; exact entryIsInner_iff.2 (hin kv hkv))]
      have hp : Wire.Paired a b := ⟨hiff, hby, hin⟩
      rw [Res.bind_eq_err, Res.collect_eq_err]
      have hone : ∀ kv ∈ b, ∃ y, parseOneT L a kv = (SigParams.ofEntryT L kv.2 >>= fun p => .ok (kv.1, ⟨kv.1, y, p⟩)) := by
        intro kv hkv
        obtain ⟨kv', h1, h2⟩ := List.mem_map.1 ((hiff kv.1).2 (List.mem_map_of_mem hkv))
        obtain ⟨y, ps, hy⟩ := hby kv' h1
        refine ⟨y, ?_⟩
        unfold parseOneT
        have : imGet a kv.1 = some kv'.2 := by rw [← h2]; exact imGet_of_mem na h1
        rw [this, hy]
        rfl
      have hfb : Wire.FirstBad (fun kv => ∃ y, parseOneT L a kv = .ok y) (fun kv => parseOneT L a kv = .err ⟨e, x⟩) b ↔
          Wire.FirstBad (fun kv => ∃ il p, kv.2 = .inner il ∧ Wire.ParamsOf il p) (fun kv => ∃ il, kv.2 = .inner il ∧ Wire.InnerSays L il e x) b := by
        refine firstBad_congr (fun kv hkv => ?_) (fun kv hkv => ?_)
        · obtain ⟨y, hy⟩ := hone kv hkv
          obtain ⟨il, hil⟩ := hin kv hkv
          have hleg := ((parseDict_legal hb).2 kv hkv).2
          rw [hil] at hleg
          rw [hy, hil]
          constructor
          · rintro ⟨z, h⟩
            obtain ⟨p, h1, _⟩ := Res.bind_eq_ok.1 h
            exact ⟨il, p, rfl, (paramsOf_iff hleg).2 ((Res.ok_of_kind (ofEntryT_kind L _) _).1 h1)⟩
          · rintro ⟨il', p, h1, h2⟩
            injection h1 with h1; subst h1
            exact ⟨_, by rw [(Res.ok_of_kind (ofEntryT_kind L _) _).2 ((paramsOf_iff hleg).1 h2)]; rfl⟩
        · obtain ⟨y, hy⟩ := hone kv hkv
          obtain ⟨il, hil⟩ := hin kv hkv
          have hleg := ((parseDict_legal hb).2 kv hkv).2
          rw [hil] at hleg
          rw [hy, hil, Res.bind_eq_err, ofEntryT_err hleg]
          constructor
          · rintro (h | ⟨_, _, h⟩)
            · exact ⟨il, rfl, h⟩
            · cases h
          · rintro ⟨il', h1, h2⟩
            injection h1 with h1; subst h1
            exact Or.inl h2
      rw [hfb]
      constructor
      · rintro (h | ⟨_, _, h⟩)
        · exact .params hA hB hp h
        · cases h
      · intro h
        cases h with
        | input h => exact absurd hB (h _)
        | signature _ h => exact absurd hA (h _)
        | pair h1 h2 h3 =>
          rw [ua _ h1, ub _ h2] at h3
          cases h3 with
          | number h1 => exact absurd hlen h1
          | labels _ h1 h2 => exact absurd ((hiff _).1 h1) h2
          | bytes _ h1 h2 => obtain ⟨x, ps, h3⟩ := hby _ h1; exact absurd h3 (h2 x ps)
          | inner _ _ h1 h2 => obtain ⟨il, h3⟩ := hin _ h1; exact absurd h3 (h2 il)
        | params _ h2 _ h4 => rw [ub _ h2] at h4; exact Or.inl h4

theorem carriesT_err {m : Msg} (hw : WfHeaders m.headers) {e : HyperErr} {x : Str} :
    extractSignatureHeadersT L m = .err ⟨e, x⟩ ↔ Wire.CarriesSay L m.headers e x := by
  have hk := extractSignatureHeadersT_kind L m
  have hc : (m.headers.contains hSignatureInput && m.headers.contains hSignature) = true ↔
      Wire.linesOf m.headers (c! "signature-input") ≠ [] ∧ Wire.linesOf m.headers (c! "signature") ≠ [] := by
    rw [Bool.and_eq_true, contains_iff hw, contains_iff hw]; rfl
  have hok : ∀ n ts, headerTextsT L m.headers n = .ok ts ↔ Wire.LinesText m.headers n ts := by
    intro n ts
    rw [Res.ok_of_kind (headerTextsT_kind L _ _), headerTexts_ok hw, linesText_iff]
  have hnl : ∀ n ts l, Wire.LinesText m.headers n ts → l ∈ Wire.linesOf m.headers n → ¬ ∀ t, ¬ Wire.LineText l t := by
    intro n ts l h1 h2 h3
    obtain ⟨t, _, h⟩ := forall₂_mem_left h1 l h2
    exact h3 t h
  have hnn : ∀ n ts, Wire.LinesText m.headers n ts → ts ≠ [] → Wire.linesOf m.headers n ≠ [] := by
    intro n ts h1 h2 h3
    unfold Wire.LinesText at h1
    rw [h3] at h1; cases h1; exact h2 rfl
  have hnn' : ∀ n ts, Wire.LinesText m.headers n ts → Wire.linesOf m.headers n ≠ [] → ts ≠ [] := by
    intro n ts h1 h2 h3
    unfold Wire.LinesText at h1
    subst h3
    cases hl : Wire.linesOf m.headers n with
    | nil => exact h2 hl
    | cons => rw [hl] at h1; cases h1
  unfold extractSignatureHeadersT
  simp only
  by_cases hp : (m.headers.contains hSignatureInput && m.headers.contains hSignature) = true
  swap
  · rw [if_pos hp, herr_eta]
    rw [hc] at hp
    have hm : Wire.linesOf m.headers (c! "signature-input") = [] ∨ Wire.linesOf m.headers (c! "signature") = [] := by
      by_contra h; rw [not_or] at h; exact hp h
    constructor
    · rintro ⟨rfl, rfl⟩; exact .missing hm
    · intro h
      cases h with
      | missing => exact ⟨rfl, rfl⟩
      | line g1 g2 => exact absurd ⟨g1, g2⟩ hp
      | parse g1 g2 g3 g4 => exact absurd ⟨hnn _ _ g1 g3, hnn _ _ g2 g4⟩ hp
  rw [if_neg (by simpa using hp)]
  obtain ⟨p1, p2⟩ := hc.1 hp
  rw [Res.bind_eq_err, headerTextsT_err hw]
  constructor
  · rintro (⟨⟨l, h1, h2⟩, rfl, rfl⟩ | ⟨ts, h1, h⟩)
    · exact .line p1 p2 (List.mem_append_left _ h1) h2
    · rcases Res.bind_eq_err.1 h with h | ⟨us, h2, h⟩
      · obtain ⟨⟨l, h1, h2⟩, rfl, rfl⟩ := (headerTextsT_err hw).1 h
        exact .line p1 p2 (List.mem_append_right _ h1) h2
      · obtain ⟨e', h3, rfl⟩ := up_err.1 h
        have h1 := (hok _ _).1 h1
        have h2 := (hok _ _).1 h2
        refine .parse h1 h2 (hnn' _ _ h1 p1) (hnn' _ _ h2 p2) ?_
        rw [commas_eq, commas_eq]; exact headersT_err.1 h3
  · intro h
    cases h with
    | missing g => exact absurd g (not_or.2 ⟨p1, p2⟩)
    | line _ _ g3 g4 =>
      rcases List.mem_append.1 g3 with g | g
      · exact Or.inl ⟨⟨_, g, g4⟩, rfl, rfl⟩
      · cases hh : headerTextsT L m.headers hSignatureInput with
        | ok ts => exact Or.inr ⟨ts, rfl, Res.bind_eq_err.2 (Or.inl ((headerTextsT_err hw).2 ⟨⟨_, g, g4⟩, rfl, rfl⟩))⟩
        | err x =>
          obtain ⟨e', t'⟩ := x
          exact Or.inl ⟨((headerTextsT_err hw).1 hh).1, rfl, rfl⟩
        | panic =>
          exfalso
          obtain ⟨_, _, _, _, y, _, hy⟩ := Res.collect_eq_panic.1 hh
          cases hv : hvToStr y <;> rw [hv] at hy <;> cases hy
    | parse g1 g2 g3 g4 g5 =>
      rw [commas_eq, commas_eq] at g5
      exact Or.inr ⟨_, (hok _ _).2 g1, Res.bind_eq_err.2 (Or.inr ⟨_, (hok _ _).2 g2, up_err.2 ⟨_, headersT_err.2 g5, rfl⟩⟩)⟩

end

end Verif
