import Verif.Proofs.RepairRead
import Verif.Proofs.Sign
import Verif.Props.C08
import Verif.Proofs.ParamsRead
/-! The texts of the repaired library are the serializations of structured fields; they read back. -/
namespace Verif.Repair
open Sfv Spec Spec.Repaired

theorem kvOf_eq (p : CParam) : kvOf p = paramKV p := by cases p <;> rfl

theorem itemOf_eq (i : CId) : itemOf i = idItem i := by
  unfold itemOf idItem
  rw [show kvOf = paramKV from funext kvOf_eq]
  rcases i with ⟨n, ps⟩
  cases n <;> rfl

theorem listOf_eq (p : SigParams) : Entry.inner (listOf p) = paramsEntry p := by
  obtain ⟨c, e, n, a, k, t, ids⟩ := p
  unfold listOf paramsEntry paramsKV
  rw [show itemOf = idItem from funext itemOf_eq]
  cases c <;> cases e <;> cases n <;> cases a <;> cases k <;> cases t <;> rfl

theorem idDisp_eq (i : CId) : idDisp i = serItem (idItem i) := by
  have hn : nameDisp i.name = serBare (.str (nameText i.name)) := by
    cases i.name <;> rfl
  unfold idDisp serItem
  rw [hn]
  congr 1
  show _ = serParams (i.params.map paramKV)
  unfold serParams
  rw [List.flatMap_map]
  apply List.flatMap_congr
  intro p _
  cases p <;> simp [paramDisp, paramKV, serParam, serBare, quote]

theorem textDisp_eq (name : Str) (o : Option Str) : textDisp name o = serParams (kvText name o) := by
  cases o with
  | none => rfl
  | some t => simp [textDisp, kvText, serParams, serParam, serBare, quote]

theorem disp_eq (p : SigParams) : disp p = serEntry (paramsEntry p) := by
  unfold disp
  simp only [serEntry, paramsEntry, serInner, paramsKV, serParams_append]
  rw [dispNum_eq, dispNum_eq, textDisp_eq, textDisp_eq, textDisp_eq, textDisp_eq, List.map_map]
  congr 3
  exact List.map_congr_left (fun i _ => idDisp_eq i)

/-- Where no escape is needed nothing changes. -/
theorem idDisp_safe {i : CId} (h : SafeId i) : idDisp i = i.disp := by rw [idDisp_eq, disp_eq_ser h]

theorem disp_safe {p : SigParams} (h : SafeParams p) : disp p = p.disp := by rw [disp_eq, params_disp_eq h]

/-! ### Legal structured fields -/

theorem _root_.Verif.Spec.Repaired.WritableId.nameChars {i : CId} (h : WritableId i) : ∀ c ∈ nameText i.name, Printable c := by
  obtain ⟨n, ps⟩ := i
  cases n with
  | field f => exact h.nameText f rfl
  | derived d => exact safe_printable (derived_safe d)

theorem idItem_writable {i : CId} (h : WritableId i) : LegalItem (idItem i) := by
  refine ⟨h.nameChars, ?_, ?_⟩
  · show ((i.params.map paramKV).map Prod.fst).Nodup
    rw [List.map_map]
    have : Prod.fst ∘ paramKV = paramLabel := by funext p; exact paramKV_fst p
    rw [this]; exact h.distinct
  · intro kv hkv
    obtain ⟨p, hp, rfl⟩ := List.mem_map.1 hkv
    cases p with
    | key k => exact ⟨by show LegalKey (c! "key"); decide, h.keyText k hp⟩
    | name k => exact ⟨by show LegalKey (c! "name"); decide, h.nameParam k hp⟩
    | sf => exact ⟨by show LegalKey (c! "sf"); decide, trivial⟩
    | bs => exact ⟨by show LegalKey (c! "bs"); decide, trivial⟩
    | tr => exact ⟨by show LegalKey (c! "tr"); decide, trivial⟩
    | req => exact ⟨by show LegalKey (c! "req"); decide, trivial⟩

theorem paramsKV_writable {p : SigParams} (h : Writable p) : LegalParams (paramsKV p) := by
  constructor
  · obtain ⟨c, e, n, a, k, t, ids⟩ := p
    cases c <;> cases e <;> cases n <;> cases a <;> cases k <;> cases t <;> simp [paramsKV, kvNum, kvText]
  · have num : ∀ {name : Str} {o : Option UInt64}, LegalKey name → (∀ t, o = some t → t.toNat < 10 ^ 15) →
        ∀ kv ∈ kvNum name o, LegalKey kv.1 ∧ LegalBare kv.2 := by
      intro name o hk ho kv hkv
      cases o with
      | none => simp [kvNum] at hkv
      | some t =>
        simp [kvNum] at hkv; subst hkv
        refine ⟨hk, ?_⟩
        show (t.toNat : Int).natAbs < 10 ^ 15
        rw [Int.natAbs_natCast]; exact ho t rfl
    have txt : ∀ {name : Str} {o : Option Str}, LegalKey name → (∀ t, o = some t → ∀ c ∈ t, Printable c) →
        ∀ kv ∈ kvText name o, LegalKey kv.1 ∧ LegalBare kv.2 := by
      intro name o hk ho kv hkv
      cases o with
      | none => simp [kvText] at hkv
      | some t =>
        simp [kvText] at hkv; subst hkv
        exact ⟨hk, ho t rfl⟩
    intro kv hkv
    simp only [paramsKV, List.mem_append, or_assoc] at hkv
    rcases hkv with hkv | hkv | hkv | hkv | hkv | hkv
    · exact num (by decide) h.created kv hkv
    · exact num (by decide) h.expires kv hkv
    · exact txt (by decide) h.nonce kv hkv
    · exact txt (by decide) h.alg kv hkv
    · exact txt (by decide) h.keyid kv hkv
    · exact txt (by decide) h.tag kv hkv

theorem paramsEntry_writable {p : SigParams} (h : Writable p) : LegalEntry (paramsEntry p) := by
  refine ⟨?_, paramsKV_writable h⟩
  intro i hi
  obtain ⟨j, hj, rfl⟩ := List.mem_map.1 hi
  exact idItem_writable (h.ids j hj)

/-! ### Reading back -/

theorem idItem_trim (i : CId) : trim (serItem (idItem i)) = serItem (idItem i) := by
  rw [← idDisp_eq]
  unfold idDisp
  have hq : ∀ n, ∃ u, nameDisp n = '"' :: (u ++ ['"']) := by
    intro n; cases n <;> exact ⟨_, rfl⟩
  obtain ⟨u, hu⟩ := hq i.name
  apply trim_of
  · rw [hu]; intro c hc; simp at hc; subst hc; decide
  · intro c hc
    have hl : ∀ p, ∃ u c, paramDisp p = u ++ [c] ∧ isWs c = false := by
      intro p
      cases p with
      | sf => exact ⟨['s'], 'f', rfl, by decide⟩
      | bs => exact ⟨['b'], 's', rfl, by decide⟩
      | tr => exact ⟨['t'], 'r', rfl, by decide⟩
      | req => exact ⟨['r', 'e'], 'q', rfl, by decide⟩
      | key s => exact ⟨c! "key=\"" ++ escStr s, '"', rfl, by decide⟩
      | name s => exact ⟨c! "name=\"" ++ escStr s, '"', rfl, by decide⟩
    rcases List.eq_nil_or_concat i.params with h | ⟨l, p, h⟩
    · rw [h, hu] at hc
      simp only [List.flatMap_nil, List.append_nil] at hc
      rw [← List.cons_append, List.getLast?_append] at hc
      simp at hc; subst hc; decide
    · obtain ⟨w, d, hd, hw⟩ := hl p
      rw [h] at hc
      simp only [List.concat_eq_append, List.flatMap_append, List.flatMap_cons, List.flatMap_nil, List.append_nil, hd] at hc
      rw [← List.append_assoc, ← List.cons_append, ← List.append_assoc, List.getLast?_append] at hc
      simp at hc
      subst hc; exact hw

/-- Reading an id from its escaped text. -/
theorem idOfStr_ser {i : CId} (h : WritableId i) : CId.ofStr (serItem (idItem i)) = .ok i := by
  unfold CId.ofStr
  simp only
  have hq : '"' ∈ serItem (idItem i) := by
    rw [← idDisp_eq]; unfold idDisp; cases i.name <;> simp [nameDisp, quote]
  rw [idItem_trim, if_neg (fun hh => hh.2 hq), parseItemTop_ser (idItem_writable h)]
  simp only [Res.ofOption_some, Res.bind_ok]
  exact ofItem_idItem h.toIdRules

theorem Writable_unique {p : SigParams} (h : Writable p) : hasUnique p.covered = true :=
  (hasUnique_iff (fun i hi => labels_nodup (h.ids i hi).distinct)).2 h.distinct

theorem ofEntry_writable {p : SigParams} (h : Writable p) : SigParams.ofEntry (paramsEntry p) = .ok p := by
  unfold paramsEntry SigParams.ofEntry
  simp only
  rw [Res.collect_map, Res.collect_ok_of (g := id) (fun i hi => by
    show CId.ofStr (serItem (idItem i)) = .ok i
    exact idOfStr_ser (h.ids i hi))]
  simp only [Res.bind_ok, List.map_id, Writable_unique h, not_true, if_false]
  exact setKVs_paramsKV p

theorem ofStr_disp_writable {p : SigParams} (h : Writable p) : SigParams.ofStr (disp p) = .ok p := by
  unfold SigParams.ofStr
  rw [disp_eq, parseList_ser (l := [paramsEntry p]) (by
    intro e he; simp at he; subst he; exact paramsEntry_writable h) (by simp [serList])]
  exact ofEntry_writable h

/-- What is read can be written. -/
theorem ofEntry_is_writable {e : Entry} (he : LegalEntry e) {p : SigParams} (h : SigParams.ofEntry e = .ok p) : Writable p := by
  obtain ⟨l, rfl, h1, h2, h3⟩ := Verif.ofEntry_ok h
  have hbad : ∀ kv ∈ l.params, ¬ BadTime kv := by
    intro kv hkv hb
    rw [(setKVs_panic l.params _).2 ⟨kv, hkv, hb⟩] at h3
    cases h3
  rw [setKVs_read l.params _ he.2.1 hbad] at h3
  injection h3 with h3
  have leg : ∀ {k v}, imGet l.params k = some v → LegalBare v := fun hk => (he.2.2 _ (imGet_mem hk)).2
  have txt : ∀ {k s}, (match imGet l.params k with | some v => asString v | none => none) = some s → ∀ c ∈ s, Printable c := by
    intro k s hs
    cases hk : imGet l.params k with
    | none => rw [hk] at hs; cases hs
    | some v =>
      rw [hk] at hs
      have := leg hk
      cases v <;> simp [asString] at hs
      subst hs; exact this
  have num : ∀ {k t}, (match imGet l.params k with | some v => timeOf v | none => none) = some t → t.toNat < 10 ^ 15 := by
    intro k t ht
    cases hk : imGet l.params k with
    | none => rw [hk] at ht; cases ht
    | some v =>
      rw [hk] at ht
      have hl := leg hk
      cases v with
      | int n =>
        cases n with
        | ofNat n =>
          simp only [timeOf, Option.some.injEq] at ht
          subst ht
          have hn : n < 10 ^ 15 := hl
          rw [UInt64.toNat_ofNat']
          exact Nat.lt_of_le_of_lt (Nat.mod_le _ _) hn
        | negSucc n => cases ht
      | _ => cases ht
  have ids : ∀ i ∈ p.covered, WritableId i := by
    intro i hi
    obtain ⟨it, _, hit⟩ := forall₂_mem_right h1 i hi
    obtain ⟨it', hl, ho⟩ := ofStr_item hit
    have hpr := ofItem_printable hl ho
    refine { toIdRules := ofStr_rules hit, nameText := ?_, keyText := fun k hk => hpr.2 k (Or.inl hk), nameParam := fun k hk => hpr.2 k (Or.inr hk) }
    intro f hf
    have := hpr.1
    rw [hf] at this
    exact this
  refine { created := ?_, expires := ?_, nonce := ?_, alg := ?_, keyid := ?_, tag := ?_, ids := ids,
           distinct := (hasUnique_iff (fun i hi => labels_nodup (ids i hi).distinct)).1 h2 }
  all_goals
    intro s hs
    rw [← h3] at hs
    first | exact num hs | exact txt hs

end Verif.Repair
