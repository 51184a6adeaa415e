import Verif.Proofs.WireParams
import Verif.Spec.Verify
import Verif.Props.C58
import Verif.Props.C64
/-! Values of components and the signed text, against `Spec/Wire.lean`. -/
namespace Verif
open Sfv Spec Grammar

theorem commas_eq (ts : List Str) : Wire.commas ts = join (c! ", ") ts := intercalate_join _ ts

theorem wireCarries_iff {h : Headers} {l : List (Str × SigHeaders)} : Wire.Carries h l ↔ Carries h l := by
  unfold Wire.Carries Carries
  constructor
  · rintro ⟨ts, us, h1, h2, h3, h4, a, b, ha, hb, hab⟩
    rw [commas_eq] at ha hb
    have ha := (C63_dict _ _).2 ha
    have hb := (C63_dict _ _).2 hb
    exact ⟨ts, us, a, b, linesText_iff.1 h1, linesText_iff.1 h2, h3, h4, ha, hb, (agrees_iff (parseDict_legal hb)).1 hab⟩
  · rintro ⟨ts, us, a, b, h1, h2, h3, h4, ha, hb, hab⟩
    refine ⟨ts, us, linesText_iff.2 h1, linesText_iff.2 h2, h3, h4, a, b, ?_, ?_, (agrees_iff (parseDict_legal hb)).2 hab⟩
    · rw [commas_eq]; exact (C63_dict _ _).1 ha
    · rw [commas_eq]; exact (C63_dict _ _).1 hb

/-! ### Fields -/

theorem wireCanon_iff {v t : Str} : Wire.Canon v t ↔ Canon v t := by
  unfold Wire.Canon Canon
  constructor
  · rintro (⟨l, h1, h2⟩ | ⟨h1, d, h2, h3⟩)
    · exact Or.inl ⟨l, (C63_list _ _).2 h1, ((C64_list _ _).1 h2).2⟩
    · refine Or.inr ⟨(C63_refused v).1.2 h1, d, (C63_dict _ _).2 h2, ((C64_dict _ _).1 h3).2⟩
  · rintro (⟨l, h1, h2⟩ | ⟨h1, d, h2, h3⟩)
    · exact Or.inl ⟨l, (C63_list _ _).1 h1, (C64_list _ _).2 ⟨parseList_legal h1, h2⟩⟩
    · refine Or.inr ⟨(C63_refused v).1.1 h1, d, (C63_dict _ _).1 h2, (C64_dict _ _).2 ⟨parseDict_legal h2, h3⟩⟩

theorem wireMembers_iff {k : Str} {vs out : List Str} : Wire.Members k vs out ↔ Members k vs out := by
  constructor
  · intro h
    induction h with
    | nil => exact ⟨[], .nil, rfl⟩
    | @has v vs d e t ts h1 h2 h3 _ ih =>
      obtain ⟨ds, h4, rfl⟩ := ih
      have h1 := (C63_dict _ _).2 h1
      refine ⟨d :: ds, .cons h1 h4, ?_⟩
      rw [List.filterMap_cons, ← imGet_lookup, imGet_of_mem (parseDict_legal h1).1 h2, (canonEntry_iff.1 h3).2]
      rfl
    | @lacks v vs d ts h1 h2 _ ih =>
      obtain ⟨ds, h4, rfl⟩ := ih
      refine ⟨d :: ds, .cons ((C63_dict _ _).2 h1) h4, ?_⟩
      rw [List.filterMap_cons, ← imGet_lookup, imGet_none.2 h2]
      rfl
  · rintro ⟨ds, h, rfl⟩
    induction h with
    | nil => exact .nil
    | @cons v d vs ds h1 _ ih =>
      rw [List.filterMap_cons, ← imGet_lookup]
      cases hg : imGet d k with
      | none => exact .lacks ((C63_dict _ _).1 h1) (imGet_none.1 hg) ih
      | some e =>
        have hm := imGet_mem hg
        exact .has ((C63_dict _ _).1 h1) hm (canonEntry_iff.2 ⟨((parseDict_legal h1).2 _ hm).2, rfl⟩) ih

theorem wireApplied_iff {ps : List CParam} {vs out : List Str} : Wire.Applied ps vs out ↔ Applied ps vs out := by
  constructor
  · intro h
    induction h with
    | done => exact .done _
    | req _ ih => exact .req ih
    | sf h _ ih => exact .sf (h.imp (fun _ _ => wireCanon_iff.1)) ih
    | key h _ ih => exact .key (wireMembers_iff.1 h) ih
  · intro h
    induction h with
    | done => exact .done
    | req _ ih => exact .req ih
    | sf h _ ih => exact .sf (h.imp (fun _ _ => wireCanon_iff.2)) ih
    | key h _ ih => exact .key (wireMembers_iff.2 h) ih

theorem wireField_iff {h : Headers} {n : Str} {ps : List CParam} {v : Str} : Wire.FieldValue h n ps v ↔ FieldValue h n ps v := by
  unfold Wire.FieldValue FieldValue
  simp only [linesText_iff, wireApplied_iff, commas_eq]

/-! ### Requests and responses -/

theorem wirePieces_iff {q : Str} {ps : List Str} (hne : ps ≠ []) : Wire.Pieces q ps ↔ ps = splitOn '&' q := by
  constructor
  · rintro ⟨rfl, h⟩
    induction ps with
    | nil => exact absurd rfl hne
    | cons p ps ih =>
      cases ps with
      | nil => simp only [List.intercalate_singleton]; rw [splitOn_no _ (h p (by simp))]
      | cons p' ps =>
        rw [show List.intercalate ['&'] (p :: p' :: ps) = p ++ '&' :: List.intercalate ['&'] (p' :: ps) from by
          simp [List.intercalate], splitOn_append _ _ (h p (by simp)), ← ih (by simp) (fun x hx => h x (by simp [hx]))]
  · rintro rfl
    constructor
    · rw [intercalate_join]; exact (join_splitOn q).symm
    · intro p hp
      exact splitOn_sep q p hp
where
  join_splitOn (q : Str) : join ['&'] (splitOn '&' q) = q := by
    induction q with
    | nil => rfl
    | cons c t ih =>
      by_cases hc : c = '&'
      · subst hc
        have := splitOn_append '&' (a := []) t (by simp)
        simp only [List.nil_append] at this
        rw [this]
        cases hs : splitOn '&' t with
        | nil => exact absurd hs (splitOn_ne_nil _ _)
        | cons a l => rw [hs] at ih; simp only [join, List.nil_append, ih]; rfl
      · cases hs : splitOn '&' t with
        | nil => exact absurd hs (splitOn_ne_nil _ _)
        | cons a l =>
          rw [hs] at ih
          have : splitOn '&' (c :: t) = (c :: a) :: l := by simp only [splitOn, if_neg hc, hs]
          rw [this]
          cases l with
          | nil => simp only [join] at ih ⊢; rw [ih]
          | cons b l => simp only [join, List.cons_append] at ih ⊢; rw [ih]
  splitOn_sep (q : Str) : ∀ p ∈ splitOn '&' q, '&' ∉ p := by
    induction q with
    | nil => intro p hp; simp [splitOn] at hp; subst hp; simp
    | cons c t ih =>
      by_cases hc : c = '&'
      · subst hc
        have := splitOn_append '&' (a := []) t (by simp)
        simp only [List.nil_append] at this
        rw [this]
        intro p hp
        rcases List.mem_cons.1 hp with rfl | hp
        · simp
        · exact ih p hp
      · cases hs : splitOn '&' t with
        | nil => exact absurd hs (splitOn_ne_nil _ _)
        | cons a l =>
          have : splitOn '&' (c :: t) = (c :: a) :: l := by simp only [splitOn, if_neg hc, hs]
          rw [this]
          rw [hs] at ih
          intro p hp
          rcases List.mem_cons.1 hp with rfl | hp
          · rw [List.mem_cons, not_or]; exact ⟨Ne.symm hc, ih a (by simp)⟩
          · exact ih p (by simp [hp])

theorem wireQuery_iff {n : Str} {ps vs : List Str} : Wire.QueryValues n ps vs ↔ vs = queryValues n (ps.filter (· ≠ [])) := by
  have step : ∀ p ps, queryValues n ((p :: ps).filter (· ≠ [])) =
      (if (n ++ ['=']).isPrefixOf p ∧ '=' ∉ n then [p.drop (n.length + 1)] else []) ++ queryValues n (ps.filter (· ≠ [])) := by
    intro p ps
    by_cases hp : p = []
    · subst hp
      rw [List.filter_cons_of_neg (by simp), if_neg, List.nil_append]
      rintro ⟨h, _⟩
      have := List.isPrefixOf_iff_prefix.1 h
      simp at this
    · rw [List.filter_cons_of_pos (by simpa using hp)]
      unfold queryValues
      rw [List.filterMap_cons]
      split
      · rename_i h
        split at h
        · cases h
        · rename_i hc; rw [if_neg hc]; rfl
      · rename_i w h
        split at h
        · rename_i hc; injection h with h; subst h; rw [if_pos hc]; rfl
        · cases h
  have pre : ∀ p, (n ++ ['=']).isPrefixOf p = true ↔ ∃ v, p = n ++ '=' :: v := by
    intro p
    rw [List.isPrefixOf_iff_prefix]
    constructor
    · rintro ⟨v, rfl⟩; exact ⟨v, by simp⟩
    · rintro ⟨v, rfl⟩; exact ⟨v, by simp⟩
  constructor
  · intro h
    induction h with
    | nil => rfl
    | @hit v ps vs hn _ ih =>
      rw [step, if_pos ⟨(pre _).2 ⟨v, rfl⟩, hn⟩, ← ih]
      have : (n ++ '=' :: v).drop (n.length + 1) = v := by
        rw [show n ++ '=' :: v = (n ++ ['=']) ++ v from by simp]
        exact List.drop_left' (by simp)
      rw [this]; rfl
    | @miss p ps vs hn _ ih =>
      rw [step, if_neg, ← ih]
      · rfl
      · rintro ⟨h1, h2⟩
        obtain ⟨v, hv⟩ := (pre _).1 h1
        exact h2 (hn v hv)
  · rintro rfl
    induction ps with
    | nil => exact .nil
    | cons p ps ih =>
      rw [step]
      split
      · rename_i hc
        obtain ⟨v, rfl⟩ := (pre _).1 hc.1
        have : (n ++ '=' :: v).drop (n.length + 1) = v := by
          rw [show n ++ '=' :: v = (n ++ ['=']) ++ v from by simp]
          exact List.drop_left' (by simp)
        rw [this]
        exact .hit hc.2 ih
      · rename_i hc
        refine .miss ?_ ih
        intro v hv
        by_contra hn
        exact hc ⟨(pre _).2 ⟨v, hv⟩, hn⟩

theorem uriText_eq (u : Uri) : Wire.uriText u = u.toStr := by
  obtain ⟨s, a, p, q⟩ := u
  unfold Wire.uriText Uri.toStr Wire.queryText Uri.path Uri.pqData
  cases s <;> cases a <;> cases q <;> cases p <;> simp

theorem targetText_eq (m : Str) (u : Uri) : Wire.targetText m u =
    if m = c! "CONNECT" then u.authority.getD [] else if m = c! "OPTIONS" then c! "*" else u.pathAndQuery.getD [] := by
  unfold Wire.targetText
  split
  · rfl
  split
  · rfl
  have hq : u.pathData ++ Wire.queryText u = u.pqData := by
    unfold Wire.queryText Uri.pqData
    cases u.query <;> simp
  rw [hq]
  unfold Uri.pathAndQuery
  by_cases h : u.scheme = none ∧ u.authority ≠ none
  · rw [if_pos h, if_neg]
    · rfl
    · obtain ⟨h1, h2⟩ := h
      cases ha : u.authority with
      | none => exact absurd ha h2
      | some a => simp [h1]
  · have hc : u.scheme.isSome = true ∨ u.authority.isNone = true := by
      cases hs : u.scheme with
      | some s => simp
      | none =>
        cases ha : u.authority with
        | none => simp
        | some a => exact absurd ⟨hs, by simp [ha]⟩ h
    rw [if_neg h, if_pos hc]
    cases hp : u.pqData with
    | nil => simp
    | cons c t => simp only [List.head?_cons, Option.some.injEq, Option.getD_some]

theorem wireSigParams_iff {h : Headers} {v : Str} : Wire.SigParamsValue h v ↔ RequestValue.SigParamsValue h v := by
  unfold Wire.SigParamsValue RequestValue.SigParamsValue
  simp only [linesOf_eq, lineText_iff, trimmed_iff]
  constructor
  · rintro ⟨l, t, k, h1, h2, h3, h4⟩; exact ⟨l, t, k, h1, Or.inl h2, h3.symm, h4⟩
  · rintro ⟨l, t, k, h1, h2 | ⟨_, rfl⟩, h3, h4⟩
    · exact ⟨l, t, k, h1, h2, h3.symm, h4⟩
    · have : trim [] = ([] : Str) := rfl
      rw [this] at h3
      simp at h3

theorem nameOf_find {ps : List CParam} {n : Str} :
    ps.findSome? CParam.nameOf = some n ↔ ∃ l1 l2, ps = l1 ++ .name n :: l2 ∧ ∀ x, CParam.name x ∉ l1 := by
  induction ps with
  | nil => simp
  | cons p ps ih =>
    rw [List.findSome?_cons]
    cases hp : CParam.nameOf p with
    | some m =>
      have hpm : p = .name m := by cases p <;> simp [CParam.nameOf] at hp; rw [hp]
      subst hpm
      simp only [Option.some.injEq]
      constructor
      · rintro rfl; exact ⟨[], ps, rfl, by simp⟩
      · rintro ⟨l1, l2, h1, h2⟩
        cases l1 with
        | nil => injection h1 with h1 _; injection h1
        | cons x l1 => injection h1 with h1 _; subst h1; exact absurd (by simp) (h2 m)
    | none =>
      simp only
      rw [ih]
      have hpn : ∀ x, p ≠ .name x := by rintro x rfl; simp [CParam.nameOf] at hp
      constructor
      · rintro ⟨l1, l2, rfl, h2⟩
        exact ⟨p :: l1, l2, rfl, fun x hx => by
          rcases List.mem_cons.1 hx with hx | hx
          · exact hpn x hx.symm
          · exact h2 x hx⟩
      · rintro ⟨l1, l2, h1, h2⟩
        cases l1 with
        | nil => injection h1 with h1 _; exact absurd h1 (hpn n)
        | cons x l1 =>
          injection h1 with _ h1
          exact ⟨l1, l2, h1, fun y hy => h2 y (by simp [hy])⟩

theorem wireRequest_iff {r : Request} {d : Derived} {ps : List CParam} {v : Str} :
    Wire.RequestValue r d ps v ↔ RequestValue r d ps v := by
  cases d with
  | method => exact Iff.rfl
  | authority => exact Iff.rfl
  | scheme => exact Iff.rfl
  | query => exact Iff.rfl
  | status => exact Iff.rfl
  | targetUri => simp only [Wire.RequestValue, RequestValue, uriText_eq]
  | requestTarget => simp only [Wire.RequestValue, RequestValue, targetText_eq]
  | signatureParams => exact wireSigParams_iff
  | path =>
    simp only [Wire.RequestValue, RequestValue]
    have : (if r.uri.pathData = [] then c! "/" else r.uri.pathData) = if r.uri.path = [] then c! "/" else r.uri.path := by
      unfold Uri.path
      by_cases hp : r.uri.pathData = []
      · by_cases hc : r.uri.pqData ≠ [] ∨ r.uri.scheme.isSome = true
        · simp [hp, hc]
        · simp only [if_neg hc, if_pos hp]; rfl
      · have hc : r.uri.pqData ≠ [] := by unfold Uri.pqData; cases r.uri.query <;> simp [hp]
        simp [hp, hc]
    rw [this]
  | queryParam =>
    simp only [Wire.RequestValue, RequestValue, nameOf_find, pieces]
    constructor
    · rintro ⟨n, l1, l2, pcs, vs, h1, h2, h3, ⟨p, hp, hpn⟩, h5, h6⟩
      have hpc := (wirePieces_iff (List.ne_nil_of_mem hp)).1 h3
      refine ⟨n, ⟨l1, l2, h1, h2⟩, ?_, ?_⟩
      · rw [← hpc]; exact List.ne_nil_of_mem (List.mem_filter.2 ⟨hp, by simpa using hpn⟩)
      · rw [← hpc, h6, commas_eq, wireQuery_iff.1 h5]
    · rintro ⟨n, ⟨l1, l2, h1, h2⟩, h3, h4⟩
      refine ⟨n, l1, l2, _, _, h1, h2, (wirePieces_iff (splitOn_ne_nil '&' _)).2 rfl, ?_, wireQuery_iff.2 rfl, ?_⟩
      · obtain ⟨p, hp⟩ := List.exists_mem_of_ne_nil _ h3
        have := List.mem_filter.1 hp
        exact ⟨p, this.1, by simpa using this.2⟩
      · rw [h4, commas_eq]

theorem wireResponse_iff {s : Response} {d : Derived} {v : Str} : Wire.ResponseValue s d v ↔ ResponseValue s d v := by
  cases d with
  | status => simp only [Wire.ResponseValue, ResponseValue, decimal_eq]
  | signatureParams => exact wireSigParams_iff
  | _ => exact Iff.rfl

theorem wireValueIn_iff {m : Msg} {i : CId} {v : Str} : Wire.ValueIn m i v ↔ ValueIn m i v := by
  obtain ⟨n, ps⟩ := i
  unfold Wire.ValueIn ValueIn
  cases n with
  | field f => cases m <;> exact wireField_iff
  | derived d =>
    cases m with
    | req r => simp only [wireRequest_iff, DerivedParams]
    | res s => simp only [wireResponse_iff]

theorem wireHasValue_iff {m : Msg} {rf : Option Request} {i : CId} {v : Str} : Wire.HasValue m rf i v ↔ HasValue m rf i v := by
  unfold Wire.HasValue HasValue
  simp only [wireValueIn_iff]
  by_cases h : CParam.req ∈ i.params
  · simp [h]
  · simp [h]

/-! ### The signed text -/

theorem wireLines_iff {m : Msg} {rf : Option Request} {ids : List CId} {t : Str} :
    Wire.Lines m rf ids t ↔ ∃ vs, List.Forall₂ (HasValue m rf) ids vs ∧
      t = (List.zipWith (fun i v => i.disp ++ c! ": " ++ v ++ c! "\n") ids vs).flatten := by
  constructor
  · intro h
    induction h with
    | nil => exact ⟨[], .nil, rfl⟩
    | @cons i is v t h1 _ ih =>
      obtain ⟨vs, h2, rfl⟩ := ih
      refine ⟨v :: vs, .cons (wireHasValue_iff.1 h1) h2, ?_⟩
      rw [List.zipWith_cons_cons, List.flatten_cons, C58_id_text]
  · rintro ⟨vs, h, rfl⟩
    induction h with
    | nil => exact .nil
    | cons h1 _ ih =>
      rw [List.zipWith_cons_cons, List.flatten_cons, C58_id_text]
      exact .cons (wireHasValue_iff.2 h1) ih

theorem wireBaseOf_iff {m : Msg} {rf : Option Request} {p : SigParams} {text : Str} : Wire.BaseOf m rf p text ↔ BaseOf m rf p text := by
  unfold Wire.BaseOf BaseOf baseText
  simp only [wireLines_iff]
  constructor
  · rintro ⟨_, ⟨vs, h1, rfl⟩, rfl⟩; exact ⟨vs, h1, by rw [C58_params_text]⟩
  · rintro ⟨vs, h1, rfl⟩; exact ⟨_, ⟨vs, h1, rfl⟩, by rw [C58_params_text]⟩

theorem wireForKey_iff {id : Option Str} {h : SigHeaders} : Wire.ForKey id h ↔ ForKey id h := by
  unfold Wire.ForKey ForKey
  cases id with
  | none => simp
  | some i => simp [eq_comm]

theorem wireInTime_iff {now : UInt64} {h : SigHeaders} : Wire.InTime now h ↔ InTime now h := Iff.rfl

theorem wireCandidate_iff {m : Msg} {rf : Option Request} {id : Option Str} {h : SigHeaders} :
    Wire.Candidate m rf id h ↔ Candidate m rf id h := by
  unfold Wire.Candidate Candidate
  simp only [wireBaseOf_iff, wireForKey_iff]

theorem wireAccepts_iff {now : UInt64} {m : Msg} {rf : Option Request} {k : VerifyingKey} {id : Option Str} {h : SigHeaders} :
    Wire.Checked now m rf k id h (.ok ()) ↔ Accepts now m rf k id h := by
  unfold Wire.Checked Accepts
  simp only [wireBaseOf_iff, wireForKey_iff, wireInTime_iff]

theorem wireCrashes_iff {now : UInt64} {m : Msg} {rf : Option Request} {k : VerifyingKey} {id : Option Str} {h : SigHeaders} :
    Wire.Checked now m rf k id h .panic ↔ Crashes now m rf k id h := by
  unfold Wire.Checked Crashes
  simp only [wireBaseOf_iff, wireForKey_iff, wireInTime_iff]

end Verif
