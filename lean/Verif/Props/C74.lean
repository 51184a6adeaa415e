import Verif.Proofs.Weight
import Verif.Props.C65
/-!
C74 Exactly what survives being written and read: component identifiers, signature parameters, and the two header fields.
-/
namespace Verif
open Sfv Spec Grammar

/-! ### Identifiers -/

/-- Escaped characters in a parameter. -/
def paramSpecials : CParam → Nat
  | .key s => specials s
  | .name s => specials s
  | _ => 0

/-- Escaped characters in an identifier. -/
def idSpecials (i : CId) : Nat := specials (nameText i.name) + (i.params.map paramSpecials).sum

theorem param_wt {kv : Str × Bare} {p : CParam} (h : Wire.ParamOf kv p) :
    wt (';' :: p.disp) + paramSpecials p ≤ wt (serParam kv) := by
  cases h with
  | @sf v => simp [serParam, CParam.disp, paramSpecials, wt_cons]
  | @bs v => simp [serParam, CParam.disp, paramSpecials, wt_cons]
  | @tr v => simp [serParam, CParam.disp, paramSpecials, wt_cons]
  | @req v => simp [serParam, CParam.disp, paramSpecials, wt_cons]
  | @key s => simp [serParam, CParam.disp, paramSpecials, wt_cons, serBare, wt_escStr]; omega
  | @name s => simp [serParam, CParam.disp, paramSpecials, wt_cons, serBare, wt_escStr]; omega

theorem params_wt {ps : Params} {l : List CParam} (h : List.Forall₂ Wire.ParamOf ps l) :
    wt (cparamsDisp l) + (l.map paramSpecials).sum ≤ wt (serParams ps) := by
  rw [cparamsDisp_eq]
  induction h with
  | nil => simp
  | @cons kv p ps l h _ ih =>
    have := param_wt h
    simp only [List.flatMap_cons, wt_append, List.map_cons, List.sum_cons]
    show _ ≤ wt (serParam kv ++ serParams ps)
    rw [wt_append]; omega

theorem nameDisp (n : CName) : n.disp = '"' :: (nameText n ++ ['"']) := by cases n <;> rfl

theorem nameOf_text {t : Str} {n : CName} (h : Wire.NameOf t n) : nameText n = t := by
  cases h with
  | field => rfl
  | derived => exact (derivedText_eq _).symm

theorem idOf_wt {it : Item} {i : CId} (h : Wire.IdOf it i) : wt i.disp + idSpecials i ≤ wt (serItem it) := by
  obtain ⟨n, h1, h2, h3, _⟩ := h
  have := params_wt h3
  simp only [CId.disp, nameDisp, nameOf_text h2, serItem, h1, serBare, wt_append, wt_quote, wt_escStr, idSpecials, wt_nil]
  omega

theorem coveredId_wt {it : Item} {i : CId} (h : Wire.CoveredId it i) : wt i.disp + idSpecials i ≤ wt (serItem it) := by
  rcases h with h | ⟨_, t, ht, hq, _, rfl⟩
  · exact idOf_wt h
  · obtain ⟨hl, rfl⟩ := canonItem_iff.1 ht
    have : specials (serItem it) = 0 := specials_zero.2 (fun c hc => ⟨(plain_serItem hl hq c hc).2.1, (plain_serItem hl hq c hc).2.2⟩)
    simp [CId.disp, nameDisp, nameText, cparamsDisp_eq, idSpecials, this]

/-- An identifier that was read and needs no escapes is safe. -/
theorem safeId_of {s : Str} {i : CId} (h : CId.ofStr s = .ok i) (h0 : idSpecials i = 0) : SafeId i := by
  have hr := ofStr_rules h
  obtain ⟨it, hl, ho⟩ := ofStr_item h
  obtain ⟨p1, p2⟩ := ofItem_printable hl ho
  have z : ∀ p ∈ i.params, paramSpecials p = 0 := by
    have : (i.params.map paramSpecials).sum = 0 := by unfold idSpecials at h0; omega
    intro p hp
    exact List.sum_eq_zero_iff.1 this _ (List.mem_map_of_mem hp)
  have zn : specials (nameText i.name) = 0 := by unfold idSpecials at h0; omega
  exact { hr with
    nameText := fun f hf c hc => ⟨p1 c (by rw [hf]; exact hc), specials_zero.1 zn c (by rw [hf]; exact hc)⟩
    keyText := fun k hk c hc => ⟨p2 k (Or.inl hk) c hc, specials_zero.1 (z _ hk) c hc⟩
    nameParam := fun k hk c hc => ⟨p2 k (Or.inr hk) c hc, specials_zero.1 (z _ hk) c hc⟩ }

/-- C74: an identifier survives being written and read exactly if it is safe. -/
theorem C74_id (i : CId) : CId.ofStr i.disp = .ok i ↔ SafeId i := by
  refine ⟨fun h => safeId_of h ?_, ofStr_disp⟩
  obtain ⟨v, it, hv, hs, hi⟩ := (C65_id _ _).1 h
  rw [trimmed_iff, trim_disp] at hv; subst hv
  rcases hs with ⟨_, n, m, t, ht, e⟩ | ⟨_, hq, _⟩
  · have h1 := wt_item ht
    have h2 := idOf_wt hi
    have h3 := congrArg wt e
    simp only [wt_append] at h3
    omega
  · obtain ⟨u, hu⟩ := disp_shape i
    rw [hu] at hq; simp at hq

/-! ### Signature parameters -/

def textSpecials : Option Str → Nat
  | none => 0
  | some s => specials s

/-- Escaped characters in signature parameters. -/
def allSpecials (p : SigParams) : Nat :=
  (p.covered.map idSpecials).sum + (textSpecials p.nonce + textSpecials p.alg + textSpecials p.keyid + textSpecials p.tag)

theorem ids_wt {is : List Item} {l : List CId} (h : List.Forall₂ Wire.CoveredId is l) :
    wt (joinIds l) + (l.map idSpecials).sum ≤ wt (join [' '] (is.map serItem)) := by
  rw [joinIds_eq]
  have key : ∀ (l : List Str), wt (join [' '] l) = (l.map wt).sum := by
    intro l
    induction l with
    | nil => rfl
    | cons a t ih =>
      by_cases ht : t = []
      · subst ht; simp
      · rw [join_cons _ _ ht, wt_append, wt_append, ih]; simp
  rw [key, key]
  induction h with
  | nil => simp
  | cons h _ ih =>
    have := coveredId_wt h
    simp only [List.map_cons, List.sum_cons] at ih ⊢; omega

theorem pwt_append (a b : List (Str × Bare)) : pwt (a ++ b) = pwt a + pwt b := by simp [pwt]

theorem dispNum_wt (k : Str) (o : Option UInt64) : wt (dispNum k o) = pwt (kvNum k o) := by
  rw [dispNum_eq, wt_serParams]

theorem dispText_wt (k : Str) (o : Option Str) : wt (dispText k o) + textSpecials o = pwt (kvText k o) := by
  cases o with
  | none => rfl
  | some s => simp [dispText, textSpecials, kvText, pwt, serParam, serBare, wt_escStr, wt_cons]; omega

theorem paramsKV_sub {l : InnerList} {p : SigParams} (h : Wire.ParamsOf l p) : ∀ x ∈ paramsKV p, x ∈ l.params := by
  have num : ∀ {k : Str} {o : Option UInt64}, Wire.TimeOf l.params k o → ∀ x ∈ kvNum k o, x ∈ l.params := by
    intro k o ho x hx
    cases o with
    | none => cases hx
    | some t => simp only [kvNum, List.mem_singleton] at hx; subst hx; exact (ho.2 t).1 rfl
  have txt : ∀ {k : Str} {o : Option Str}, Wire.TextOf l.params k o → ∀ x ∈ kvText k o, x ∈ l.params := by
    intro k o ho x hx
    cases o with
    | none => cases hx
    | some t => simp only [kvText, List.mem_singleton] at hx; subst hx; exact (ho t).1 rfl
  intro x hx
  simp only [paramsKV, List.mem_append, or_assoc] at hx
  rcases hx with hx | hx | hx | hx | hx | hx
  · exact num h.created x hx
  · exact num h.expires x hx
  · exact txt h.nonce x hx
  · exact txt h.alg x hx
  · exact txt h.keyid x hx
  · exact txt h.tag x hx

theorem paramsKV_nodup (p : SigParams) : (paramsKV p).Nodup := by
  obtain ⟨c, e, n, a, k, t, ids⟩ := p
  cases c <;> cases e <;> cases n <;> cases a <;> cases k <;> cases t <;> simp [paramsKV, kvNum, kvText]

/-- Reading parameters from an inner list: the text form and one character for each escape are no heavier than the list. -/
theorem paramsOf_wt {l : InnerList} {p : SigParams} (h : Wire.ParamsOf l p) : wt p.disp + allSpecials p ≤ wt (serInner l) := by
  have h1 := ids_wt h.covered
  have h2 := pwt_mono (paramsKV_nodup p) (paramsKV_sub h)
  rw [← wt_serParams l.params] at h2
  simp only [paramsKV, pwt_append, ← dispNum_wt, ← dispText_wt] at h2
  unfold SigParams.disp serInner allSpecials
  rw [wt_cons (by decide), wt_cons (by decide), wt_append, wt_append, wt_cons (by decide), wt_cons (by decide)]
  simp only [wt_append]
  omega

theorem safeParams_of {l : InnerList} {p : SigParams} (hl : LegalEntry (.inner l)) (h : Wire.ParamsOf l p) (h0 : allSpecials p = 0) :
    SafeParams p := by
  unfold allSpecials at h0
  have hn : ∀ {k : Str} {o : Option UInt64}, Wire.TimeOf l.params k o → ∀ t, o = some t → t.toNat < 10 ^ 15 := by
    intro k o ho t ht
    have := (hl.2.2 _ ((ho.2 t).1 ht)).2
    simpa [LegalBare] using this
  have ht : ∀ {k : Str} {o : Option Str}, Wire.TextOf l.params k o → textSpecials o = 0 → ∀ s, o = some s → SafeText s := by
    intro k o ho hz s hs c hc
    refine ⟨(hl.2.2 _ ((ho s).1 hs)).2 c hc, ?_⟩
    subst hs
    exact specials_zero.1 hz c hc
  refine ⟨hn h.created, hn h.expires, ht h.nonce (by omega), ht h.alg (by omega), ht h.keyid (by omega), ht h.tag (by omega), ?_, h.distinct⟩
  intro i hi
  obtain ⟨it, hit, hc⟩ := forall₂_mem_right h.covered i hi
  refine safeId_of ((coveredId_iff (hl.1 it hit)).1 hc) ?_
  exact List.sum_eq_zero_iff.1 (show (p.covered.map idSpecials).sum = 0 by omega) _ (List.mem_map_of_mem hi)

/-- C74: signature parameters survive being written and read exactly if they are safe. -/
theorem C74_params (p : SigParams) : SigParams.ofStr p.disp = .ok p ↔ SafeParams p := by
  refine ⟨fun h => ?_, params_ofStr_disp⟩
  obtain ⟨l, ht, hp⟩ := (C65_params _ _).1 h
  have hl := parseList_legal ((parseList_iff _ _).2 ht) (.inner l) (by simp)
  refine safeParams_of hl hp ?_
  rcases ht with ⟨hn, _⟩ | ⟨n, t, a, hs, _, e⟩
  · cases hn
  · cases hs with
    | one hs =>
      have h1 := wt_inner hs
      have h2 := paramsOf_wt hp
      have h3 := congrArg wt e
      simp only [wt_append] at h3
      omega
    | cons _ _ _ hs => cases hs

/-- C74: which texts `set_nonce`, `set_keyid` and `set_tag` can take. -/
theorem C74_text (p : SigParams) (h : SafeParams p) (s : Str) :
    (SigParams.ofStr (p.setNonce s).disp = .ok (p.setNonce s) ↔ SafeText s) ∧
    (SigParams.ofStr (p.setKeyid s).disp = .ok (p.setKeyid s) ↔ SafeText s) ∧
    (SigParams.ofStr (p.setTag s).disp = .ok (p.setTag s) ↔ SafeText s) := by
  rw [C74_params, C74_params, C74_params]
  refine ⟨⟨fun h => h.nonce s rfl, fun hs => ?_⟩, ⟨fun h => h.keyid s rfl, fun hs => ?_⟩, ⟨fun h => h.tag s rfl, fun hs => ?_⟩⟩
  · exact { h with nonce := by rintro t ⟨⟩; exact hs }
  · exact { h with keyid := by rintro t ⟨⟩; exact hs }
  · exact { h with tag := by rintro t ⟨⟩; exact hs }

/-! ### The two header fields -/

theorem member_wt {b : List (Str × Entry)} {hs : List SigHeaders}
    (h : List.Forall₂ (fun (kv : Str × Entry) (h : SigHeaders) => h.name = kv.1 ∧ ∃ il, kv.2 = .inner il ∧ Wire.ParamsOf il h.params) b hs) :
    (hs.map (fun h => wt h.inputValue)).sum + (hs.map (fun h => allSpecials h.params)).sum ≤ mwt b := by
  induction h with
  | nil => simp
  | @cons kv h b hs hx _ ih =>
    obtain ⟨k, e⟩ := kv
    obtain ⟨h1, il, h2, h3⟩ := hx
    simp only at h1 h2
    subst h1 h2
    have := paramsOf_wt h3
    simp only [List.map_cons, List.sum_cons, mwt] at ih ⊢
    rw [serMember_other _ (by simp)]
    simp only [SigHeaders.inputValue, serEntry, wt_append, wt_equal] at this ih ⊢
    omega

theorem wt_commas (l : List Str) : wt (join (c! ", ") l) = (l.map wt).sum + (l.length - 1) := by
  induction l with
  | nil => rfl
  | cons a t ih =>
    by_cases ht : t = []
    · subst ht; simp
    · have := List.length_pos_iff.2 ht
      rw [join_cons _ _ ht, wt_append, wt_append, ih, show wt (c! ", ") = 1 from by decide]
      simp only [List.map_cons, List.sum_cons, List.length_cons]; omega

/-- C74: a list of signatures survives being written to Signature and Signature-Input, with a comma and a space between members,
and read from there exactly if the labels are distinct keys and the parameters are safe. -/
theorem C74_headers (hs : List SigHeaders) :
    SigHeaders.tryParse (join (c! ", ") (hs.map (·.signatureValue))) (join (c! ", ") (hs.map (·.inputValue))) =
      .ok (hs.map (fun h => (h.name, h))) ↔
    (∀ h ∈ hs, LegalKey h.name ∧ SafeParams h.params) ∧ (hs.map (·.name)).Nodup := by
  constructor
  · intro h
    obtain ⟨a, b, ha, hb, hA⟩ := (C65_headers _ _ _).1 h
    have hl := parseDict_legal ((parseDict_iff _ _).2 hb)
    have hf : List.Forall₂ (fun (kv : Str × Entry) (h : SigHeaders) => h.name = kv.1 ∧ ∃ il, kv.2 = .inner il ∧ Wire.ParamsOf il h.params) b hs := by
      have := List.forall₂_map_right_iff.1 hA.order
      exact this.imp (fun _ _ hx => ⟨hx.1, hx.2.2.2⟩)
    have hw := member_wt hf
    have hd := wt_dict hb
    rw [wt_commas, List.length_map, ← hf.length_eq, List.map_map] at hd
    have hz : (hs.map (fun h => allSpecials h.params)).sum = 0 := by
      simp only [Function.comp_def] at hd
      omega
    refine ⟨fun h hh => ?_, ?_⟩
    · obtain ⟨⟨k, e⟩, hkv, h1, il, h2, h3⟩ := forall₂_mem_right hf h hh
      simp only at h1 h2
      subst h1 h2
      have hk := hl.2 _ hkv
      exact ⟨hk.1, safeParams_of hk.2 h3 (List.sum_eq_zero_iff.1 hz _ (List.mem_map.2 ⟨h, hh, rfl⟩))⟩
    · rw [← forall₂_map_eq (f := Prod.fst) hf (fun _ _ hx => hx.1.symm)]
      exact hl.1
  · rintro ⟨h1, h2⟩
    exact tryParse_members (fun h hh => ⟨(h1 h hh).1, (h1 h hh).2⟩) h2

/-! ### Cases -/

-- safe and unsafe identifiers
example : SafeId ⟨.field (c! "cache-control"), [.key (c! "max-age")]⟩ := (C74_id _).1 (by decide)
example : ¬ SafeId ⟨.field (c! "a\"b"), []⟩ := fun h => absurd ((C74_id _).2 h) (by decide)
-- a field named like a derived component, and a parameter where it may not stand
example : ¬ SafeId ⟨.field (c! "@method"), []⟩ := fun h => absurd ((C74_id _).2 h) (by decide)
example : ¬ SafeId ⟨.derived .path, [.sf]⟩ := fun h => absurd ((C74_id _).2 h) (by decide)

def c74p : SigParams := { created := some 1618884473, keyid := some (c! "test-key"), covered := [⟨.derived .method, []⟩, ⟨.field (c! "date"), [.bs]⟩] }
theorem c74p_safe : SafeParams c74p := (C74_params _).1 (by decide)
-- a text that can be set, one with an injected parameter, one with a character that no string holds
example : SigParams.ofStr (c74p.setNonce (c! "b3k2pp5k7z-50gnwp.yemd")).disp = .ok (c74p.setNonce (c! "b3k2pp5k7z-50gnwp.yemd")) :=
  (C74_text _ c74p_safe _).1.2 (by decide)
example : SigParams.ofStr (c74p.setTag (c! "a\";alg=\"x")).disp ≠ .ok (c74p.setTag (c! "a\";alg=\"x")) :=
  fun h => absurd ((C74_text _ c74p_safe _).2.2.1 h) (by decide)
example : SigParams.ofStr (c74p.setKeyid ['é']).disp ≠ .ok (c74p.setKeyid ['é']) :=
  fun h => absurd ((C74_text _ c74p_safe _).2.1.1 h) (by decide)
-- the same text as other parameters, read as those
example : SigParams.ofStr (c74p.setTag (c! "a\";alg=\"x")).disp = .ok { c74p with tag := some (c! "a"), alg := some (c! "x") } := by decide
-- two signatures in one message
def c74h : List SigHeaders :=
  [⟨c! "sig1", [1, 2], { tag := some (c! "a"), covered := [] }⟩, ⟨c! "sig2", [3], { covered := [⟨.derived .path, []⟩] }⟩]
example : join (c! ", ") (c74h.map (·.signatureValue)) = c! "sig1=:AQI=:, sig2=:Aw==:" ∧
    join (c! ", ") (c74h.map (·.inputValue)) = c! "sig1=();tag=\"a\", sig2=(\"@path\")" ∧
    (∀ h ∈ c74h, LegalKey h.name ∧ SafeParams h.params) ∧ (c74h.map (·.name)).Nodup := by
  refine ⟨by decide, by decide, ?_, by decide⟩
  intro h hh
  simp only [c74h, List.mem_cons, List.not_mem_nil, or_false] at hh
  rcases hh with rfl | rfl
  · exact ⟨by decide, (C74_params _).1 (by decide)⟩
  · exact ⟨by decide, (C74_params _).1 (by decide)⟩

end Verif
