import Verif.Props.C74
import Verif.Props.C73
import Verif.Props.C08
/-! The base of RFC 9421 and the base of the library, read line by line. -/
namespace Verif
namespace Rfc
open Sfv Spec Rfc9421

/-! ### Values of the RFC have no line break -/

theorem strip_oneLine {t : Str} (h : OneLine t) : OneLine (strip t) :=
  oneLine_sub (fun _ hc => (strip_sublist t).subset hc) h

theorem combined_oneLine {ts : List Str} (h : ∀ t ∈ ts, OneLine t) : OneLine (combined ts) := by
  unfold combined
  rw [intercalate_eq]
  refine oneLine_join (by decide) ?_
  intro a ha
  obtain ⟨t, ht, rfl⟩ := List.mem_map.1 ha
  exact strip_oneLine (h t ht)

theorem structured_oneLine {k : Kind} {s v : Str} (h : structured k s = some v) : OneLine v := by
  cases k with
  | list =>
    obtain ⟨l, hl, hs⟩ := Option.bind_eq_some_iff.1 h
    unfold serList at hs
    split at hs
    · cases hs
    · injection hs with hs; subst hs
      refine oneLine_join (by decide) ?_
      intro a ha
      obtain ⟨e, he, rfl⟩ := List.mem_map.1 ha
      exact printable_oneLine (serEntry_printable (parseList_legal hl e he))
  | dict =>
    obtain ⟨l, hl, hs⟩ := Option.bind_eq_some_iff.1 h
    unfold serDict at hs
    split at hs
    · cases hs
    · injection hs with hs; subst hs
      refine oneLine_join (by decide) ?_
      intro a ha
      obtain ⟨e, he, rfl⟩ := List.mem_map.1 ha
      have := (parseDict_legal hl).2 e he
      exact printable_oneLine (serMember_printable this.1 this.2)
  | item =>
    obtain ⟨i, hi, rfl⟩ := Option.map_eq_some_iff.1 h
    exact printable_oneLine (serItem_printable (parseItemTop_legal hi))

theorem member_oneLine {k s v : Str} (h : member k s = some v) : OneLine v := by
  obtain ⟨e, he, rfl⟩ := Option.map_eq_some_iff.1 h
  obtain ⟨d, hd, hl⟩ := Option.bind_eq_some_iff.1 he
  exact printable_oneLine (serEntry_printable ((parseDict_legal hd).2 _ (Verif.lookup_mem hl)).2)

theorem lowerCase_oneLine {s : Str} (h : OneLine s) : OneLine (lowerCase s) := oneLine_map (fun _ => toLower_ne_nl) h

theorem rfcField_oneLine {c : Ctx} {h : Headers} {name : Str} {w : Wants} {v : Str} (hv : Rfc9421.fieldValue c h name w = some v) : OneLine v := by
  unfold Rfc9421.fieldValue at hv
  simp only at hv
  split at hv
  · cases hv
  split at hv
  · split at hv
    · cases hv
    · injection hv with hv; subst hv
      rw [intercalate_eq]
      refine oneLine_join (by decide) ?_
      intro a ha
      obtain ⟨l, _, rfl⟩ := List.mem_map.1 ha
      refine oneLine_append (oneLine_append (by decide) ?_) (by decide)
      rw [← Base64.encode_eq_spec]
      exact printable_oneLine (encode_printable _)
  · obtain ⟨ts, hts, hv⟩ := Option.bind_eq_some_iff.1 hv
    have hl := allSome_texts hts
    split at hv
    · exact member_oneLine hv
    split at hv
    · obtain ⟨k, _, hv⟩ := Option.bind_eq_some_iff.1 hv
      exact structured_oneLine hv
    · injection hv with hv; subst hv
      refine combined_oneLine ?_
      intro t ht
      obtain ⟨l, _, e⟩ := forall₂_mem_right hl t ht
      exact hvToStr_oneLine e

theorem target_oneLine {c : Ctx} (hc : OneLine c.scheme) {r : Request} (hr : WfRequest r) {sa : Str × Str} (h : target c r = some sa) :
    OneLine sa.1 ∧ OneLine sa.2 := by
  unfold target at h
  split at h
  · rename_i s a h1 h2
    injection h with h; subst h
    exact ⟨hr.uri.scheme _ h1, hr.uri.authority _ h2⟩
  · rename_i a h1 h2
    injection h with h; subst h
    exact ⟨hc, hr.uri.authority _ h2⟩
  · split at h
    · obtain ⟨t, ht, rfl⟩ := Option.map_eq_some_iff.1 h
      exact ⟨hc, strip_oneLine (hvToStr_oneLine ht)⟩
    · cases h
  · cases h

theorem pathOf_oneLine {u : Uri} (h : OneLineUri u) : OneLine (pathOf u) := by
  unfold pathOf; split
  · decide
  · exact h.path

theorem queryOf_oneLine {u : Uri} (h : OneLineUri u) : OneLine (queryOf u) := by
  unfold queryOf; split
  · rename_i q hq; exact oneLine_cons (by decide) (h.query _ hq)
  · exact oneLine_nil

theorem authority_oneLine {s a v : Str} (ha : OneLine a) (h : Rfc9421.authority s a = some v) : OneLine v := by
  unfold Rfc9421.authority at h
  split at h
  · cases h
  split at h
  · injection h with h; subst h
    refine lowerCase_oneLine ?_
    split
    · exact oneLine_sub (fun _ hc => List.mem_of_mem_take hc) ha
    · exact ha
  · injection h with h; subst h; exact lowerCase_oneLine ha

theorem requestTarget_oneLine {r : Request} (hr : WfRequest r) {v : Str} (h : requestTarget r = some v) : OneLine v := by
  have hp := pathOf_oneLine hr.uri
  have hq := queryOf_oneLine hr.uri
  unfold requestTarget at h
  split at h
  · rename_i h1 h2
    injection h with h; subst h
    exact oneLine_append (oneLine_append (oneLine_append (oneLine_append (hr.uri.scheme _ h1) (by decide)) (hr.uri.authority _ h2)) hp) hq
  · rename_i h2
    split at h
    · injection h with h; subst h; exact hr.uri.authority _ h2
    · cases h
  · injection h with h; subst h; exact oneLine_append hp hq
  · cases h

theorem rfcRequest_oneLine {c : Ctx} (hc : OneLine c.scheme) {r : Request} (hr : WfRequest r) {name : Str} {w : Wants} {v : Str}
    (h : Rfc9421.requestValue c r name w = some v) : OneLine v := by
  have hp := pathOf_oneLine hr.uri
  have hq := queryOf_oneLine hr.uri
  unfold Rfc9421.requestValue at h
  split at h
  · cases h
  split at h
  · obtain ⟨n, _, h⟩ := Option.bind_eq_some_iff.1 h
    unfold queryParam at h
    split at h
    · injection h with h; subst h
      exact printable_oneLine (safe_printable (formEncode_safe _))
    · cases h
  split at h
  · cases h
  split at h
  · injection h with h; subst h; exact hr.method
  split at h
  · obtain ⟨sa, hs, rfl⟩ := Option.map_eq_some_iff.1 h
    obtain ⟨h1, h2⟩ := target_oneLine hc hr hs
    exact oneLine_append (oneLine_append (oneLine_append (oneLine_append h1 (by decide)) h2) hp) hq
  split at h
  · obtain ⟨sa, hs, h⟩ := Option.bind_eq_some_iff.1 h
    exact authority_oneLine (target_oneLine hc hr hs).2 h
  split at h
  · obtain ⟨sa, hs, rfl⟩ := Option.map_eq_some_iff.1 h
    exact lowerCase_oneLine (target_oneLine hc hr hs).1
  split at h
  · exact requestTarget_oneLine hr h
  split at h
  · injection h with h; subst h; exact hp
  split at h
  · injection h with h; subst h; exact oneLine_cons (by decide) (oneLine_getD hr.uri.query)
  · cases h

theorem rfcValueIn_oneLine {c : Ctx} (hc : OneLine c.scheme) {m : Msg} (hm : WfMsg m) {name : Str} {w : Wants} {v : Str}
    (h : Rfc9421.valueIn c m name w = some v) : OneLine v := by
  unfold Rfc9421.valueIn at h
  split at h
  · cases m with
    | req r => exact rfcRequest_oneLine hc hm h
    | res s =>
      simp only at h
      unfold Rfc9421.responseValue at h
      split at h
      · cases h
      split at h
      · injection h with h; subst h; rw [decimal_eq]; exact digits_oneLine _
      · cases h
  split at h
  · exact rfcField_oneLine h
  · cases h

theorem rfcValue_oneLine {c : Ctx} (hc : OneLine c.scheme) {m : Msg} {rf : Option Request} (hm : WfMsg m)
    (hf : ∀ r, rf = some r → WfRequest r) {i : Item} {v : Str} (h : value c m rf i = some v) : OneLine v := by
  unfold value at h
  split at h
  · obtain ⟨w, _, h⟩ := Option.bind_eq_some_iff.1 h
    split at h
    · split at h
      · rename_i r _; exact rfcValueIn_oneLine hc (m := .req r) (hf r rfl) h
      · cases h
    · exact rfcValueIn_oneLine hc hm h
  · cases h

/-! ### The lines of the base of the RFC -/

theorem splitOn_rfc (ls : List (Str × Str)) (last : Str) (h : ∀ x ∈ ls, OneLine x.1 ∧ OneLine x.2) (hl : OneLine last) :
    splitOn '\n' ((ls.map (fun x => x.1 ++ c! ": " ++ x.2 ++ c! "\n")).flatten ++ last) = ls.map (fun x => x.1 ++ c! ": " ++ x.2) ++ [last] := by
  induction ls with
  | nil => exact splitOn_no _ hl
  | cons x t ih =>
    have hx := h x (by simp)
    have ih := ih (fun y hy => h y (by simp [hy]))
    simp only [List.map_cons, List.flatten_cons, List.cons_append]
    rw [← ih, List.append_assoc]
    rw [show (x.1 ++ c! ": " ++ x.2 ++ c! "\n") ++ ((t.map (fun x => x.1 ++ c! ": " ++ x.2 ++ c! "\n")).flatten ++ last) =
      (x.1 ++ c! ": " ++ x.2) ++ '\n' :: ((t.map (fun x => x.1 ++ c! ": " ++ x.2 ++ c! "\n")).flatten ++ last) by simp]
    exact splitOn_append _ _ (oneLine_append (oneLine_append hx.1 (by decide)) hx.2)

/-- A base of the RFC in lines. -/
theorem base_lines {c : Ctx} {m : Msg} {rf : Option Request} {l : InnerList} {t : Str} (h : base c m rf l = some t) :
    l.items.Pairwise (fun i j => ¬ Same i j) ∧ ∃ vs, List.Forall₂ (fun i v => value c m rf i = some v) l.items vs ∧
      t = ((List.zip l.items vs).map (fun x => serItem x.1 ++ c! ": " ++ x.2 ++ c! "\n")).flatten ++ (c! "\"@signature-params\": " ++ serInner l) := by
  unfold base at h
  split at h
  · rename_i hp
    refine ⟨hp, ?_⟩
    obtain ⟨ls, hls, rfl⟩ := Option.map_eq_some_iff.1 h
    replace hls := allSome_iff.1 hls
    rw [List.append_assoc]
    generalize c! "\"@signature-params\": " ++ serInner l = last
    clear h hp
    generalize l.items = items at *
    induction items generalizing ls with
    | nil => cases hls; exact ⟨[], .nil, rfl⟩
    | cons i items ih =>
      cases hls with
      | cons h1 h2 =>
        obtain ⟨vs, a, b⟩ := ih _ h2
        unfold line at h1
        obtain ⟨v, hv, rfl⟩ := Option.map_eq_some_iff.1 h1
        refine ⟨v :: vs, .cons hv a, ?_⟩
        simp only [List.flatten_cons, List.zip_cons_cons, List.map_cons, List.append_assoc] at b ⊢
        rw [b]
  · cases h

theorem paramsKV_usual {p : SigParams} (h : SafeParams p) : UsualParams (paramsKV p) := by
  obtain ⟨cr, ex, n, a, k, tg, ids⟩ := p
  have h1 := h.created; have h2 := h.expires; have h3 := h.nonce; have h4 := h.alg; have h5 := h.keyid; have h6 := h.tag
  simp only at h1 h2 h3 h4 h5 h6
  have num : ∀ {nm : Str} {o : Option UInt64}, (∀ t, o = some t → t.toNat < 10 ^ 15) → ∀ kv ∈ kvNum nm o,
      kv.1 = nm ∧ ∃ n : Nat, kv.2 = .int n ∧ n < 10 ^ 15 := by
    intro nm o ho kv hkv
    cases o with
    | none => cases hkv
    | some t => simp only [kvNum, List.mem_singleton] at hkv; subst hkv; exact ⟨rfl, _, rfl, ho t rfl⟩
  have txt : ∀ {nm : Str} {o : Option Str}, (∀ t, o = some t → SafeText t) → ∀ kv ∈ kvText nm o, kv.1 = nm ∧ ∃ s, kv.2 = .str s ∧ SafeText s := by
    intro nm o ho kv hkv
    cases o with
    | none => cases hkv
    | some t => simp only [kvText, List.mem_singleton] at hkv; subst hkv; exact ⟨rfl, _, rfl, ho t rfl⟩
  refine ⟨?_, ?_, ?_⟩
  · have kn : ∀ (nm : Str) (o : Option UInt64), ((kvNum nm o).map Prod.fst).Sublist [nm] := by intro nm o; cases o <;> simp [kvNum]
    have kt : ∀ (nm : Str) (o : Option Str), ((kvText nm o).map Prod.fst).Sublist [nm] := by intro nm o; cases o <;> simp [kvText]
    simp only [paramsKV, List.map_append]
    exact (((((kn _ _).append (kn _ _)).append (kt _ _)).append (kt _ _)).append (kt _ _)).append (kt _ _)
  · intro kv hkv hk
    simp only [paramsKV, List.mem_append, or_assoc] at hkv
    rcases hkv with hx | hx | hx | hx | hx | hx
    · exact (num h1 kv hx).2
    · exact (num h2 kv hx).2
    · rw [(txt h3 kv hx).1] at hk; exact absurd hk (by decide)
    · rw [(txt h4 kv hx).1] at hk; exact absurd hk (by decide)
    · rw [(txt h5 kv hx).1] at hk; exact absurd hk (by decide)
    · rw [(txt h6 kv hx).1] at hk; exact absurd hk (by decide)
  · intro kv hkv hk hk'
    simp only [paramsKV, List.mem_append, or_assoc] at hkv
    rcases hkv with hx | hx | hx | hx | hx | hx
    · exact absurd (num h1 kv hx).1 hk
    · exact absurd (num h2 kv hx).1 hk'
    · exact (txt h3 kv hx).2
    · exact (txt h4 kv hx).2
    · exact (txt h5 kv hx).2
    · exact (txt h6 kv hx).2

theorem ofStr_serInner {l : InnerList} (hl : LegalEntry (.inner l)) : SigParams.ofStr (serInner l) = SigParams.ofEntry (.inner l) := by
  have : parseList (serInner l) = some [.inner l] :=
    parseList_ser (l := [.inner l]) (by intro e he; rw [List.mem_singleton.1 he]; exact hl) (by simp [serList, serEntry])
  unfold SigParams.ofStr
  rw [this]; rfl

theorem serItem_inj {i j : Item} (hi : LegalItem i) (hj : LegalItem j) (h : serItem i = serItem j) : i = j := by
  have := parseItemTop_ser hi
  rw [h, parseItemTop_ser hj] at this
  exact (Option.some.inj this).symm

end Rfc
end Verif
