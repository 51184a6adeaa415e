import Verif.Spec.Chain
import Verif.Proofs.Sign
import Verif.Proofs.Rfc
/-!
Lines added to a dictionary field, and what a member of several lines is.
-/
namespace Verif
open Sfv Spec

theorem forall₂_two {α β : Type} {R : α → β → Prop} {a b : List α} {c : List β} :
    List.Forall₂ R (a ++ b) c ↔ ∃ c1 c2, List.Forall₂ R a c1 ∧ List.Forall₂ R b c2 ∧ c = c1 ++ c2 := by
  constructor
  · intro h
    induction a generalizing c with
    | nil => exact ⟨[], c, .nil, h, rfl⟩
    | cons x t ih =>
      cases h with
      | cons h1 h2 =>
        obtain ⟨c1, c2, h3, h4, rfl⟩ := ih h2
        exact ⟨_ :: c1, c2, .cons h1 h3, h4, rfl⟩
  · rintro ⟨c1, c2, h1, h2, rfl⟩
    exact List.rel_append h1 h2

theorem parseSep_trailing {α : Type} {p : Str → Option (α × Str)} (hp : Prog p) (hl : LocC p) {s t : Str} {xs : List α} (hs : s ≠ [])
    (h : parseSep p s = some xs) (ht : t.dropWhile isOws = []) : parseSep p (s ++ ',' :: t) = none := by
  refine parseSep_ind hp (P := fun s _ => s ≠ [] → parseSep p (s ++ ',' :: t) = none) ?_ ?_ ?_ _ s xs (Nat.lt_succ_self _) h hs
  · intro h; exact absurd rfl h
  · intro s x r hs hx hr _
    rw [parseSep_eq hp (by simp), hl _ _ _ t hx]
    simp only
    rw [dropWhile_append_of (Or.inr (comma_stop rfl t)), hr]
    simp only [List.nil_append, if_true, ht]
  · intro s x r v u xs hs hx hr hv hu hxs ih _
    rw [parseSep_eq hp (by simp), hl _ _ _ t hx]
    simp only
    rw [dropWhile_append_of (Or.inr (comma_stop rfl t)), hr]
    simp only [List.cons_append, if_true]
    rw [dropWhile_append_of (Or.inr (comma_stop rfl t)), hv]
    have ih := ih hu
    cases u with
    | nil => exact absurd rfl hu
    | cons d u =>
      simp only [List.cons_append] at ih ⊢
      rw [ih]

theorem parseMember_start {c : Char} (h : isKeyStart c = false) (t : Str) : parseSep parseMember (c :: t) = none := by
  rw [parseSep_eq parseMember_prog (by simp)]
  have : parseMember (c :: t) = none := by simp [parseMember, parseKey, h]
  rw [this]

/-- A line that is blank or a dictionary, followed by more. -/
theorem parseDict_two {s r : Str} {b : Dict} (h : parseDict (s ++ c! ", " ++ r) = some b) {a : Dict} (ha : parseDict s = some a) :
    ∃ xs ys, parseSep parseMember (s.dropWhile isSp) = some xs ∧ a = imOfList xs ∧ r.dropWhile isOws ≠ [] ∧
      parseSep parseMember (r.dropWhile isOws) = some ys ∧ b = imOfList (xs ++ ys) := by
  unfold parseDict at ha
  split at ha
  · rename_i xs hxs
    injection ha with ha
    unfold parseDict at h
    split at h
    · rename_i zs hzs
      injection h with h
      have e : s ++ c! ", " ++ r = s ++ ',' :: (' ' :: r) := by simp
      by_cases hs : s.dropWhile isSp = []
      · rw [e, dropWhile_append_of (Or.inr (comma_stop (by decide) _)), hs, List.nil_append, parseMember_start (by decide)] at hzs
        cases hzs
      · rw [e, dropWhile_append_of (Or.inl hs)] at hzs
        have hd : (' ' :: r).dropWhile isOws = r.dropWhile isOws := by rw [List.dropWhile_cons, if_pos (by decide)]
        by_cases hr : r.dropWhile isOws = []
        · rw [parseSep_trailing parseMember_prog parseMember_locC hs hxs (by rw [hd, hr])] at hzs; cases hzs
        · rw [parseSep_append parseMember_prog parseMember_locC hs hxs (by rw [hd]; exact hr), hd] at hzs
          split at hzs
          · rename_i ys hys
            injection hzs with hzs
            exact ⟨xs, ys, hxs, ha.symm, hr, hys, by rw [← h, ← hzs]⟩
          · cases hzs
    · cases h
  · cases ha

theorem dropSp_ows {r : Str} (h : r.dropWhile isOws ≠ []) {ys : List (Str × Entry)} (hy : parseSep parseMember (r.dropWhile isSp) = some ys) :
    r.dropWhile isSp = r.dropWhile isOws := by
  induction r with
  | nil => rfl
  | cons c t ih =>
    by_cases hc : isSp c = true
    · have ho : isOws c = true := by simp only [isSp, isOws] at *; simp_all
      rw [List.dropWhile_cons, if_pos hc] at hy ⊢
      rw [List.dropWhile_cons, if_pos ho] at h ⊢
      exact ih h hy
    · rw [List.dropWhile_cons, if_neg hc] at hy ⊢
      by_cases ho : isOws c = true
      · rw [parseMember_start] at hy
        · cases hy
        · have hs : isSp c = false := by simpa using hc
          simp only [isSp, isOws] at hs ho
          have : c = '\t' := by simp_all
          subst this; decide
      · rw [List.dropWhile_cons, if_neg ho]

/-- Lines that are dictionaries, and are one when joined: a member of the whole is that of the last line that has it. -/
theorem lookup_joined {ts : List Str} {ds : List Dict} (h : List.Forall₂ (fun v d => parseDict v = some d) ts ds) (hne : ts ≠ [])
    {b : Dict} (hb : parseDict (join (c! ", ") ts) = some b) (k : Str) :
    b.lookup k = (ds.filterMap (fun d => d.lookup k)).getLast? := by
  induction h generalizing b with
  | nil => exact absurd rfl hne
  | @cons t d ts ds ht hts ih =>
    by_cases hn : ts = []
    · subst hn
      cases hts
      have hb : parseDict t = some b := hb
      rw [ht] at hb; injection hb with hb; subst hb
      cases e : d.lookup k <;> simp [e]
    · rw [join_cons _ _ hn] at hb
      obtain ⟨xs, ys, h1, h2, h3, h4, h5⟩ := parseDict_two hb ht
      have hr : parseDict (join (c! ", ") ts) = some (imOfList ys) := by
        obtain ⟨u, us, rfl⟩ := List.exists_cons_of_ne_nil hn
        cases hts with
        | @cons _ d2 _ ds2 hu hus =>
          have hu' : ∃ zs, parseSep parseMember (u.dropWhile isSp) = some zs := by
            unfold parseDict at hu
            split at hu
            · exact ⟨_, by assumption⟩
            · cases hu
          obtain ⟨zs, hzs⟩ := hu'
          have hno : ∀ c w, c = ',' ∨ c = '\t' → parseSep parseMember (c :: w) = none := by
            rintro c w (rfl | rfl) <;> exact parseMember_start (by decide) _
          have key : (join (c! ", ") (u :: us)).dropWhile isSp = (join (c! ", ") (u :: us)).dropWhile isOws := by
            by_cases hbl : u.dropWhile isSp = []
            · -- a blank line
              by_cases hus' : us = []
              · subst hus'
                exfalso
                apply h3
                show u.dropWhile isOws = []
                rw [List.dropWhile_eq_nil_iff] at hbl ⊢
                intro c hc
                have := hbl c hc
                simp only [isSp, isOws] at this ⊢
                simp_all
              · have e : join (c! ", ") (u :: us) = u ++ ',' :: (' ' :: join (c! ", ") us) := by rw [join_cons _ _ hus']; simp
                have hb2 : u.dropWhile isOws = [] := by
                  rw [List.dropWhile_eq_nil_iff] at hbl ⊢
                  intro c hc
                  have := hbl c hc
                  simp only [isSp, isOws] at this ⊢
                  simp_all
                rw [e, dropWhile_append_of (Or.inr (comma_stop (by decide) _)), dropWhile_append_of (Or.inr (comma_stop (by decide) _)), hbl, hb2]
            · have hu2 : u.dropWhile isOws ≠ [] := by
                intro hc
                cases hd : u.dropWhile isSp with
                | nil => exact hbl hd
                | cons c w =>
                  rw [hd] at hzs
                  have : isOws c = true := by
                    rw [List.dropWhile_eq_nil_iff] at hc
                    exact hc c ((List.dropWhile_suffix isSp).subset (by rw [hd]; simp))
                  have hs : isSp c = false := by
                    have := List.head?_dropWhile_not isSp u
                    rw [hd] at this; simpa using this
                  have : c = '\t' := by simp only [isSp, isOws] at *; simp_all
                  rw [hno c w (Or.inr this)] at hzs; cases hzs
              have e1 := dropSp_ows hu2 hzs
              by_cases hus' : us = []
              · subst hus'; exact e1
              · have e : join (c! ", ") (u :: us) = u ++ ',' :: (' ' :: join (c! ", ") us) := by rw [join_cons _ _ hus']; simp
                rw [e, dropWhile_append_of (Or.inl hbl), dropWhile_append_of (Or.inl hu2), e1]
          unfold parseDict
          rw [key, h4]
      have := ih hn hr
      subst h5
      rw [← imGet_lookup, imOfList_eq, imInsertAll_append, ← imOfList_eq, Rfc.imGet_insertAll, imGet_lookup, this, imGet_lookup, ← h2]
      rw [List.filterMap_cons]
      cases hd : d.lookup k with
      | none => simp
      | some e =>
        simp only [List.getLast?_cons]
        cases (ds.filterMap (fun d => d.lookup k)).getLast? <;> rfl

/-- The texts of a member are those of a list, which can be read back. -/
theorem members_read {k : Str} {vs out : List Str} (h : Members k vs out) :
    ∃ ds : List Dict, List.Forall₂ (fun v d => parseDict v = some d) vs ds ∧
      parseList (join (c! ", ") out) = some (ds.filterMap (fun d => d.lookup k)) := by
  obtain ⟨ds, h1, rfl⟩ := h
  refine ⟨ds, h1, ?_⟩
  have leg : LegalList (ds.filterMap (fun d => d.lookup k)) := by
    intro e he
    obtain ⟨d, hd, hx⟩ := List.mem_filterMap.1 he
    obtain ⟨v, _, hv⟩ := forall₂_mem_right h1 d hd
    have := imGet_mem (by rw [imGet_lookup]; exact hx : imGet d k = some e)
    exact ((parseDict_legal hv).2 _ this).2
  have e : ds.filterMap (fun d => (d.lookup k).map serEntry) = (ds.filterMap (fun d => d.lookup k)).map serEntry := by
    rw [List.map_filterMap]
  rw [e]
  by_cases hn : ds.filterMap (fun d => d.lookup k) = []
  · rw [hn]; decide
  · exact parseList_ser leg (by unfold serList; rw [if_neg hn])

theorem lookup_other {n k : Str} {e : Entry} (h : n ≠ k) : List.lookup k ([(n, e)] : Dict) = none := by
  rw [← imGet_lookup]; simp [imGet, h]

/-- A member is not touched by lines that have another key. -/
theorem members_append {k : Str} {vs ws out : List Str} (hw : ∀ w ∈ ws, ∃ n e, parseDict w = some [(n, e)] ∧ n ≠ k) :
    Members k (vs ++ ws) out ↔ Members k vs out := by
  constructor
  · rintro ⟨ds, h1, h2⟩
    obtain ⟨d1, d2, a, b, rfl⟩ := forall₂_two.1 h1
    refine ⟨d1, a, ?_⟩
    rw [h2, List.filterMap_append]
    have : d2.filterMap (fun d => (d.lookup k).map serEntry) = [] := by
      rw [List.filterMap_eq_nil_iff]
      intro d hd
      obtain ⟨w, hw', hp⟩ := forall₂_mem_right b d hd
      obtain ⟨n, e, hp', hn⟩ := hw w hw'
      rw [hp] at hp'; injection hp' with hp'; subst hp'
      rw [lookup_other hn]; rfl
    rw [this, List.append_nil]
  · rintro ⟨ds, h1, h2⟩
    have : ∃ d2, List.Forall₂ (fun v d => parseDict v = some d) ws d2 ∧ d2.filterMap (fun d => (d.lookup k).map serEntry) = [] := by
      clear h1 h2
      induction ws with
      | nil => exact ⟨[], .nil, rfl⟩
      | cons w t ih =>
        obtain ⟨d2, a, b⟩ := ih (fun x hx => hw x (by simp [hx]))
        obtain ⟨n, e, hp, hn⟩ := hw w (by simp)
        refine ⟨_, .cons hp a, ?_⟩
        rw [List.filterMap_cons, lookup_other hn, b]; rfl
    obtain ⟨d2, a, b⟩ := this
    exact ⟨ds ++ d2, List.rel_append h1 a, by rw [List.filterMap_append, b, List.append_nil, h2]⟩

theorem inputLine_dict {sh : SigHeaders} (h : SafeHeaders sh) : parseDict sh.inputValue = some [(sh.name, (inputMember sh).2)] := by
  have := parseDict_members (l := [inputMember sh]) (by intro kv hkv; rw [List.mem_singleton.1 hkv]; exact inputMember_legal h)
  rw [inputValue_eq h.params]; exact this

theorem signatureLine_dict {sh : SigHeaders} (h : LegalKey sh.name) : parseDict sh.signatureValue = some [(sh.name, (sigMember sh).2)] := by
  have := parseDict_members (l := [sigMember sh]) (by intro kv hkv; rw [List.mem_singleton.1 hkv]; exact sigMember_legal h)
  rw [signatureValue_eq]; exact this

theorem lineTexts_append {a b : List Bytes} {ws : List Str} (hb : LineTexts b ws) (ts : List Str) :
    LineTexts (a ++ b) ts ↔ ∃ us, LineTexts a us ∧ ts = us ++ ws := by
  constructor
  · intro h
    obtain ⟨c1, c2, h1, h2, rfl⟩ := forall₂_two.1 h
    refine ⟨c1, h1, ?_⟩
    congr 1
    clear h h1
    unfold LineTexts at hb
    induction hb generalizing c2 with
    | nil => cases h2; rfl
    | cons h3 _ ih =>
      cases h2 with
      | cons h4 h5 =>
        rw [h3] at h4; injection h4 with h4
        rw [h4, ih _ h5]
  · rintro ⟨us, h, rfl⟩
    exact List.rel_append h hb

end Verif
