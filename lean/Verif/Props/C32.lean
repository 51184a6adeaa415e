import Verif.Proofs.SfvLegal
/-!
C32 Structured field round trip. `Spec.Legal*` is the data model of RFC 9651 section 3.
-/
namespace Verif
open Sfv Spec

/-- A parsed list is legal; if it is not empty its serialization parses to the same list. -/
theorem C32_list_round_trip {s : Str} {l : SList} (h : parseList s = some l) :
    LegalList l ∧ (l ≠ [] → ∃ t, serList l = some t ∧ parseList t = some l) := by
  have hl := parseList_legal h
  refine ⟨hl, fun hne => ?_⟩
  have hs : serList l = some (join [',', ' '] (l.map serEntry)) := by simp [serList, hne]
  exact ⟨_, hs, parseList_ser hl hs⟩

/-- A parsed dictionary is legal (in particular its keys are distinct, and so are the parameter keys of every member); if it is
not empty its serialization parses to the same dictionary. -/
theorem C32_dict_round_trip {s : Str} {d : Dict} (h : parseDict s = some d) :
    LegalDict d ∧ (d ≠ [] → ∃ t, serDict d = some t ∧ parseDict t = some d) := by
  have hl := parseDict_legal h
  refine ⟨hl, fun hne => ?_⟩
  have hs : serDict d = some (join [',', ' '] (d.map serMember)) := by simp [serDict, hne]
  exact ⟨_, hs, parseDict_ser hl hs⟩

/-- The same for a single item. -/
theorem C32_item_round_trip {s : Str} {i : Item} (h : parseItemTop s = some i) :
    LegalItem i ∧ parseItemTop (serItem i) = some i :=
  ⟨parseItemTop_legal h, parseItemTop_ser (parseItemTop_legal h)⟩

/-- Every legal non-empty value, parsed or not, survives serialization and parsing. -/
theorem C32_legal_round_trip :
    (∀ l : SList, LegalList l → l ≠ [] → (serList l).bind parseList = some l) ∧
    (∀ d : Dict, LegalDict d → d ≠ [] → (serDict d).bind parseDict = some d) := by
  constructor
  · intro l hl hne
    have hs : serList l = some (join [',', ' '] (l.map serEntry)) := by simp [serList, hne]
    rw [hs]; exact parseList_ser hl hs
  · intro d hd hne
    have hs : serDict d = some (join [',', ' '] (d.map serMember)) := by simp [serDict, hne]
    rw [hs]; exact parseDict_ser hd hs

/-- Distinct legal values have distinct texts. -/
theorem C32_serialization_injective :
    (∀ l l' : SList, LegalList l → LegalList l' → serList l = serList l' → l = l') ∧
    (∀ d d' : Dict, LegalDict d → LegalDict d' → serDict d = serDict d' → d = d') := by
  constructor
  · intro l l' hl hl' h
    by_cases h1 : l = []
    · by_cases h2 : l' = []
      · rw [h1, h2]
      · simp [serList, h1, h2] at h
    · by_cases h2 : l' = []
      · simp [serList, h1, h2] at h
      · have a := C32_legal_round_trip.1 l hl h1
        have b := C32_legal_round_trip.1 l' hl' h2
        rw [h, b] at a; injection a with a; exact a.symm
  · intro l l' hl hl' h
    by_cases h1 : l = []
    · by_cases h2 : l' = []
      · rw [h1, h2]
      · simp [serDict, h1, h2] at h
    · by_cases h2 : l' = []
      · simp [serDict, h1, h2] at h
      · have a := C32_legal_round_trip.2 l hl h1
        have b := C32_legal_round_trip.2 l' hl' h2
        rw [h, b] at a; injection a with a; exact a.symm

theorem lookup_insertAll {ν : Type} (k : Str) : ∀ (l m : List (Str × ν)), (imInsertAll m l).lookup k = (l.reverse.lookup k).or (m.lookup k) := by
  intro l
  induction l with
  | nil => intro m; simp [imInsertAll]
  | cons x t ih =>
    intro m
    obtain ⟨k', v'⟩ := x
    show (imInsertAll (imInsert m k' v') t).lookup k = _
    rw [ih]
    have hins : ∀ m : List (Str × ν), (imInsert m k' v').lookup k = if k = k' then some v' else m.lookup k := by
      intro m
      induction m with
      | nil => by_cases h : k = k' <;> simp [imInsert, List.lookup, h, beq_false_of_ne]
      | cons y m ihm =>
        obtain ⟨k2, v2⟩ := y
        simp only [imInsert]
        by_cases h2 : k2 = k'
        · subst h2
          by_cases h : k = k2 <;> simp [List.lookup, h, beq_false_of_ne]
        · rw [if_neg h2]
          by_cases h : k = k2
          · subst h; simp [List.lookup, h2]
          · simp only [List.lookup]
            rw [show (k == k2) = false by simpa using h]
            exact ihm
    rw [hins]
    have hrev : ∀ (a : List (Str × ν)), (a ++ [(k', v')]).lookup k = (a.lookup k).or (if k = k' then some v' else none) := by
      intro a
      induction a with
      | nil => by_cases h : k = k' <;> simp [List.lookup, h, beq_false_of_ne]
      | cons y a iha =>
        obtain ⟨k2, v2⟩ := y
        simp only [List.cons_append, List.lookup]
        cases hb : (k == k2) <;> simp [iha]
    rw [List.reverse_cons, hrev]
    cases List.lookup k t.reverse <;> by_cases h : k = k' <;> simp [h]

/-- Last member wins and keeps the place of the first one: the parsed dictionary, looked up at `k`, gives the last member
labelled `k` of the text, where the text is any sequence of legal members separated by commas. -/
theorem C32_last_wins (l : List (Str × Entry)) (hl : ∀ kv ∈ l, LegalKey kv.1 ∧ LegalEntry kv.2) :
    ∃ d, parseDict (join [',', ' '] (l.map serMember)) = some d ∧ (d.map Prod.fst).Nodup ∧
      (∀ k, d.lookup k = (l.reverse).lookup k) := by
  have hp := parseSep_ser parseMember_prog l (fun e he r hr => parseMember_ser (hl e he).1 (hl e he).2 hr)
    (fun e he => serMember_head _ (hl e he).1)
  refine ⟨imOfList l, ?_, imOfList_nodup l, ?_⟩
  · unfold parseDict
    rw [dropWhile_stop (join_head_not_sp (by
      intro x hx
      obtain ⟨e, he, rfl⟩ := List.mem_map.1 hx
      exact serMember_head _ (hl e he).1)), hp]
  · intro k
    have := lookup_insertAll k l []
    rw [imOfList_eq]; simpa using this

/-- The same for parameters: of several with one key the last counts. -/
theorem C32_params_last_wins (b : Bare) (hb : LegalBare b) (l : List (Str × Bare)) (hl : ∀ kv ∈ l, LegalKey kv.1 ∧ LegalBare kv.2) :
    ∃ ps, parseItemTop (serItem ⟨b, l⟩) = some ⟨b, ps⟩ ∧ (ps.map Prod.fst).Nodup ∧ ∀ k, ps.lookup k = l.reverse.lookup k := by
  refine ⟨imOfList l, ?_, imOfList_nodup l, ?_⟩
  · unfold parseItemTop serItem
    obtain ⟨c, u, hu, hc, _⟩ := serBare_head hb
    rw [dropWhile_stop (by rw [hu]; intro x hx; simp at hx; subst hx; simp [isSp, hc])]
    have h1 := parseBare_ser hb (stop_serParams l stopP_nil)
    have h2 := parseParamsA_ser l (acc := []) hl stopP_nil
    rw [List.append_nil] at h1 h2
    unfold parseItem
    rw [h1]
    simp only
    rw [parseParams_eq, h2]
    rfl
  · intro k
    have := lookup_insertAll k l []
    rw [imOfList_eq]; simpa using this

-- a text with all kinds of members, and one with a repeated label
example : (parseDict (c! "a=1.50,b=(\"x\";q :AQ==:);d=@5, c;e")).map (fun d => serDict d) =
    some (some (c! "a=1.5, b=(\"x\";q :AQ==:);d=@5, c;e")) := by decide
example : parseDict (c! "a=1, b, a=2") = some [(c! "a", .item ⟨.int 2, []⟩), (c! "b", .item ⟨.bool true, []⟩)] := by decide
example : parseItemTop (c! "x;a=1;b;a=?0") = some ⟨.tok (c! "x"), [(c! "a", .bool false), (c! "b", .bool true)]⟩ := by decide

end Verif
