import Verif.Proofs.SfvGrammar
/-! The structured field parser reads exactly the grammar of `Spec/Grammar.lean`: parameters, items, lists, dictionaries. -/
namespace Verif.Sfv
open Spec Grammar

/-! ### Maps -/

section
variable {α : Type}

theorem firsts_mem {k : Str} {l : List Str} : k ∈ firsts l ↔ k ∈ l := by
  induction l with
  | nil => simp [firsts]
  | cons x t ih =>
    simp only [firsts, List.mem_cons, List.mem_filter, ih, decide_eq_true_eq]
    by_cases h : k = x <;> simp [h]

theorem firsts_nodup (l : List Str) : (firsts l).Nodup := by
  induction l with
  | nil => simp [firsts]
  | cons x t ih =>
    simp only [firsts, List.nodup_cons, List.mem_filter]
    exact ⟨by simp, ih.filter _⟩

theorem firsts_snoc (l : List Str) (k : Str) : firsts (l ++ [k]) = if k ∈ l then firsts l else firsts l ++ [k] := by
  induction l with
  | nil => simp [firsts]
  | cons x t ih =>
    simp only [List.cons_append, firsts, ih, List.mem_cons]
    by_cases h : k = x
    · subst h
      by_cases ht : k ∈ t
      · simp [ht]
      · simp [ht, List.filter_append]
    · by_cases ht : k ∈ t
      · simp [ht, h]
      · simp [ht, h, List.filter_append]

theorem lookup_insert (m : List (Str × α)) (k' k : Str) (v : α) :
    (imInsert m k' v).lookup k = if k = k' then some v else m.lookup k := by
  induction m with
  | nil => by_cases h : k = k' <;> simp [imInsert, List.lookup, h, beq_false_of_ne]
  | cons y m ih =>
    obtain ⟨k2, v2⟩ := y
    simp only [imInsert]
    by_cases h2 : k2 = k'
    · subst h2
      by_cases h : k = k2 <;> simp [List.lookup, h, beq_false_of_ne]
    · rw [if_neg h2]
      by_cases h : k = k2
      · subst h; simp [List.lookup, h2]
      · simp only [List.lookup]
        rw [show (k == k2) = false by simpa using h]
        exact ih

/-- Keys and look-ups determine a map. -/
theorem map_ext {m n : List (Str × α)} (hk : m.map Prod.fst = n.map Prod.fst) (hn : (m.map Prod.fst).Nodup)
    (hl : ∀ k, m.lookup k = n.lookup k) : m = n := by
  induction m generalizing n with
  | nil => cases n with
    | nil => rfl
    | cons _ _ => simp at hk
  | cons x m ih =>
    cases n with
    | nil => simp at hk
    | cons y n =>
      obtain ⟨a, v⟩ := x
      obtain ⟨b, w⟩ := y
      simp only [List.map_cons, List.cons.injEq] at hk
      obtain ⟨rfl, hk⟩ := hk
      simp only [List.map_cons, List.nodup_cons] at hn
      have h0 := hl a
      simp [List.lookup] at h0
      subst h0
      congr 1
      refine ih hk hn.2 (fun k => ?_)
      by_cases h : k = a
      · subst h
        have none_of : ∀ l : List (Str × α), k ∉ l.map Prod.fst → l.lookup k = none := by
          intro l hl
          rw [List.lookup_eq_none_iff]
          intro p hp
          have : k ≠ p.1 := fun e => hl (e ▸ List.mem_map_of_mem hp)
          simpa using this
        rw [none_of m hn.1, none_of n (hk ▸ hn.1)]
      · have := hl k
        simp only [List.lookup] at this
        rwa [show (k == a) = false by simpa using h] at this

theorem imOfList_mapOf (l : List (Str × α)) : MapOf l (imOfList l) := by
  induction l using List.reverseRecOn with
  | nil => exact ⟨rfl, fun _ => rfl⟩
  | append_singleton t x ih =>
    obtain ⟨k, v⟩ := x
    rw [imOfList_append_one]
    constructor
    · rw [imInsert_keys, List.map_append, ih.1]
      simp only [List.map_cons, List.map_nil]
      rw [firsts_snoc]
      simp only [firsts_mem]
    · intro k'
      rw [lookup_insert, List.reverse_append, ih.2]
      simp only [List.reverse_cons, List.reverse_nil, List.nil_append, List.singleton_append, List.lookup]
      by_cases h : k' = k
      · simp [h]
      · rw [if_neg h, show (k' == k) = false by simpa using h]

theorem mapOf_iff {l m : List (Str × α)} : MapOf l m ↔ m = imOfList l := by
  constructor
  · rintro ⟨h1, h2⟩
    have := imOfList_mapOf l
    exact map_ext (h1.trans this.1.symm) (h1 ▸ firsts_nodup _) (fun k => (h2 k).trans (this.2 k).symm)
  · rintro rfl; exact imOfList_mapOf l

end

/-! ### Spaces -/

theorem sp_all (n : Nat) : ∀ c ∈ sp n, isSp c = true := by
  intro c hc; rw [List.eq_of_mem_replicate hc]; rfl

theorem drop_sp (n : Nat) {r : Str} (h : ∀ c, r.head? = some c → isSp c = false) : (sp n ++ r).dropWhile isSp = r :=
  dropWhile_append_stop (sp_all n) h

theorem drop_sp_add (n : Nat) (r : Str) : (sp n ++ r).dropWhile isSp = r.dropWhile isSp := by
  induction n with
  | zero => rfl
  | succ n ih => exact ih

theorem eq_sp {s : Str} (h : ∀ c ∈ s, isSp c = true) : s = sp s.length := by
  refine List.eq_replicate_iff.2 ⟨rfl, fun c hc => ?_⟩
  have := h c hc
  simpa [isSp] using this

theorem split_sp (s : Str) : ∃ n, s = sp n ++ s.dropWhile isSp :=
  ⟨(s.takeWhile isSp).length, by rw [← eq_sp takeWhile_all]; simp⟩

theorem ows_iff {s : Str} : Ows s ↔ ∀ c ∈ s, isOws c = true := by simp [Ows, isOws]

theorem drop_ows {a r : Str} (ha : Ows a) (h : ∀ c, r.head? = some c → isOws c = false) : (a ++ r).dropWhile isOws = r :=
  dropWhile_append_stop (ows_iff.1 ha) h

theorem split_ows (s : Str) : ∃ a, Ows a ∧ s = a ++ s.dropWhile isOws :=
  ⟨s.takeWhile isOws, ows_iff.2 takeWhile_all, by simp⟩

theorem ows_stopP {a r : Str} (ha : Ows a) (hr : StopP r) : StopP (a ++ r) := by
  cases a with
  | nil => exact hr
  | cons c t =>
    intro d hd
    simp at hd; subst hd
    rcases ha c (by simp) with h | h <;> simp [h]

theorem sp_ows (n : Nat) : Ows (sp n) := fun _ hc => Or.inl (List.eq_of_mem_replicate hc)

/-! ### Parameters -/

theorem key_head {k : Str} (hk : LegalKey k) (r : Str) : ∀ c, (k ++ r).head? = some c → isSp c = false := by
  obtain ⟨c, t, rfl, hc, _⟩ := legalKey_cons hk
  intro d hd
  simp at hd; subst hd
  cases h : isSp c with
  | false => rfl
  | true => simp [isSp] at h; subst h; revert hc; decide

theorem stop_params {raw : List (Str × Bare)} {p r : Str} (h : ParamsText raw p) (hr : StopP r) : Stop (p ++ r) := by
  cases h with
  | nil => exact hr.stop
  | flag _ _ => exact stop_semi _
  | value _ _ _ => exact stop_semi _

theorem parseParamsA_of {raw : List (Str × Bare)} {p : Str} (h : ParamsText raw p) : ∀ {acc : Params} {r : Str}, StopP r →
    parseParamsA acc (p ++ r) = some (imInsertAll acc raw, r) := by
  induction h with
  | nil => intro acc r hr; exact parseParamsA_stop acc hr.not_semi
  | @flag n k ps t hk hp ih =>
    intro acc r hr
    have e : ';' :: sp n ++ k ++ t ++ r = ';' :: (sp n ++ (k ++ (t ++ r))) := by simp
    have hs := stop_params hp hr
    have hst : stepParam (sp n ++ (k ++ (t ++ r))) = some ((k, .bool true), t ++ r) := by
      unfold stepParam
      rw [drop_sp n (key_head hk _), parseKey_ser hk hs.isKeyChar]
      split
      · rename_i heq; cases heq
      · rename_i k' r' heq
        injection heq with heq; injection heq with h1 h2
        exact absurd (by rw [h2]; rfl) (stop_head_eq hs)
      · rename_i heq
        injection heq with heq; injection heq with h1 h2
        subst h1 h2; rfl
    rw [e, parseParamsA_semi, hst]
    exact ih hr
  | @value n k v b ps t hk hb hp ih =>
    intro acc r hr
    have e : ';' :: sp n ++ k ++ '=' :: b ++ t ++ r = ';' :: (sp n ++ (k ++ '=' :: (b ++ (t ++ r)))) := by simp
    have hs := stop_params hp hr
    have hst : stepParam (sp n ++ (k ++ '=' :: (b ++ (t ++ r)))) = some ((k, v), t ++ r) := by
      unfold stepParam
      rw [drop_sp n (key_head hk _), parseKey_ser hk (by intro c hc; simp at hc; subst hc; rfl)]
      simp only
      rw [parseBare_of hb hs]
    rw [e, parseParamsA_semi, hst]
    exact ih hr

theorem stepParam_text {t r k : Str} {v : Bare} (h : stepParam t = some ((k, v), r)) :
    ∃ n, LegalKey k ∧ ((v = .bool true ∧ t = sp n ++ k ++ r) ∨ ∃ b, BareText v b ∧ t = sp n ++ k ++ '=' :: b ++ r) := by
  obtain ⟨n, hn⟩ := split_sp t
  refine ⟨n, ?_⟩
  unfold stepParam at h
  split at h
  · cases h
  · rename_i k' r' hk
    split at h
    · cases h
    rename_i v' r'' hv
    injection h with h; injection h with h1 h2; injection h1 with h0 h1; subst h0 h1 h2
    obtain ⟨b, hb, e⟩ := parseBare_text hv
    obtain ⟨hl, e', _⟩ := parseKey_legal hk
    refine ⟨hl, Or.inr ⟨b, hb, ?_⟩⟩
    rw [hn, e', e]; simp
  · rename_i k' r' _ hk
    injection h with h; injection h with h1 h2; injection h1 with h0 h1; subst h0 h1 h2
    obtain ⟨hl, e', _⟩ := parseKey_legal hk
    refine ⟨hl, Or.inl ⟨rfl, ?_⟩⟩
    rw [hn, e']; simp

theorem parseParamsA_text {acc q : Params} {s r : Str} (h : parseParamsA acc s = some (q, r)) :
    ∃ raw p, ParamsText raw p ∧ q = imInsertAll acc raw ∧ s = p ++ r := by
  refine parseParamsA_ind (P := fun acc s q r => ∃ raw p, ParamsText raw p ∧ q = imInsertAll acc raw ∧ s = p ++ r)
    ?_ ?_ s.length acc s q r (Nat.le_refl _) h
  · intro acc s _; exact ⟨[], [], .nil, rfl, rfl⟩
  · rintro acc t k v r q r' hs _ ⟨raw, p, hp, hq, e⟩
    obtain ⟨n, hk, hc | ⟨b, hb, et⟩⟩ := stepParam_text hs
    · obtain ⟨rfl, et⟩ := hc
      exact ⟨_, _, .flag (n := n) hk hp, hq, by rw [et, e]; simp⟩
    · exact ⟨_, _, .value (n := n) hk hb hp, hq, by rw [et, e]; simp⟩

theorem parseParams_of {raw : List (Str × Bare)} {ps : Params} {p r : Str} (h : ParamsText raw p) (hm : MapOf raw ps) (hr : StopP r) :
    parseParams (p ++ r) = some (ps, r) := by
  rw [parseParams_eq, parseParamsA_of h hr, ← imOfList_eq, mapOf_iff.1 hm]

theorem parseParams_text {ps : Params} {s r : Str} (h : parseParams s = some (ps, r)) :
    ∃ raw p, ParamsText raw p ∧ MapOf raw ps ∧ s = p ++ r := by
  obtain ⟨raw, p, h1, h2, h3⟩ := parseParamsA_text h
  exact ⟨raw, p, h1, mapOf_iff.2 h2, h3⟩

/-! ### Items and inner lists -/

theorem parseItem_of {i : Item} {t r : Str} (h : ItemText i t) (hr : StopP r) : parseItem (t ++ r) = some (i, r) := by
  obtain ⟨raw, b, p, hb, hp, hm, rfl⟩ := h
  unfold parseItem
  rw [List.append_assoc, parseBare_of hb (stop_params hp hr)]
  simp only
  rw [parseParams_of hp hm hr]

theorem parseItem_text {i : Item} {s r : Str} (h : parseItem s = some (i, r)) : ∃ t, ItemText i t ∧ s = t ++ r := by
  unfold parseItem at h
  split at h
  · cases h
  rename_i b r1 hb
  split at h
  · cases h
  rename_i p r2 hp
  injection h with h; injection h with h1 h2; subst h1 h2
  obtain ⟨t, ht, e⟩ := parseBare_text hb
  obtain ⟨raw, q, hq, hm, e'⟩ := parseParams_text hp
  exact ⟨t ++ q, ⟨raw, t, q, ht, hq, hm, rfl⟩, by rw [e, e']; simp⟩

theorem itemText_head {i : Item} {t : Str} (h : ItemText i t) :
    ∃ c u, t = c :: u ∧ c ≠ ' ' ∧ c ≠ '\t' ∧ c ≠ '(' ∧ c ≠ ')' ∧ c ≠ ',' ∧ c ≠ ';' := by
  obtain ⟨raw, b, p, hb, hp, hm, rfl⟩ := h
  obtain ⟨c, u, rfl, hc⟩ := bareText_head hb
  exact ⟨c, u ++ p, rfl, hc⟩

theorem parseItems_drop {s s' : Str} (h : s.dropWhile isSp = s'.dropWhile isSp) : parseItems s = parseItems s' := by
  rw [parseItems_eq, parseItems_eq, h]

theorem parseItems_item {i : Item} {t r : Str} {n : Nat} (h : ItemText i t) (hr : r.head? = some ' ' ∨ r.head? = some ')') :
    parseItems (sp n ++ t ++ r) =
      match parseItems r with
      | some (is, r') => some (i :: is, r')
      | none => none := by
  obtain ⟨c, u, rfl, h1, _, _, h4, _⟩ := itemText_head h
  have hsp : ∀ d, (c :: u ++ r).head? = some d → isSp d = false := by
    intro d hd; simp at hd; subst hd; simpa [isSp] using h1
  rw [parseItems_eq, List.append_assoc, drop_sp n hsp]
  simp only [List.cons_append]
  have hi := parseItem_of (r := r) h (by
    intro d hd
    rcases hr with hr | hr <;> (rw [hr] at hd; injection hd with hd; subst hd; simp))
  rw [List.cons_append] at hi
  rw [if_neg h4, hi]
  simp only
  rw [if_pos hr]
  cases parseItems r <;> rfl

theorem parseItems_of {is : List Item} {t : Str} (h : ItemsText is t) (r : Str) : parseItems (t ++ ')' :: r) = some (is, r) := by
  induction h with
  | @nil n =>
    rw [parseItems_eq, drop_sp n (by intro d hd; simp at hd; subst hd; rfl)]
    simp
  | @one n m i t hi =>
    have hstep := parseItems_item (n := n) (r := sp m ++ ')' :: r) hi (by
      cases m with
      | zero => right; rfl
      | succ m => left; rfl)
    rw [show sp n ++ t ++ sp m ++ ')' :: r = sp n ++ t ++ (sp m ++ ')' :: r) by simp, hstep]
    rw [parseItems_eq, drop_sp m (by intro d hd; simp at hd; subst hd; rfl)]
    simp
  | @cons n i j is t u hi hu ih =>
    have hstep := parseItems_item (n := n) (r := ' ' :: (u ++ ')' :: r)) hi (Or.inl rfl)
    rw [show sp n ++ t ++ ' ' :: u ++ ')' :: r = sp n ++ t ++ (' ' :: (u ++ ')' :: r)) by simp, hstep]
    rw [parseItems_drop (s := ' ' :: (u ++ ')' :: r)) (s' := u ++ ')' :: r) rfl, ih]

theorem itemsText_tail {j : Item} {is : List Item} {u : Str} (h : ItemsText (j :: is) (' ' :: u)) : ItemsText (j :: is) u := by
  have key : ∀ {n : Nat} {i : Item} {t v : Str}, ItemText i t → ' ' :: u = sp n ++ t ++ v → ∃ m, u = sp m ++ t ++ v := by
    intro n i t v hi e
    cases n with
    | zero =>
      obtain ⟨c, w, rfl, h1, _⟩ := itemText_head hi
      simp [sp] at e
      exact absurd e.1.symm h1
    | succ n =>
      refine ⟨n, ?_⟩
      have : sp (n + 1) = ' ' :: sp n := rfl
      rw [this] at e
      simpa using e
  generalize hs : ' ' :: u = s at h
  cases h with
  | one hi =>
    obtain ⟨m, e⟩ := key hi hs
    rw [e]; exact .one hi
  | cons hi hu =>
    obtain ⟨m, e⟩ := key hi hs
    rw [e]; exact .cons hi hu

theorem itemsText_head {j : Item} {is : List Item} {u : Str} (h : ItemsText (j :: is) u) : ∃ c v, u = c :: v ∧ c ≠ ')' := by
  have key : ∀ {n : Nat} {i : Item} {t v : Str}, ItemText i t → ∃ c w, sp n ++ t ++ v = c :: w ∧ c ≠ ')' := by
    intro n i t v hi
    cases n with
    | zero =>
      obtain ⟨c, w, rfl, _, _, _, h4, _⟩ := itemText_head hi
      exact ⟨c, w ++ v, rfl, h4⟩
    | succ n => exact ⟨' ', sp n ++ t ++ v, rfl, by decide⟩
  cases h with
  | one hi => exact key hi
  | cons hi hu => exact key hi

theorem parseItems_text {s r : Str} {is : List Item} (h : parseItems s = some (is, r)) :
    ∃ t, ItemsText is t ∧ s = t ++ ')' :: r := by
  refine parseItems_ind (P := fun s is r => ∃ t, ItemsText is t ∧ s = t ++ ')' :: r) ?_ ?_ (s.length + 1) s is r
    (Nat.lt_succ_self _) h
  · intro s r hs
    obtain ⟨n, e⟩ := split_sp s
    exact ⟨sp n, .nil, by rw [← hs]; exact e⟩
  · rintro s c u i r is r' hs hc hi hr _ ⟨t', ht', e'⟩
    obtain ⟨n, e⟩ := split_sp s
    obtain ⟨t, ht, et⟩ := parseItem_text hi
    rw [hs, et] at e
    cases is with
    | nil =>
      generalize hz : ([] : List Item) = z at ht'
      cases ht' with
      | @nil m => exact ⟨_, .one (n := n) (m := m) ht, by rw [e, e']; simp⟩
      | one _ => cases hz
      | cons _ _ => cases hz
    | cons j is =>
      obtain ⟨d, v, rfl, hd⟩ := itemsText_head ht'
      have : d = ' ' := by
        rw [e'] at hr
        simp at hr
        rcases hr with h | h
        · exact h
        · exact absurd h hd
      subst this
      exact ⟨_, .cons (n := n) ht (itemsText_tail ht'), by rw [e, e']; simp⟩

theorem parseEntry_of {x : Entry} {t r : Str} (h : EntryText x t) (hr : StopP r) : parseEntry (t ++ r) = some (x, r) := by
  cases h with
  | item h =>
    obtain ⟨c, u, e, _, _, h3, _⟩ := itemText_head h
    rw [parseEntry_item (by rw [e]; simpa using h3), parseItem_of h hr]
  | @inner is t raw p ps hi hp hm =>
    have e : '(' :: t ++ ')' :: p ++ r = '(' :: (t ++ ')' :: (p ++ r)) := by simp
    rw [e, parseEntry_paren, parseItems_of hi]
    simp only
    rw [parseParams_of hp hm hr]

theorem parseEntry_text {x : Entry} {s r : Str} (h : parseEntry s = some (x, r)) : ∃ t, EntryText x t ∧ s = t ++ r := by
  by_cases hs : s.head? = some '('
  · cases s with
    | nil => simp at hs
    | cons c s =>
      simp at hs; subst hs
      rw [parseEntry_paren] at h
      split at h
      · cases h
      rename_i is r1 hi
      split at h
      · cases h
      rename_i p r2 hp
      injection h with h; injection h with h1 h2; subst h1 h2
      obtain ⟨t, ht, e⟩ := parseItems_text hi
      obtain ⟨raw, q, hq, hm, e'⟩ := parseParams_text hp
      exact ⟨_, .inner ht hq hm, by rw [e, e']; simp⟩
  · rw [parseEntry_item hs] at h
    split at h
    · cases h
    rename_i i r1 hi
    injection h with h; injection h with h1 h2; subst h1 h2
    obtain ⟨t, ht, e⟩ := parseItem_text hi
    exact ⟨t, .item ht, e⟩

theorem entryText_head {x : Entry} {t : Str} (h : EntryText x t) : ∃ c u, t = c :: u ∧ c ≠ ' ' ∧ c ≠ '\t' := by
  cases h with
  | item h =>
    obtain ⟨c, u, e, h1, h2, _⟩ := itemText_head h
    exact ⟨c, u, e, h1, h2⟩
  | inner _ _ _ => exact ⟨_, _, rfl, by decide⟩

/-! ### Members -/

theorem parseMember_of {x : Str × Entry} {t r : Str} (h : MemberText x t) (hr : StopP r) :
    parseMember (t ++ r) = some (x, r) := by
  rw [parseMember_eq]
  cases h with
  | @value k e t hk he =>
    rw [List.append_assoc, parseKey_ser hk (by intro c hc; simp at hc; subst hc; rfl)]
    simp [parseEntry_of he hr]
  | @flag k raw p ps hk hp hm =>
    have hs := stop_params hp hr
    rw [List.append_assoc, parseKey_ser hk hs.isKeyChar]
    simp only
    rw [if_neg (stop_head_eq hs), parseParams_of hp hm hr]

theorem parseMember_text {x : Str × Entry} {s r : Str} (h : parseMember s = some (x, r)) : ∃ t, MemberText x t ∧ s = t ++ r := by
  rw [parseMember_eq] at h
  split at h
  · cases h
  rename_i k r1 hk
  obtain ⟨hl, e, _⟩ := parseKey_legal hk
  split at h
  · rename_i hq
    split at h
    · cases h
    rename_i x1 r2 he
    injection h with h; injection h with h1 h2; subst h1 h2
    obtain ⟨t, ht, e'⟩ := parseEntry_text he
    have : r1 = '=' :: r1.tail := by
      cases r1 with
      | nil => simp at hq
      | cons c u => simp at hq; subst hq; rfl
    exact ⟨_, .value hl ht, by rw [e, this, e']; simp⟩
  · split at h
    · cases h
    rename_i p r2 hp
    injection h with h; injection h with h1 h2; subst h1 h2
    obtain ⟨raw, q, hq, hm, e'⟩ := parseParams_text hp
    exact ⟨_, .flag hl hq hm, by rw [e, e']; simp⟩

theorem memberText_head {x : Str × Entry} {t : Str} (h : MemberText x t) : ∃ c u, t = c :: u ∧ c ≠ ' ' ∧ c ≠ '\t' := by
  have key : ∀ {k : Str} (v : Str), LegalKey k → ∃ c u, k ++ v = c :: u ∧ c ≠ ' ' ∧ c ≠ '\t' := by
    intro k v hk
    obtain ⟨c, u, rfl, hc, _⟩ := legalKey_cons hk
    refine ⟨c, u ++ v, rfl, ?_, ?_⟩ <;> (intro e; subst e; revert hc; decide)
  cases h with
  | value hk _ => exact key _ hk
  | flag hk _ _ => exact key _ hk

/-! ### Fields -/

section
variable {α : Type} {p : Str → Option (α × Str)} {T : α → Str → Prop}

theorem sepText_head (hh : ∀ x t, T x t → ∃ c u, t = c :: u ∧ c ≠ ' ' ∧ c ≠ '\t') {l : List α} {t : Str} (h : SepText T l t) :
    ∃ c u, t = c :: u ∧ c ≠ ' ' ∧ c ≠ '\t' := by
  cases h with
  | one hx => exact hh _ _ hx
  | @cons x xs t u a b hx _ _ _ =>
    obtain ⟨c, w, rfl, hc⟩ := hh _ _ hx
    exact ⟨c, w ++ a ++ ',' :: b ++ u, by simp, hc⟩

theorem head_not_ows {c : Char} {u : Str} (hc : c ≠ ' ' ∧ c ≠ '\t') : ∀ d, (c :: u).head? = some d → isOws d = false := by
  intro d hd; simp at hd; subst hd; simp [isOws, hc]

theorem parseSep_of (hp : Prog p) (ho : ∀ x t r, T x t → StopP r → p (t ++ r) = some (x, r))
    (hh : ∀ x t, T x t → ∃ c u, t = c :: u ∧ c ≠ ' ' ∧ c ≠ '\t') {l : List α} {t : Str} (h : SepText T l t) {a : Str}
    (ha : Ows a) : parseSep p (t ++ a) = some l := by
  induction h with
  | @one x t hx =>
    have hne : t ++ a ≠ [] := by obtain ⟨c, u, rfl, _⟩ := hh _ _ hx; simp
    have hs : StopP a := by simpa using ows_stopP ha stopP_nil
    rw [parseSep_eq hp hne, ho _ _ _ hx hs]
    simp only
    have : a.dropWhile isOws = [] := by simpa using drop_ows (r := []) ha (by simp)
    rw [this]
  | @cons x xs t u b c hx hb hc hu ih =>
    obtain ⟨d, v, hd, hd'⟩ := sepText_head hh hu
    have e : t ++ b ++ ',' :: c ++ u ++ a = t ++ (b ++ ',' :: (c ++ (u ++ a))) := by simp
    have hne : t ++ (b ++ ',' :: (c ++ (u ++ a))) ≠ [] := by obtain ⟨c, u, rfl, _⟩ := hh _ _ hx; simp
    rw [e, parseSep_eq hp hne, ho _ _ _ hx (ows_stopP hb (stopP_comma _))]
    simp only
    rw [drop_ows hb (by intro d hd; simp at hd; subst hd; rfl)]
    simp only
    rw [if_pos trivial, drop_ows hc (by rw [hd]; exact head_not_ows hd')]
    rw [hd] at ih ⊢
    simp only [List.cons_append] at ih ⊢
    rw [ih]

theorem parseSep_text (hp : Prog p) (ht : ∀ s x r, p s = some (x, r) → ∃ t, T x t ∧ s = t ++ r) {s : Str} {l : List α}
    (h : parseSep p s = some l) (hs : s ≠ []) : ∃ t a, SepText T l t ∧ Ows a ∧ s = t ++ a := by
  refine parseSep_ind hp (P := fun s l => s ≠ [] → ∃ t a, SepText T l t ∧ Ows a ∧ s = t ++ a) ?_ ?_ ?_ (s.length + 1) s l
    (Nat.lt_succ_self _) h hs
  · intro h; exact absurd rfl h
  · intro s x r _ hx hr _
    obtain ⟨t, hT, e⟩ := ht _ _ _ hx
    obtain ⟨a, ha, ea⟩ := split_ows r
    rw [hr, List.append_nil] at ea
    exact ⟨t, a, .one hT, ha, by rw [e, ea]⟩
  · intro s x r t u xs _ hx hr hu hune _ ih _
    obtain ⟨t0, hT, e⟩ := ht _ _ _ hx
    obtain ⟨a, ha, ea⟩ := split_ows r
    obtain ⟨b, hb, eb⟩ := split_ows t
    obtain ⟨v, c, hv, hc, ec⟩ := ih hune
    refine ⟨_, c, .cons hT ha hb hv, hc, ?_⟩
    rw [hu] at eb
    rw [hr] at ea
    rw [e, ea, eb, ec]; simp

theorem field_iff (hp : Prog p) (ho : ∀ x t r, T x t → StopP r → p (t ++ r) = some (x, r))
    (ht : ∀ s x r, p s = some (x, r) → ∃ t, T x t ∧ s = t ++ r)
    (hh : ∀ x t, T x t → ∃ c u, t = c :: u ∧ c ≠ ' ' ∧ c ≠ '\t') (s : Str) (l : List α) :
    parseSep p (s.dropWhile isSp) = some l ↔ FieldText T l s := by
  constructor
  · intro h
    obtain ⟨n, e⟩ := split_sp s
    by_cases hs : s.dropWhile isSp = []
    · rw [hs, parseSep_nil] at h
      injection h with h
      rw [hs, List.append_nil] at e
      exact Or.inl ⟨h.symm, n, e⟩
    · obtain ⟨t, a, h1, h2, h3⟩ := parseSep_text hp ht h hs
      exact Or.inr ⟨n, t, a, h1, h2, by rw [List.append_assoc, ← h3]; exact e⟩
  · rintro (⟨rfl, n, rfl⟩ | ⟨n, t, a, h1, h2, rfl⟩)
    · have : (sp n).dropWhile isSp = [] := by simpa using drop_sp n (r := []) (by simp)
      rw [this, parseSep_nil]
    · obtain ⟨c, u, e, hc⟩ := sepText_head hh h1
      rw [List.append_assoc, drop_sp n (by
        rw [e]; intro d hd; simp at hd; subst hd; simpa [isSp] using hc.1)]
      exact parseSep_of hp ho hh h1 h2

end

theorem parseList_iff (s : Str) (l : SList) : parseList s = some l ↔ ListText l s :=
  field_iff parseEntry_prog (fun _ _ _ => parseEntry_of) (fun _ _ _ => parseEntry_text) (fun _ _ => entryText_head) s l

theorem parseDict_iff (s : Str) (d : Dict) : parseDict s = some d ↔ DictText d s := by
  have hf := field_iff parseMember_prog (fun _ _ _ => parseMember_of) (fun _ _ _ => parseMember_text)
    (fun _ _ => memberText_head) s
  unfold parseDict DictText
  constructor
  · intro h
    split at h
    · rename_i l hl
      injection h with h
      exact ⟨l, (hf l).1 hl, mapOf_iff.2 h.symm⟩
    · cases h
  · rintro ⟨raw, h1, h2⟩
    rw [(hf raw).2 h1, mapOf_iff.1 h2]

theorem parseItemTop_iff (s : Str) (i : Item) : parseItemTop s = some i ↔ ItemFieldText i s := by
  unfold parseItemTop
  constructor
  · intro h
    split at h
    · rename_i i' r hi
      split at h
      · rename_i hr
        injection h with h; subst h
        obtain ⟨n, e⟩ := split_sp s
        obtain ⟨m, e'⟩ := split_sp r
        obtain ⟨t, ht, et⟩ := parseItem_text hi
        rw [hr, List.append_nil] at e'
        exact ⟨n, m, t, ht, by rw [List.append_assoc, ← e', ← et]; exact e⟩
      · cases h
    · cases h
  · rintro ⟨n, m, t, ht, rfl⟩
    obtain ⟨c, u, e, hc, _⟩ := itemText_head ht
    have hst : StopP (sp m) := by simpa using ows_stopP (sp_ows m) stopP_nil
    rw [List.append_assoc, drop_sp n (by
      rw [e]; intro d hd; simp at hd; subst hd; simpa [isSp] using hc), parseItem_of ht hst]
    simp only
    rw [if_pos (by simpa using drop_sp m (r := []) (by simp))]

end Verif.Sfv
