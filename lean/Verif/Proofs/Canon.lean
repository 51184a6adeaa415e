import Verif.Spec.Value
import Verif.Proofs.SfvLegal
/-! Canonicalisation of a field line is idempotent. -/
namespace Verif
open Sfv Spec

theorem legalKey_tok {k : Str} (h : LegalKey k) : LegalTok k := by
  obtain ⟨⟨c, hc, hs⟩, ha⟩ := h
  refine ⟨⟨c, hc, ?_⟩, ?_⟩
  · rcases hs with hs | hs
    · exact Or.inl hs
    · exact Or.inr (Or.inr hs)
  · intro x hx
    rcases ha x hx with h | h | h | h | h | h
    · unfold LowerAlpha at h; simp [isTokChar, isTchar, isAlph, h]
    · unfold Digit at h; simp [isTokChar, isTchar, isDig, h]
    all_goals (subst h; decide)

theorem parseBare_tok {k r : Str} (hk : LegalTok k) (hr : ∀ c, r.head? = some c → isTokChar c = false) :
    parseBare (k ++ r) = some (.tok k, r) := by
  obtain ⟨⟨c, hc, hs⟩, ha⟩ := hk
  cases k with
  | nil => simp at hc
  | cons d t =>
    simp at hc; subst hc
    obtain ⟨f1, f2, f3, f4, f5, f6, f7, f8, _⟩ := tokStart_facts hs
    have ht : ∀ x ∈ t, isTokChar x = true := fun x hx => ha x (by simp [hx])
    simp only [List.cons_append]
    rw [parseBare.eq_def]
    simp only
    rw [if_neg (by simp [f2, f3]), if_neg f4, if_neg f5, if_neg f6, if_neg f7, if_neg f8, if_pos f1,
      takeWhile_append_stop ht hr, dropWhile_append_stop ht hr]

/-- `key=` is not the start of a list. -/
theorem parseEntry_key_eq {k : Str} (hk : LegalKey k) (r : Str) :
    parseEntry (k ++ '=' :: r) = some (.item ⟨.tok k, []⟩, '=' :: r) := by
  have hh : (k ++ '=' :: r).head? ≠ some '(' := by
    obtain ⟨c, t, rfl, hc, _⟩ := legalKey_cons hk
    simp only [List.cons_append, List.head?_cons, ne_eq, Option.some.injEq]
    intro e; subst e; revert hc; decide
  rw [parseEntry_item hh]
  unfold parseItem
  rw [parseBare_tok (legalKey_tok hk) (by intro c hc; simp at hc; subst hc; decide)]
  simp only
  rw [parseParams_eq, parseParamsA_stop _ (by simp)]

/-- If the text of a dictionary also parses as a list then the list has the same text. -/
theorem list_of_dict_text (l : List (Str × Entry)) (hl : ∀ kv ∈ l, LegalKey kv.1 ∧ LegalEntry kv.2) :
    ∀ xs, parseSep parseEntry (join [',', ' '] (l.map serMember)) = some xs → xs.map serEntry = l.map serMember := by
  induction l with
  | nil =>
    intro xs h
    have : parseSep parseEntry (join [',', ' '] (([] : List (Str × Entry)).map serMember)) = some [] := parseSep_nil
    rw [this] at h; injection h with h; subst h; rfl
  | cons x t ih =>
    intro xs h
    have ih := ih (fun kv hkv => hl kv (by simp [hkv]))
    obtain ⟨k, e⟩ := x
    obtain ⟨hk, he⟩ := hl (k, e) (by simp)
    have hrest : ∃ rest, join [',', ' '] (((k, e) :: t).map serMember) = serMember (k, e) ++ rest ∧
        (t = [] ∧ rest = [] ∨ t ≠ [] ∧ rest = ',' :: ' ' :: join [',', ' '] (t.map serMember)) := by
      by_cases ht : t = []
      · subst ht; exact ⟨[], by simp, Or.inl ⟨rfl, rfl⟩⟩
      · refine ⟨_, ?_, Or.inr ⟨ht, rfl⟩⟩
        rw [List.map_cons, join_cons _ _ (by simp [ht]), List.append_assoc]; rfl
    obtain ⟨rest, hr1, hr2⟩ := hrest
    rw [hr1] at h
    have hne : serMember (k, e) ++ rest ≠ [] := by
      obtain ⟨c, u, hu, _⟩ := serMember_head e hk
      rw [hu]; simp
    rw [parseSep_eq parseEntry_prog hne] at h
    by_cases htr : ∃ p, e = .item ⟨.bool true, p⟩
    · obtain ⟨p, rfl⟩ := htr
      have hser : serMember (k, .item ⟨.bool true, p⟩) = serEntry (.item ⟨.tok k, p⟩) := rfl
      have hle : LegalEntry (.item ⟨.tok k, p⟩) := ⟨legalKey_tok hk, he.2⟩
      have hstop : StopP rest := by
        rcases hr2 with ⟨_, rfl⟩ | ⟨_, rfl⟩
        · exact stopP_nil
        · exact stopP_comma _
      rw [hser, parseEntry_ser hle hstop] at h
      simp only at h
      rcases hr2 with ⟨rfl, rfl⟩ | ⟨ht, rfl⟩
      · simp only [List.dropWhile_nil] at h
        injection h with h; subst h
        simp [hser]
      · rw [dropWhile_stop (comma_stop (by rfl) _)] at h
        simp only [if_true] at h
        rw [List.dropWhile_cons, if_pos (by rfl)] at h
        have hj : ∃ c w, join [',', ' '] (t.map serMember) = c :: w ∧ isOws c = false := by
          cases t with
          | nil => exact absurd rfl ht
          | cons y t' =>
            obtain ⟨d, v, hv, hd1, hd2⟩ := serMember_head y.2 (hl y (by simp)).1
            by_cases h : t' = []
            · subst h; exact ⟨d, v, by simpa using hv, by simp [isOws, hd1, hd2]⟩
            · rw [List.map_cons, join_cons _ _ (by simp [h]), show serMember y = d :: v from hv]
              exact ⟨d, _, rfl, by simp [isOws, hd1, hd2]⟩
        obtain ⟨c, w, hj1, hj2⟩ := hj
        rw [dropWhile_stop (by rw [hj1]; intro z hz; simp at hz; subst hz; exact hj2), hj1] at h
        simp only at h
        rw [← hj1] at h
        cases hxs : parseSep parseEntry (join [',', ' '] (t.map serMember)) with
        | none => rw [hxs] at h; cases h
        | some ys =>
          rw [hxs] at h
          injection h with h; subst h
          rw [List.map_cons, List.map_cons, ih ys hxs, hser]
    · rw [serMember_other k (fun p hp => htr ⟨p, hp⟩), List.append_assoc, List.cons_append, parseEntry_key_eq hk] at h
      simp only at h
      rw [dropWhile_stop (by intro c hc; simp at hc; subst hc; decide)] at h
      simp only at h
      rw [if_neg (by decide)] at h
      cases h

theorem canon_idempotent {v t : Str} (h : Canon v t) : Canon t t := by
  rcases h with ⟨l, h1, h2⟩ | ⟨_, d, h1, h2⟩
  · exact Or.inl ⟨l, parseList_ser (parseList_legal h1) h2, h2⟩
  · have hl := parseDict_legal h1
    have hp := parseDict_ser hl h2
    cases hc : parseList t with
    | none => exact Or.inr ⟨hc, d, hp, h2⟩
    | some xs =>
      refine Or.inl ⟨xs, hc, ?_⟩
      unfold serDict at h2
      split at h2
      · cases h2
      rename_i hne
      injection h2 with h2; subst h2
      have hhead : ∀ c, (join [',', ' '] (d.map serMember)).head? = some c → isSp c = false := by
        apply join_head_not_sp
        intro x hx
        obtain ⟨kv, hkv, rfl⟩ := List.mem_map.1 hx
        exact serMember_head kv.2 (hl.2 kv hkv).1
      unfold parseList at hc
      rw [dropWhile_stop hhead] at hc
      have hmap := list_of_dict_text d hl.2 xs hc
      unfold serList
      rw [if_neg, hmap]
      intro e; subst e
      simp at hmap
      exact hne (by simpa using hmap.symm)

theorem canon_unique {v t u : Str} (h : Canon v t) (h' : Canon v u) : t = u := by
  rcases h with ⟨l, h1, h2⟩ | ⟨h0, d, h1, h2⟩ <;> rcases h' with ⟨l', h1', h2'⟩ | ⟨h0', d', h1', h2'⟩
  · rw [h1] at h1'; injection h1' with h1'; subst h1'; rw [h2] at h2'; injection h2'
  · rw [h1] at h0'; cases h0'
  · rw [h0] at h1'; cases h1'
  · rw [h1] at h1'; injection h1' with h1'; subst h1'; rw [h2] at h2'; injection h2'

/-! ### Serialized text is printable -/

theorem digits_printable {s : Str} (h : ∀ c ∈ s, isDig c = true) : ∀ c ∈ s, Printable c := by
  intro c hc
  have := isDig_iff.1 (h c hc)
  have h1 : 48 ≤ c.toNat := this.1
  have h2 : c.toNat ≤ 57 := this.2
  unfold Printable; omega

theorem serInt_printable (n : Int) : ∀ c ∈ serInt n, Printable c := by
  cases n with
  | ofNat n => exact digits_printable (natStr_isDig n)
  | negSucc n =>
    intro c hc
    simp only [serInt, List.mem_cons] at hc
    rcases hc with rfl | hc
    · decide
    · exact digits_printable (natStr_isDig _) c hc

theorem escStr_printable {s : Str} (h : ∀ c ∈ s, Printable c) : ∀ c ∈ escStr s, Printable c := by
  induction s with
  | nil => intro c hc; simp [escStr] at hc
  | cons a t ih =>
    have ih := ih (fun c hc => h c (by simp [hc]))
    have ha := h a (by simp)
    intro c hc
    simp only [escStr] at hc
    split at hc
    · simp only [List.mem_cons] at hc
      rcases hc with rfl | rfl | hc
      · decide
      · exact ha
      · exact ih c hc
    · simp only [List.mem_cons] at hc
      rcases hc with rfl | hc
      · exact ha
      · exact ih c hc

theorem hexChar_printable : ∀ n < 16, Printable (hexChar n) := by decide

theorem escDisp_printable (b : Bytes) : ∀ c ∈ escDisp b, Printable c := by
  induction b with
  | nil => intro c hc; simp [escDisp] at hc
  | cons x t ih =>
    intro c hc
    have hx := x.toNat_lt
    simp only [Nat.reducePow] at hx
    simp only [escDisp] at hc
    split at hc
    · simp only [List.mem_cons] at hc
      rcases hc with rfl | rfl | rfl | hc
      · decide
      · exact hexChar_printable _ (by omega)
      · exact hexChar_printable _ (by omega)
      · exact ih c hc
    · rename_i hn
      simp only [List.mem_cons] at hc
      rcases hc with rfl | hc
      · unfold Printable
        rw [visible_ofNat _ (by omega) (by omega)]
        omega
      · exact ih c hc

theorem encChar_printable : ∀ n < 64, Printable (Base64.encChar n) := by decide

theorem encode_printable : ∀ b : Bytes, ∀ c ∈ Base64.encode b, Printable c
  | [], c, hc => by simp [Base64.encode] at hc
  | [a], c, hc => by
    have ha := a.toNat_lt
    simp only [Nat.reducePow] at ha
    simp only [Base64.encode, List.mem_cons, List.not_mem_nil, or_false] at hc
    rcases hc with rfl | rfl | rfl | rfl
    · exact encChar_printable _ (by omega)
    · exact encChar_printable _ (by omega)
    · decide
    · decide
  | [a, b], c, hc => by
    have ha := a.toNat_lt
    have hb := b.toNat_lt
    simp only [Nat.reducePow] at ha hb
    simp only [Base64.encode, List.mem_cons, List.not_mem_nil, or_false] at hc
    rcases hc with rfl | rfl | rfl | rfl
    · exact encChar_printable _ (by omega)
    · exact encChar_printable _ (by omega)
    · exact encChar_printable _ (by omega)
    · decide
  | a :: b :: d :: t, c, hc => by
    have ha := a.toNat_lt
    have hb := b.toNat_lt
    have hd := d.toNat_lt
    simp only [Nat.reducePow] at ha hb hd
    simp only [Base64.encode, List.mem_cons] at hc
    rcases hc with rfl | rfl | rfl | rfl | hc
    · exact encChar_printable _ (by omega)
    · exact encChar_printable _ (by omega)
    · exact encChar_printable _ (by omega)
    · exact encChar_printable _ (by omega)
    · exact encode_printable t c hc

theorem tokChar_printable {c : Char} (h : isTokChar c = true) : Printable c := by
  simp only [isTokChar, isTchar, isAlph, isDig, Bool.or_eq_true, Bool.and_eq_true, decide_eq_true_eq, beq_iff_eq] at h
  have key : ∀ (a b : Char), Printable a → Printable b → a ≤ c → c ≤ b → Printable c := by
    intro a b ha hb h1 h2
    have h1 : a.toNat ≤ c.toNat := h1
    have h2 : c.toNat ≤ b.toNat := h2
    unfold Printable at *; omega
  have key2 : ∀ (a : Char), Printable a → c = a → Printable c := by rintro a ha rfl; exact ha
  rcases h with (h | h) | h
  · rcases h with ((((((((((((((((h | h) | h) | h) | h) | h) | h) | h) | h) | h) | h) | h) | h) | h) | h) | h) | h) <;>
      first
      | exact key2 _ (by decide) h
      | exact key _ _ (by decide) (by decide) h.1 h.2
      | (rcases h with h | h <;> exact key _ _ (by decide) (by decide) h.1 h.2)
  · exact key2 _ (by decide) h
  · exact key2 _ (by decide) h

theorem serBare_printable {b : Bare} (h : LegalBare b) : ∀ c ∈ serBare b, Printable c := by
  intro c hc
  cases b with
  | int n => exact serInt_printable n c hc
  | dec n =>
    simp only [serBare, serDec, List.mem_append, List.mem_singleton] at hc
    rcases hc with ((hc | hc) | rfl) | hc
    · split at hc
      · simp at hc; subst hc; decide
      · simp at hc
    · exact digits_printable (natStr_isDig _) c hc
    · decide
    · exact digits_printable (serFrac_spec (f := n.natAbs % 1000) (by omega)).1 c hc
  | str s =>
    simp only [serBare, List.mem_cons, List.mem_append, List.not_mem_nil, or_false] at hc
    rcases hc with rfl | hc | rfl
    · decide
    · exact escStr_printable h c hc
    · decide
  | tok s => exact tokChar_printable (h.2 c hc)
  | bytes b =>
    simp only [serBare, List.mem_cons, List.mem_append, List.not_mem_nil, or_false] at hc
    rcases hc with rfl | hc | rfl
    · decide
    · exact encode_printable b c hc
    · decide
  | bool b => cases b <;> simp [serBare] at hc <;> rcases hc with rfl | rfl <;> decide
  | date n =>
    simp only [serBare, List.mem_cons] at hc
    rcases hc with rfl | hc
    · decide
    · exact serInt_printable n c hc
  | disp b =>
    simp only [serBare, List.mem_cons, List.mem_append, List.not_mem_nil, or_false] at hc
    rcases hc with rfl | rfl | hc | rfl
    · decide
    · decide
    · exact escDisp_printable b c hc
    · decide

theorem legalKey_printable {k : Str} (h : LegalKey k) : ∀ c ∈ k, Printable c :=
  fun c hc => tokChar_printable ((legalKey_tok h).2 c hc)

theorem serParams_printable {p : Params} (h : LegalParams p) : ∀ c ∈ serParams p, Printable c := by
  intro c hc
  unfold serParams at hc
  obtain ⟨kv, hkv, hc⟩ := List.mem_flatMap.1 hc
  obtain ⟨k, v⟩ := kv
  obtain ⟨hk, hv⟩ := h.2 _ hkv
  simp only [serParam, List.mem_cons, List.mem_append] at hc
  rcases hc with rfl | hc | hc
  · decide
  · exact legalKey_printable hk c hc
  · split at hc
    · simp at hc
    · simp only [List.mem_cons] at hc
      rcases hc with rfl | hc
      · decide
      · exact serBare_printable hv c hc

theorem serItem_printable {i : Item} (h : LegalItem i) : ∀ c ∈ serItem i, Printable c := by
  intro c hc
  simp only [serItem, List.mem_append] at hc
  rcases hc with hc | hc
  · exact serBare_printable h.1 c hc
  · exact serParams_printable h.2 c hc

theorem serEntry_printable {e : Entry} (h : LegalEntry e) : ∀ c ∈ serEntry e, Printable c := by
  intro c hc
  cases e with
  | item i => exact serItem_printable h c hc
  | inner l =>
    simp only [serEntry, serInner, List.mem_cons, List.mem_append] at hc
    rcases hc with rfl | hc | rfl | hc
    · decide
    · refine join_all (p := Printable) (by decide) ?_ c hc
      intro a ha
      obtain ⟨i, hi, rfl⟩ := List.mem_map.1 ha
      exact serItem_printable (h.1 i hi)
    · decide
    · exact serParams_printable h.2 c hc

theorem serMember_printable {k : Str} {e : Entry} (hk : LegalKey k) (h : LegalEntry e) : ∀ c ∈ serMember (k, e), Printable c := by
  intro c hc
  by_cases ht : ∃ p, e = .item ⟨.bool true, p⟩
  · obtain ⟨p, rfl⟩ := ht
    rw [serMember_true, List.mem_append] at hc
    rcases hc with hc | hc
    · exact legalKey_printable hk c hc
    · exact serParams_printable h.2 c hc
  · rw [serMember_other k (fun p hp => ht ⟨p, hp⟩)] at hc
    simp only [List.mem_append, List.mem_cons] at hc
    rcases hc with hc | rfl | hc
    · exact legalKey_printable hk c hc
    · decide
    · exact serEntry_printable h c hc

theorem canon_printable {v t : Str} (h : Canon v t) : ∀ c ∈ t, Printable c := by
  rcases h with ⟨l, h1, h2⟩ | ⟨_, d, h1, h2⟩
  · have hl := parseList_legal h1
    unfold serList at h2
    split at h2
    · cases h2
    injection h2 with h2; subst h2
    refine join_all (p := Printable) (by decide) ?_
    intro a ha
    obtain ⟨e, he, rfl⟩ := List.mem_map.1 ha
    exact serEntry_printable (hl e he)
  · have hl := parseDict_legal h1
    unfold serDict at h2
    split at h2
    · cases h2
    injection h2 with h2; subst h2
    refine join_all (p := Printable) (by decide) ?_
    intro a ha
    obtain ⟨kv, he, rfl⟩ := List.mem_map.1 ha
    exact serMember_printable (hl.2 kv he).1 (hl.2 kv he).2

theorem lookup_mem {κ ν : Type} [BEq κ] [LawfulBEq κ] {d : List (κ × ν)} {k : κ} {v : ν} (h : d.lookup k = some v) : (k, v) ∈ d := by
  induction d with
  | nil => simp at h
  | cons x t ih =>
    obtain ⟨k', v'⟩ := x
    rw [List.lookup_cons] at h
    cases hk : k == k' with
    | true => rw [hk] at h; simp only [Option.some.injEq] at h; subst h; rw [LawfulBEq.eq_of_beq hk]; simp
    | false =>
      rw [hk] at h
      exact List.mem_cons_of_mem _ (ih h)

theorem members_printable {k : Str} {vs out : List Str} (h : Members k vs out) : ∀ t ∈ out, ∀ c ∈ t, Printable c := by
  obtain ⟨ds, h1, rfl⟩ := h
  intro t ht
  obtain ⟨d, hd, hk⟩ := List.mem_filterMap.1 ht
  cases hl : d.lookup k with
  | none => rw [hl] at hk; simp at hk
  | some e =>
    rw [hl] at hk
    simp only [Option.map_some, Option.some.injEq] at hk
    subst hk
    have : ∃ v, parseDict v = some d := by
      clear ht hl
      induction h1 with
      | nil => simp at hd
      | cons h _ ih =>
        rcases List.mem_cons.1 hd with rfl | hd
        · exact ⟨_, h⟩
        · exact ih hd
    obtain ⟨v, hv⟩ := this
    exact serEntry_printable ((parseDict_legal hv).2 _ (lookup_mem hl)).2

end Verif
