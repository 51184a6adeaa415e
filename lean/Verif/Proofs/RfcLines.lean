import Verif.Proofs.Rfc
import Verif.Proofs.SfvGrammarTop
/-!
Lemmas for C94: fields of several lines that are all lists or dictionaries of their own, joined by commas.
-/
namespace Verif.RfcLines
open Sfv Spec Grammar Rfc9421

/-! ### The last character of a text -/

/-- Does not end with white space. -/
def Solid (t : Str) : Prop := t ≠ [] ∧ ∀ c, t.getLast? = some c → isOws c = false

theorem solid_append {a b : Str} (h : Solid b) : Solid (a ++ b) := by
  refine ⟨by simp [h.1], ?_⟩
  intro c hc
  rw [List.getLast?_append] at hc
  cases e : b.getLast? with
  | none => exact absurd (List.getLast?_eq_none_iff.1 e) h.1
  | some d => rw [e] at hc; exact h.2 c (by rw [e]; exact hc)

theorem solid_cons {a : Char} {b : Str} (h : Solid b) : Solid (a :: b) := solid_append (a := [a]) h

theorem solid_end {a : Str} {c : Char} (h : isOws c = false) : Solid (a ++ [c]) :=
  solid_append ⟨by simp, by intro d hd; simp at hd; subst hd; exact h⟩

theorem solid_all {t : Str} (hne : t ≠ []) (h : ∀ c ∈ t, isOws c = false) : Solid t :=
  ⟨hne, fun c hc => h c (List.mem_of_getLast? hc)⟩

theorem solid_digits {lo hi : Nat} {ds : Str} (h : Digits (lo + 1) hi ds) : Solid ds := by
  refine solid_all (digits_ne h) (fun c hc => ?_)
  have := digits_isDig h c hc
  cases e : isOws c with
  | false => rfl
  | true =>
    simp only [isOws, Bool.or_eq_true, beq_iff_eq] at e
    rcases e with rfl | rfl <;> simp [isDig] at this

theorem solid_bare {b : Bare} {t : Str} (h : BareText b t) : Solid t := by
  cases h with
  | int h => exact solid_append (solid_digits h)
  | dec _ h => exact solid_append (solid_cons (solid_digits h))
  | str _ => exact solid_end rfl
  | tok h =>
    obtain ⟨c, u, rfl, hc, hu⟩ := h
    refine solid_all (by simp) ?_
    intro d hd
    cases e : isOws d with
    | false => rfl
    | true =>
      exfalso
      simp only [isOws, Bool.or_eq_true, beq_iff_eq] at e
      rcases List.mem_cons.1 hd with rfl | hd
      · rcases e with rfl | rfl <;> simp [Alpha] at hc
      · have := hu d hd
        rcases e with rfl | rfl <;> simp [Alpha, Digit] at this
  | bytes _ => exact solid_end rfl
  | yes => exact solid_end (a := ['?']) rfl
  | no => exact solid_end (a := ['?']) rfl
  | date h => exact solid_append (solid_digits h)
  | disp _ _ => exact solid_end rfl

theorem solid_key {k : Str} (h : LegalKey k) : Solid k := by
  obtain ⟨c, u, rfl, hc, hu⟩ := legalKey_cons h
  refine solid_all (by simp) ?_
  intro d hd
  cases e : isOws d with
  | false => rfl
  | true =>
    exfalso
    simp only [isOws, Bool.or_eq_true, beq_iff_eq] at e
    rcases List.mem_cons.1 hd with rfl | hd
    · rcases e with rfl | rfl <;> revert hc <;> decide
    · have := hu d hd
      rcases e with rfl | rfl <;> revert this <;> decide

theorem solid_params {raw : List (Str × Bare)} {p : Str} (h : ParamsText raw p) : p = [] ∨ Solid p := by
  induction h with
  | nil => exact Or.inl rfl
  | flag hk _ ih =>
    right
    rcases ih with rfl | ih
    · rw [List.append_nil]; exact solid_append (solid_key hk)
    · exact solid_append ih
  | value hk hb _ ih =>
    right
    rcases ih with rfl | ih
    · rw [List.append_nil]; exact solid_append (solid_cons (solid_bare hb))
    · exact solid_append ih

theorem solid_with {a p : Str} {raw : List (Str × Bare)} (ha : Solid a) (h : ParamsText raw p) : Solid (a ++ p) := by
  rcases solid_params h with rfl | h
  · rwa [List.append_nil]
  · exact solid_append h

theorem solid_item {i : Item} {t : Str} (h : ItemText i t) : Solid t := by
  obtain ⟨raw, b, p, hb, hp, _, rfl⟩ := h
  exact solid_with (solid_bare hb) hp

theorem solid_entry {e : Entry} {t : Str} (h : EntryText e t) : Solid t := by
  cases h with
  | item h => exact solid_item h
  | @inner is t raw p ps _ hp _ =>
    rw [show '(' :: t ++ ')' :: p = ('(' :: t ++ [')']) ++ p by simp]
    exact solid_with (solid_end rfl) hp

theorem solid_member {x : Str × Entry} {t : Str} (h : MemberText x t) : Solid t := by
  cases h with
  | value _ h => exact solid_append (solid_cons (solid_entry h))
  | flag hk hp _ => exact solid_with (solid_key hk) hp

theorem solid_sep {α : Type} {T : α → Str → Prop} (hT : ∀ x t, T x t → Solid t) {l : List α} {t : Str} (h : SepText T l t) : Solid t := by
  induction h with
  | one h => exact hT _ _ h
  | cons _ _ _ _ ih => exact solid_append ih

/-! ### Lines without surrounding white space -/

theorem blank_eq : blank = isOws := rfl

theorem drop_all {a : Str} (ha : Ows a) : a.dropWhile isOws = [] := by simpa using drop_ows (r := []) ha (by simp)

theorem strip_eq {a t b : Str} (ha : Ows a) (hb : Ows b) (hh : ∀ c, t.head? = some c → isOws c = false) (ht : Solid t) :
    strip (a ++ t ++ b) = t := by
  unfold strip
  rw [blank_eq, List.append_assoc, drop_ows ha (by
    intro c hc
    rw [List.head?_append] at hc
    cases e : t.head? with
    | none => exact absurd (List.head?_eq_none_iff.1 e) ht.1
    | some d => rw [e] at hc; exact hh c (by rw [e]; exact hc)),
    List.reverse_append, drop_ows (by intro c hc; exact hb c (List.mem_reverse.1 hc)) (by
      intro c hc; rw [List.head?_reverse] at hc; exact ht.2 c hc), List.reverse_reverse]

theorem strip_ows {a : Str} (ha : Ows a) : strip a = [] := by
  unfold strip
  rw [blank_eq, drop_all ha]; rfl

section
variable {α : Type} {p : Str → Option (α × Str)} {T : α → Str → Prop}

/-- A parser of members and their grammar. -/
structure Reader (p : Str → Option (α × Str)) (T : α → Str → Prop) : Prop where
  prog : Prog p
  loc : LocC p
  of : ∀ x t r, T x t → StopP r → p (t ++ r) = some (x, r)
  text : ∀ s x r, p s = some (x, r) → ∃ t, T x t ∧ s = t ++ r
  head : ∀ x t, T x t → ∃ c u, t = c :: u ∧ c ≠ ' ' ∧ c ≠ '\t'
  solid : ∀ x t, T x t → Solid t
  comma : ∀ t, p (',' :: t) = none

theorem reader_entry : Reader parseEntry EntryText where
  prog := parseEntry_prog
  loc := parseEntry_locC
  of := fun _ _ _ => parseEntry_of
  text := fun _ _ _ => parseEntry_text
  head := fun _ _ => entryText_head
  solid := fun _ _ => solid_entry
  comma := fun t => by
    rw [parseEntry_item (by simp)]
    simp [parseItem, parseBare, isDig, isTokStart, isAlph]

theorem reader_member : Reader parseMember MemberText where
  prog := parseMember_prog
  loc := parseMember_locC
  of := fun _ _ _ => parseMember_of
  text := fun _ _ _ => parseMember_text
  head := fun _ _ => memberText_head
  solid := fun _ _ => solid_member
  comma := fun t => by
    rw [parseMember_eq]
    simp [parseKey, isKeyStart, isLcAlpha]

theorem Reader.field (R : Reader p T) (s : Str) (l : List α) : parseSep p (s.dropWhile isSp) = some l ↔ FieldText T l s :=
  field_iff R.prog R.of R.text R.head s l

theorem strip_strip (t : Str) : strip (strip t) = strip t := by
  by_cases h : strip t = []
  · rw [h]; rfl
  · have hs : Solid (strip t) := by
      refine ⟨h, ?_⟩
      intro c hc
      unfold strip at hc
      rw [List.getLast?_reverse] at hc
      have := List.head?_dropWhile_not blank (t.dropWhile blank).reverse
      rw [hc] at this
      rw [← blank_eq]; simpa using this
    have hh : ∀ c, (strip t).head? = some c → isOws c = false := by
      intro c hc
      have e : ∃ b, t.dropWhile blank = strip t ++ b := by
        obtain ⟨b, hb⟩ := (List.dropWhile_suffix (p := blank) (l := (t.dropWhile blank).reverse))
        refine ⟨b.reverse, ?_⟩
        unfold strip
        rw [← List.reverse_append, hb, List.reverse_reverse]
      obtain ⟨b, hb⟩ := e
      have h2 : (t.dropWhile blank).head? = some c := by
        rw [hb, List.head?_append, hc]; rfl
      have := List.head?_dropWhile_not blank t
      rw [h2] at this
      rw [← blank_eq]; simpa using this
    simpa using strip_eq (a := []) (b := []) (by intro c hc; cases hc) (by intro c hc; cases hc) hh hs

/-- White space around a line does not count. -/
theorem Reader.strip (R : Reader p T) {s : Str} {l : List α} (h : parseSep p (s.dropWhile isSp) = some l) :
    parseSep p (strip s) = some l ∧ (Rfc9421.strip s = [] ↔ l = []) := by
  rcases (R.field s l).1 h with ⟨rfl, n, rfl⟩ | ⟨n, t, a, h1, h2, rfl⟩
  · rw [strip_ows (sp_ows n)]
    exact ⟨parseSep_nil, by simp⟩
  · obtain ⟨c, u, e, hc⟩ := sepText_head R.head h1
    rw [strip_eq (sp_ows n) h2 (by rw [e]; exact head_not_ows hc) (solid_sep R.solid h1)]
    refine ⟨?_, ?_⟩
    · have := parseSep_of R.prog R.of R.head h1 (a := []) (by intro c hc; cases hc)
      rwa [List.append_nil] at this
    · refine iff_of_false (by rw [e]; simp) ?_
      rintro rfl; cases h1

/-! ### Joined lines that are no list, or no dictionary -/

theorem parseSep_trailing (hp : Prog p) (hl : LocC p) {s t : Str} {xs : List α} (hs : s ≠ [])
    (h : parseSep p s = some xs) (ht : t.dropWhile isOws = []) : parseSep p (s ++ ',' :: t) = none := by
  refine parseSep_ind hp (P := fun s xs => s ≠ [] → parseSep p (s ++ ',' :: t) = none) ?_ ?_ ?_ _ s xs (Nat.lt_succ_self _) h hs
  · intro h; exact absurd rfl h
  · intro s x r hs hx hr _
    rw [parseSep_eq hp (by simp), hl _ _ _ t hx]
    simp only
    rw [dropWhile_append_of (Or.inr (comma_stop rfl t)), hr]
    simp only [List.nil_append, if_true]
    rw [ht]
  · intro s x r v u xs hs hx hr hv hu hxs ih _
    rw [parseSep_eq hp (by simp), hl _ _ _ t hx]
    simp only
    rw [dropWhile_append_of (Or.inr (comma_stop rfl t)), hr]
    simp only [List.cons_append, if_true]
    rw [dropWhile_append_of (Or.inr (comma_stop rfl t)), hv]
    have ih := ih hu
    cases u with
    | nil => exact absurd rfl hu
    | cons d u =>
      simp only [List.cons_append] at ih ⊢
      rw [ih]

/-- A text that spoils every list of texts it is in. -/
def Spoils (p : Str → Option (α × Str)) (u : Str) : Prop :=
  u ≠ [] ∧ parseSep p u = none ∧ ∀ t, parseSep p (u ++ ',' :: t) = none

theorem join_drop {us : List Str} (h : ∀ u ∈ us, Rfc9421.strip u = u) : (join (c! ", ") us).dropWhile isOws = join (c! ", ") us := by
  apply dropWhile_stop
  intro c hc
  cases us with
  | nil => cases hc
  | cons u us =>
    by_cases hu : u = []
    · subst hu
      cases us with
      | nil => cases hc
      | cons v vs =>
        rw [join_cons _ _ (by simp)] at hc
        simp at hc
        subst hc; rfl
    · rw [Rfc.join_head hu] at hc
      exact Rfc.strip_head (h u (by simp)) c hc

theorem join_empty {us : List Str} (h : join (c! ", ") us = []) : us = [] ∨ us = [[]] := by
  cases us with
  | nil => exact Or.inl rfl
  | cons u us =>
    cases us with
    | nil => right; rw [join_one] at h; rw [h]
    | cons v vs => rw [join_cons _ _ (by simp)] at h; simp at h

/-- One line that spoils the list, or an empty line next to others, and the whole is no list. -/
theorem Reader.none (R : Reader p T) : ∀ {us : List Str},
    (∀ u ∈ us, Rfc9421.strip u = u ∧ ((∃ x, parseSep p u = some x) ∨ Spoils p u)) →
    (∃ u ∈ us, Spoils p u) ∨ ([] ∈ us ∧ 2 ≤ us.length) → parseSep p (join (c! ", ") us) = none := by
  intro us
  induction us with
  | nil => intro _ h; simp at h
  | cons u vs ih =>
    intro h1 h2
    by_cases hv : vs = []
    · subst hv
      rcases h2 with ⟨w, hw, hb⟩ | ⟨_, h⟩
      · simp at hw; subst hw; exact hb.2.1
      · simp at h
    rw [join_cons _ _ hv, List.append_assoc]
    show parseSep p (u ++ ',' :: (' ' :: join (c! ", ") vs)) = Option.none
    rcases (h1 u (by simp)).2 with ⟨x, hx⟩ | hb
    swap
    · exact hb.2.2 _
    by_cases hu : u = []
    · subst hu
      rw [List.nil_append, parseSep_eq R.prog (by simp), R.comma]
    have hd : (' ' :: join (c! ", ") vs).dropWhile isOws = join (c! ", ") vs := by
      rw [List.dropWhile_cons, if_pos (by decide)]
      exact join_drop (fun v hv => (h1 v (by simp [hv])).1)
    by_cases hr : join (c! ", ") vs = []
    · exact parseSep_trailing R.prog R.loc hu hx (by rw [hd, hr])
    rw [parseSep_append R.prog R.loc hu hx (by rw [hd]; exact hr), hd, ih (fun v hv => h1 v (by simp [hv]))]
    rcases h2 with ⟨w, hw, hb⟩ | ⟨hw, hl⟩
    · rcases List.mem_cons.1 hw with rfl | hw
      · rw [hb.2.1] at hx; cases hx
      · exact Or.inl ⟨w, hw, hb⟩
    · rcases List.mem_cons.1 hw with e | hw
      · exact absurd e.symm hu
      · right
        refine ⟨hw, ?_⟩
        cases vs with
        | nil => exact absurd rfl hv
        | cons v vs =>
          cases vs with
          | nil =>
            simp at hw; subst hw
            exact absurd rfl hr
          | cons => simp

end

/-! ### Texts that are lists, and texts that are dictionaries -/

theorem keyChar_tokChar {c : Char} (h : isKeyChar c = true) : isTokChar c = true := by
  simp only [isKeyChar, Bool.or_eq_true] at h
  simp only [isTokChar, isTchar, isAlph, Bool.or_eq_true]
  simp only [isLcAlpha] at h
  rcases h with ((((h | h) | h) | h) | h) | h <;> simp [h]

theorem keyStart_tokStart {c : Char} (h : isKeyStart c = true) : isTokStart c = true := by
  simp only [isKeyStart, isLcAlpha, Bool.or_eq_true] at h
  simp only [isTokStart, isAlph, Bool.or_eq_true]
  rcases h with h | h <;> simp [h]

/-- A key is the beginning of a token. -/
theorem key_or_longer (t : Str) : (t.takeWhile isKeyChar = t.takeWhile isTokChar ∧ t.dropWhile isKeyChar = t.dropWhile isTokChar) ∨
    ∃ d r, t.dropWhile isKeyChar = d :: r ∧ isTokChar d = true := by
  induction t with
  | nil => exact Or.inl ⟨rfl, rfl⟩
  | cons c t ih =>
    by_cases h : isKeyChar c = true
    · simp only [List.takeWhile_cons, List.dropWhile_cons, h, keyChar_tokChar h, if_true]
      rcases ih with ⟨h1, h2⟩ | h1
      · exact Or.inl ⟨by rw [h1], h2⟩
      · exact Or.inr h1
    · by_cases h2 : isTokChar c = true
      · exact Or.inr ⟨c, t, by rw [List.dropWhile_cons, if_neg h], h2⟩
      · left
        simp [h, h2]

theorem parseEntry_tok {c : Char} {t : Str} (h : isKeyStart c = true) :
    parseEntry (c :: t) = match parseParams (t.dropWhile isTokChar) with
      | none => none
      | some (ps, r) => some (.item ⟨.tok (c :: t.takeWhile isTokChar), ps⟩, r) := by
  have hc : ∀ d, isKeyStart d = false → c ≠ d := by rintro d hd rfl; rw [h] at hd; cases hd
  have hd : isDig c = false := by
    simp only [isKeyStart, isLcAlpha, Bool.or_eq_true, Bool.and_eq_true, decide_eq_true_eq, beq_iff_eq] at h
    rcases h with ⟨h, _⟩ | rfl
    · cases e : isDig c with
      | false => rfl
      | true =>
        simp only [isDig, Bool.and_eq_true, decide_eq_true_eq] at e
        exact absurd (Char.le_trans h e.2) (by decide)
    · rfl
  rw [parseEntry_item (by simp; exact hc '(' rfl)]
  unfold parseItem parseBare
  rw [if_neg (by simp [hd]; exact hc '-' rfl), if_neg (hc _ rfl), if_neg (hc _ rfl), if_neg (hc _ rfl), if_neg (hc _ rfl),
    if_neg (hc _ rfl), if_pos (keyStart_tokStart h)]
  simp only
  cases parseParams (t.dropWhile isTokChar) <;> rfl

theorem tokChar_not {d : Char} (h : isTokChar d = true) : isOws d = false ∧ d ≠ ',' ∧ d ≠ '=' ∧ d ≠ ';' := by
  have : ∀ e, isTokChar e = false → d ≠ e := by rintro e he rfl; rw [h] at he; cases he
  refine ⟨?_, this _ rfl, this _ rfl, this _ rfl⟩
  simp [isOws, this ' ' rfl, this '\t' rfl]

theorem params_none {s : Str} (h : s.head? ≠ some ';') : parseParams s = some ([], s) := by
  rw [parseParams_eq, parseParamsA_stop _ h]

/-- A member that is read, as an entry: with a value it is a token followed by an equals sign, without one it is the token. -/
theorem member_entry {s r : Str} {x : Str × Entry} (h : parseMember s = some (x, r)) :
    (∃ r', parseEntry s = some (.item ⟨.tok x.1, []⟩, '=' :: r')) ∨
    (∃ ps, x.2 = .item ⟨.bool true, ps⟩ ∧ parseEntry s = some (.item ⟨.tok x.1, ps⟩, r)) ∨
    ∃ d r', r = d :: r' ∧ isTokChar d = true := by
  rw [parseMember_eq] at h
  cases s with
  | nil => cases h
  | cons c t =>
    by_cases hc : isKeyStart c = true
    swap
    · simp [parseKey, hc] at h
    simp only [parseKey, hc, if_true] at h
    rw [parseEntry_tok hc]
    rcases key_or_longer t with ⟨h1, h2⟩ | ⟨d, r', h1, h2⟩
    · split at h
      · rename_i he
        left
        split at h
        · cases h
        rename_i e r1 hr
        injection h with h; injection h with h3 h4; subst h3 h4
        rw [← h2, params_none (by rw [he]; simp)]
        obtain ⟨r2, e2⟩ : ∃ r2, t.dropWhile isKeyChar = '=' :: r2 := by
          cases e3 : t.dropWhile isKeyChar with
          | nil => rw [e3] at he; cases he
          | cons a b => rw [e3] at he; injection he with he; subst he; exact ⟨b, rfl⟩
        exact ⟨r2, by rw [e2, h1]⟩
      · right; left
        split at h
        · cases h
        rename_i ps r1 hr
        injection h with h; injection h with h3 h4; subst h3 h4
        exact ⟨ps, rfl, by rw [← h2, hr, h1]⟩
    · right; right
      have hn := tokChar_not h2
      rw [h1, if_neg (by simp; exact hn.2.2.1), params_none (by simp; exact hn.2.2.2)] at h
      injection h with h; injection h with h3 h4; subst h3 h4
      exact ⟨d, r', rfl, h2⟩

/-- An entry that is read up to a comma or the end, as a member: no member at all, or the key without a value, or a key that ends too
early. -/
theorem entry_member {s r : Str} {x : Entry} (h : parseEntry s = some (x, r)) (hr : r.head? ≠ some '=') :
    (s ≠ [] ∧ ∀ t, parseMember (s ++ t) = none) ∨
    (∃ k ps, x = .item ⟨.tok k, ps⟩ ∧ parseMember s = some ((k, .item ⟨.bool true, ps⟩), r)) ∨
    ∃ y d r', parseMember s = some (y, d :: r') ∧ isTokChar d = true := by
  cases s with
  | nil => cases h
  | cons c t =>
    by_cases hc : isKeyStart c = true
    swap
    · left
      refine ⟨by simp, fun u => ?_⟩
      rw [parseMember_eq]
      simp [parseKey, hc]
    rw [parseEntry_tok hc] at h
    rw [parseMember_eq]
    simp only [parseKey, hc, if_true]
    split at h
    · cases h
    rename_i ps r1 hp
    injection h with h; injection h with h3 h4; subst h3 h4
    right
    rcases key_or_longer t with ⟨h1, h2⟩ | ⟨d, r', h1, h2⟩
    · left
      rw [h2, h1]
      have he : (t.dropWhile isTokChar).head? ≠ some '=' := by
        intro e
        rw [params_none (by rw [e]; simp)] at hp
        injection hp with hp; injection hp with _ hp
        rw [hp] at e; exact hr e
      exact ⟨_, ps, rfl, by rw [if_neg he, hp]⟩
    · right
      have hn := tokChar_not h2
      rw [h1, if_neg (by simp; exact hn.2.2.1), params_none (by simp; exact hn.2.2.2)]
      exact ⟨_, d, r', rfl, h2⟩

/-- A dictionary that is no list spoils every list. -/
theorem dict_spoils {u : Str} {xs : List (Str × Entry)} (h : parseSep parseMember u = some xs) (hl : parseSep parseEntry u = none) :
    Spoils parseEntry u := by
  refine ⟨(by rintro rfl; rw [parseSep_nil] at hl; cases hl), hl, fun t => ?_⟩
  refine parseSep_ind parseMember_prog (P := fun u _ => parseSep parseEntry u = none → parseSep parseEntry (u ++ ',' :: t) = none)
    ?_ ?_ ?_ _ u xs (Nat.lt_succ_self _) h hl
  · intro h; rw [parseSep_nil] at h; cases h
  · intro s x r hs hx hr h
    rcases member_entry hx with ⟨r', he⟩ | ⟨ps, _, he⟩ | ⟨d, r', rfl, hd⟩
    · rw [parseSep_eq parseEntry_prog (by simp), parseEntry_locC _ _ _ t he]
      simp [isOws]
    · rw [parseSep_eq parseEntry_prog hs, he] at h
      simp [hr] at h
    · rw [List.dropWhile_cons, if_neg (by simp [(tokChar_not hd).1])] at hr; cases hr
  · intro s x r v u xs hs hx hr hv hu hxs ih h
    rcases member_entry hx with ⟨r', he⟩ | ⟨ps, _, he⟩ | ⟨d, r', rfl, hd⟩
    · rw [parseSep_eq parseEntry_prog (by simp), parseEntry_locC _ _ _ t he]
      simp [isOws]
    · rw [parseSep_eq parseEntry_prog hs, he] at h
      simp only [hr, if_true, hv] at h
      have h2 : parseSep parseEntry u = none := by
        cases u with
        | nil => exact absurd rfl hu
        | cons d u =>
          simp only at h
          split at h
          · cases h
          · assumption
      rw [parseSep_eq parseEntry_prog (by simp), parseEntry_locC _ _ _ t he]
      simp only
      rw [dropWhile_append_of (Or.inr (comma_stop rfl t)), hr]
      simp only [List.cons_append, if_true]
      rw [dropWhile_append_of (Or.inr (comma_stop rfl t)), hv]
      have ih := ih h2
      cases u with
      | nil => exact absurd rfl hu
      | cons d u =>
        simp only [List.cons_append] at ih ⊢
        rw [ih]
    · rw [List.dropWhile_cons, if_neg (by simp [(tokChar_not hd).1])] at hr
      injection hr with hr _
      exact absurd hr (tokChar_not hd).2.1

theorem not_equals {r : Str} (h : r.dropWhile isOws = [] ∨ ∃ t, r.dropWhile isOws = ',' :: t) : r.head? ≠ some '=' := by
  intro e
  cases r with
  | nil => cases e
  | cons c r =>
    injection e with e; subst e
    rw [List.dropWhile_cons, if_neg (by decide)] at h
    rcases h with h | ⟨t, h⟩ <;> cases h

/-- A list that is no dictionary spoils every dictionary. -/
theorem list_spoils {u : Str} {xs : List Entry} (h : parseSep parseEntry u = some xs) (hl : parseSep parseMember u = none) :
    Spoils parseMember u := by
  refine ⟨(by rintro rfl; rw [parseSep_nil] at hl; cases hl), hl, fun t => ?_⟩
  refine parseSep_ind parseEntry_prog (P := fun u _ => parseSep parseMember u = none → parseSep parseMember (u ++ ',' :: t) = none)
    ?_ ?_ ?_ _ u xs (Nat.lt_succ_self _) h hl
  · intro h; rw [parseSep_nil] at h; cases h
  · intro s x r hs hx hr h
    rcases entry_member hx (not_equals (Or.inl hr)) with ⟨_, he⟩ | ⟨k, ps, _, he⟩ | ⟨y, d, r', he, hd⟩
    · rw [parseSep_eq parseMember_prog (by simp), he]
    · rw [parseSep_eq parseMember_prog hs, he] at h
      simp [hr] at h
    · rw [parseSep_eq parseMember_prog (by simp), parseMember_locC _ _ _ t he]
      simp [(tokChar_not hd).1, (tokChar_not hd).2.1]
  · intro s x r v u xs hs hx hr hv hu hxs ih h
    rcases entry_member hx (not_equals (Or.inr ⟨_, hr⟩)) with ⟨_, he⟩ | ⟨k, ps, _, he⟩ | ⟨y, d, r', he, hd⟩
    · rw [parseSep_eq parseMember_prog (by simp), he]
    · rw [parseSep_eq parseMember_prog hs, he] at h
      simp only [hr, if_true, hv] at h
      have h2 : parseSep parseMember u = none := by
        cases u with
        | nil => exact absurd rfl hu
        | cons d u =>
          simp only at h
          split at h
          · cases h
          · assumption
      rw [parseSep_eq parseMember_prog (by simp), parseMember_locC _ _ _ t he]
      simp only
      rw [dropWhile_append_of (Or.inr (comma_stop rfl t)), hr]
      simp only [List.cons_append, if_true]
      rw [dropWhile_append_of (Or.inr (comma_stop rfl t)), hv]
      have ih := ih h2
      cases u with
      | nil => exact absurd rfl hu
      | cons d u =>
        simp only [List.cons_append] at ih ⊢
        rw [ih]
    · rw [parseSep_eq parseMember_prog (by simp), parseMember_locC _ _ _ t he]
      simp [(tokChar_not hd).1, (tokChar_not hd).2.1]

/-- A text that is a list and a dictionary: the members are the tokens of the list. -/
theorem list_and_dict {u : Str} {xs : List (Str × Entry)} {l : List Entry} (h : parseSep parseMember u = some xs)
    (hl : parseSep parseEntry u = some l) : l.map serEntry = xs.map serMember := by
  refine parseSep_ind parseMember_prog (P := fun u xs => ∀ l, parseSep parseEntry u = some l → l.map serEntry = xs.map serMember)
    ?_ ?_ ?_ _ u xs (Nat.lt_succ_self _) h l hl
  · intro l h; rw [parseSep_nil] at h; injection h with h; subst h; rfl
  · intro s x r hs hx hr l h
    rw [parseSep_eq parseEntry_prog hs] at h
    rcases member_entry hx with ⟨r', he⟩ | ⟨ps, hp, he⟩ | ⟨d, r', rfl, hd⟩
    · rw [he] at h; simp [isOws] at h
    · rw [he] at h; simp only [hr] at h
      injection h with h; subst h
      obtain ⟨k, e⟩ := x
      simp only at hp; subst hp
      rfl
    · rw [List.dropWhile_cons, if_neg (by simp [(tokChar_not hd).1])] at hr; cases hr
  · intro s x r v u xs hs hx hr hv hu hxs ih l h
    rw [parseSep_eq parseEntry_prog hs] at h
    rcases member_entry hx with ⟨r', he⟩ | ⟨ps, hp, he⟩ | ⟨d, r', rfl, hd⟩
    · rw [he] at h; simp [isOws] at h
    · rw [he] at h; simp only [hr, if_true, hv] at h
      cases u with
      | nil => exact absurd rfl hu
      | cons d u =>
        simp only at h
        split at h
        · rename_i ys hy
          injection h with h; subst h
          obtain ⟨k, e⟩ := x
          simp only at hp; subst hp
          rw [List.map_cons, List.map_cons, ih _ hy]
          rfl
        · cases h
    · rw [List.dropWhile_cons, if_neg (by simp [(tokChar_not hd).1])] at hr
      injection hr with hr _
      exact absurd hr (tokChar_not hd).2.1

end Verif.RfcLines
