import Verif.Proofs.RfcStructured
/-!
Lemmas for C95: `sf` and `key` on one identifier.
-/
namespace Verif.RfcLines
open Sfv Spec Grammar Rfc9421

/-- The entry is a token that is a key, and the member is this key without a value. -/
def Flag (e : Entry) (x : Str × Entry) : Prop := ∃ k ps, LegalKey k ∧ e = .item ⟨.tok k, ps⟩ ∧ x = (k, .item ⟨.bool true, ps⟩)

theorem memberText_key {x : Str × Entry} {t : Str} (h : MemberText x t) : LegalKey x.1 := by
  cases h with
  | value h _ => exact h
  | flag h _ _ => exact h

theorem list_flags {u : Str} {xs : List (Str × Entry)} {l : List Entry} (h : parseSep parseMember u = some xs)
    (hl : parseSep parseEntry u = some l) : List.Forall₂ Flag l xs := by
  refine parseSep_ind parseMember_prog (P := fun u xs => ∀ l, parseSep parseEntry u = some l → List.Forall₂ Flag l xs)
    ?_ ?_ ?_ _ u xs (Nat.lt_succ_self _) h l hl
  · intro l h; rw [parseSep_nil] at h; injection h with h; subst h; exact .nil
  · intro s x r hs hx hr l h
    rw [parseSep_eq parseEntry_prog hs] at h
    obtain ⟨_, hm, _⟩ := parseMember_text hx
    have hk := memberText_key hm
    clear hm
    rcases member_entry hx with ⟨r', he⟩ | ⟨ps, hp, he⟩ | ⟨d, r', rfl, hd⟩
    · rw [he] at h; simp [isOws] at h
    · rw [he] at h; simp only [hr] at h
      injection h with h; subst h
      obtain ⟨k, e⟩ := x
      simp only at hp hk; subst hp
      exact .cons ⟨k, ps, hk, rfl, rfl⟩ .nil
    · rw [List.dropWhile_cons, if_neg (by simp [(tokChar_not hd).1])] at hr; cases hr
  · intro s x r v u xs hs hx hr hv hu hxs ih l h
    rw [parseSep_eq parseEntry_prog hs] at h
    obtain ⟨_, hm, _⟩ := parseMember_text hx
    have hk := memberText_key hm
    clear hm
    rcases member_entry hx with ⟨r', he⟩ | ⟨ps, hp, he⟩ | ⟨d, r', rfl, hd⟩
    · rw [he] at h; simp [isOws] at h
    · rw [he] at h; simp only [hr, if_true, hv] at h
      cases u with
      | nil => exact absurd rfl hu
      | cons d u =>
        simp only at h
        split at h
        · rename_i ys hy
          injection h with h; subst h
          obtain ⟨k, e⟩ := x
          simp only at hp hk; subst hp
          exact .cons ⟨k, ps, hk, rfl, rfl⟩ (ih _ hy)
        · cases h
    · rw [List.dropWhile_cons, if_neg (by simp [(tokChar_not hd).1])] at hr
      injection hr with hr _
      exact absurd hr (tokChar_not hd).2.1

theorem flag_text {e : Entry} {x : Str × Entry} {t : Str} (h : Flag e x) (he : EntryText e t) : MemberText x t := by
  obtain ⟨k, ps, hk, rfl, rfl⟩ := h
  cases he with
  | item h =>
    obtain ⟨raw, b, p, h1, h2, h3, rfl⟩ := h
    cases h1
    exact .flag hk h2 h3

theorem flags_sep {l : List Entry} {xs : List (Str × Entry)} {t : Str} (h : List.Forall₂ Flag l xs) (hl : SepText EntryText l t) :
    SepText MemberText xs t := by
  induction hl generalizing xs with
  | one he => cases h with | cons h1 h2 => cases h2; exact .one (flag_text h1 he)
  | cons he ha hb _ ih => cases h with | cons h1 h2 => exact .cons (flag_text h1 he) ha hb (ih h2)

/-- Which dictionary a list can be read as depends on its members only, not on the text. -/
theorem flags_field {l : List Entry} {xs : List (Str × Entry)} {t : Str} (hl : FieldText EntryText l t) :
    FieldText MemberText xs t ↔ List.Forall₂ Flag l xs := by
  constructor
  · intro h
    exact list_flags ((reader_member.field t xs).2 h) ((reader_entry.field t l).2 hl)
  · intro h
    rcases hl with ⟨rfl, n, rfl⟩ | ⟨n, u, a, h1, h2, rfl⟩
    · cases h; exact Or.inl ⟨rfl, n, rfl⟩
    · exact Or.inr ⟨n, u, a, flags_sep h h1, h2, rfl⟩

/-- Strict serialization does not change the dictionary. -/
theorem canon_dict {t o : Str} (h : Canon t o) : parseDict o = parseDict t := by
  rcases h with ⟨l, h1, h2⟩ | ⟨_, d, h1, h2⟩
  · have h3 := parseList_ser (parseList_legal h1) h2
    rw [parseList_iff] at h1 h3
    refine Option.ext fun d => ?_
    rw [parseDict_iff, parseDict_iff]
    unfold DictText
    simp only [flags_field h1, flags_field h3]
  · rw [h1, parseDict_ser (parseDict_legal h1) h2]

theorem canon_entry {e : Entry} {o : Str} (he : LegalEntry e) : Canon (serEntry e) o ↔ o = serEntry e := by
  have h : parseList (serEntry e) = some [e] := parseList_ser (l := [e]) (by simpa [LegalList] using he) (serList_one e)
  unfold Canon
  rw [h]
  simp [serList_one, eq_comm]

end Verif.RfcLines
