import Verif.Proofs.SfvCanonical
import Verif.Props.C63
import Verif.Props.C19
import Verif.Props.C32
/-!
C64 The serializer writes the canonical text of RFC 9651 section 4.1. `Spec/Canonical.lean` says which text of a value that is.
-/
namespace Verif
open Sfv Spec Grammar

/-- `t` is a canonical text of the list exactly when the list is legal and the serializer writes `t`. -/
theorem C64_list (l : SList) (t : Str) : CanonList l t ↔ LegalList l ∧ serList l = some t := canonList_iff

/-- The same for dictionaries. -/
theorem C64_dict (d : Dict) (t : Str) : CanonDict d t ↔ LegalDict d ∧ serDict d = some t := canonDict_iff

/-- The same for a single item. -/
theorem C64_item (i : Item) (t : Str) : CanonItem i t ↔ LegalItem i ∧ t = serItem i := canonItem_iff

/-- A canonical text denotes its value, and a value has at most one canonical text. -/
theorem C64_denotes :
    (∀ l t, CanonList l t → ListText l t ∧ ∀ u, CanonList l u → u = t) ∧
    (∀ d t, CanonDict d t → DictText d t ∧ ∀ u, CanonDict d u → u = t) := by
  constructor
  · intro l t h
    obtain ⟨h1, h2⟩ := (C64_list l t).1 h
    refine ⟨(C63_list _ _).1 (parseList_ser h1 h2), fun u hu => ?_⟩
    have := ((C64_list l u).1 hu).2
    rw [h2] at this; injection this with this; exact this.symm
  · intro l t h
    obtain ⟨h1, h2⟩ := (C64_dict l t).1 h
    refine ⟨(C63_dict _ _).1 (parseDict_ser h1 h2), fun u hu => ?_⟩
    have := ((C64_dict l u).1 hu).2
    rw [h2] at this; injection this with this; exact this.symm

/-- What is read and not empty is written back canonically. -/
theorem C64_written (s : Str) :
    (∀ l, ListText l s → l ≠ [] → ∃ t, serList l = some t ∧ CanonList l t) ∧
    (∀ d, DictText d s → d ≠ [] → ∃ t, serDict d = some t ∧ CanonDict d t) := by
  constructor
  · intro l h hne
    have h := (C63_list s l).2 h
    obtain ⟨hl, hs⟩ := C32_list_round_trip h
    obtain ⟨t, ht, _⟩ := hs hne
    exact ⟨t, ht, (C64_list l t).2 ⟨hl, ht⟩⟩
  · intro l h hne
    have h := (C63_dict s l).2 h
    obtain ⟨hl, hs⟩ := C32_dict_round_trip h
    obtain ⟨t, ht, _⟩ := hs hne
    exact ⟨t, ht, (C64_dict l t).2 ⟨hl, ht⟩⟩

/-- The `sf` parameter: the value of a line is the canonical text of the list that the line denotes, or, if it denotes no list, of
the dictionary that it denotes. Otherwise the line is refused. -/
theorem C64_sf (v t : Str) :
    sfValue v = .ok t ↔ (∃ l, ListText l v ∧ CanonList l t) ∨ ((¬ ∃ l, ListText l v) ∧ ∃ d, DictText d v ∧ CanonDict d t) := by
  unfold sfValue
  have hn := (C63_refused v).1
  cases hl : parseList v with
  | some l =>
    have hd := (C63_list v l).1 hl
    have hleg := parseList_legal hl
    simp only [Res.ofOption_eq_ok]
    constructor
    · intro h; exact Or.inl ⟨l, hd, (C64_list l t).2 ⟨hleg, h⟩⟩
    · rintro (⟨l', h1, h2⟩ | ⟨h1, _⟩)
      · rw [(C63_unambiguous v).1 l l' hd h1]; exact ((C64_list l' t).1 h2).2
      · exact absurd ⟨l, hd⟩ h1
  | none =>
    have hno := hn.1 hl
    simp only
    cases hdp : parseDict v with
    | some d =>
      have hd := (C63_dict v d).1 hdp
      have hleg := parseDict_legal hdp
      simp only [Res.ofOption_eq_ok]
      constructor
      · intro h; exact Or.inr ⟨hno, d, hd, (C64_dict d t).2 ⟨hleg, h⟩⟩
      · rintro (⟨l', h1, _⟩ | ⟨_, d', h1, h2⟩)
        · exact absurd ⟨l', h1⟩ hno
        · rw [(C63_unambiguous v).2.1 d d' hd h1]; exact ((C64_dict d' t).1 h2).2
    | none =>
      have hnd := (C63_refused v).2.1.1 hdp
      constructor
      · intro h; cases h
      · rintro (⟨l', h1, _⟩ | ⟨_, d', h1, _⟩)
        · exact absurd ⟨l', h1⟩ hno
        · exact absurd ⟨d', h1⟩ hnd

/-- A `Content-Digest` value is the canonical text of the dictionary with the one hash. -/
theorem C64_content_digest (ty : DigestType) (b : Bytes) :
    CanonDict [(digestLabel ty, .item ⟨.bytes (hashOf ty b), []⟩)] (digestText ty b) := by
  rw [digestText_eq]
  have hk : LegalKey (digestLabel ty) := by cases ty <;> decide
  refine ⟨.one (canonMember_iff.2 ⟨⟨hk, trivial, by simp, by simp⟩, rfl⟩), by simp [Distinct]⟩

-- Canonical texts and texts of the same value that are not canonical.
example : CanonDict [(c! "a", .item ⟨.dec 1500, []⟩), (c! "b", .item ⟨.bool true, [(c! "q", .int 0)]⟩)] (c! "a=1.5, b;q=0") :=
  (C64_dict _ _).2 ⟨by refine ⟨by decide, ?_⟩; simp [LegalEntry, LegalItem, LegalBare, LegalParams]; decide, by decide⟩
example : ¬ CanonBare (.dec 1500) (c! "1.50") := by rw [canonBare_iff]; rintro ⟨_, h⟩; revert h; decide
example : BareText (.dec 1500) (c! "1.50") :=
  .dec (neg := false) (ds := c! "1") (fs := c! "50") ⟨by decide, by decide, by decide⟩ ⟨by decide, by decide, by decide⟩
example : ¬ CanonBare (.disp [97]) (c! "%\"%61\"") := by rw [canonBare_iff]; rintro ⟨_, h⟩; revert h; decide
example : ¬ CanonBare (.bytes [102]) (c! ":Zg:") := by rw [canonBare_iff]; rintro ⟨_, h⟩; revert h; decide
example : ¬ CanonBare (.int 0) (c! "-0") := by rw [canonBare_iff]; rintro ⟨_, h⟩; revert h; decide
example : sfValue (c! "a=?1 ,b=2;x=?1") = .ok (c! "a, b=2;x") := by decide

end Verif
