import Verif.Spec.RfcStructured
import Verif.Proofs.RfcStructured
import Verif.Props.C92
/-!
C94: fields with `sf` or `key`. Where the library has a value, where that is the value of RFC 9421, and where the RFC has none.
-/
namespace Verif
open Sfv Spec Rfc9421 Grammar

/-! ### The two values in terms of the lines -/

section
variable {c : Ctx} {m : Msg} {rf : Option Request} {i : CId} {f : Str} {q : CParam} {w : Wants}

theorem source_unique {h h' : Headers} (a : TakenFrom m rf i h) (b : TakenFrom m rf i h') : h = h' := by
  rcases a with ⟨a, rfl⟩ | ⟨a, s, r, rfl, rfl, rfl⟩ <;> rcases b with ⟨b, rfl⟩ | ⟨b, s', r', e1, e2, rfl⟩
  · rfl
  · exact absurd b a
  · exact absurd a b
  · cases e2; rfl

theorem texts_unique {ls : List Bytes} {ts us : List Str} (a : LineTexts ls ts) (b : LineTexts ls us) : ts = us := by
  induction a generalizing us with
  | nil => cases b; rfl
  | cons h _ ih =>
    cases b with
    | cons h' b => rw [h] at h'; injection h' with h'; rw [h', ih b]

theorem sourceLines_unique {ts us : List Str} (a : SourceLines m rf i f ts) (b : SourceLines m rf i f us) : ts = us := by
  obtain ⟨h, a1, a2⟩ := a
  obtain ⟨h', b1, b2⟩ := b
  rw [source_unique b1 a1, linesText_iff] at b2
  exact texts_unique (linesText_iff.1 a2) b2

/-- Parameters other than `q` and `req` are not there. -/
theorem only_absent (ho : OnlyWith i q) {p : CParam} (h1 : p ≠ .req) (h2 : p ≠ q) : p ∉ i.params := by
  intro h
  rcases ho.2 p h with e | e
  · exact h1 e
  · exact h2 e

theorem value_eq (hs : SafeId i) (hf : i.name = .field f) {w : Wants} (hw : wants (i.params.map paramKV) = some w) (hr : Rfc.Reads w i.params)
    {h : Headers} (hsrc : TakenFrom m rf i h) :
    value c m rf (idItem i) = if lowerCase f = f then fieldValue c h f w else none := by
  have hat := hs.noAt f hf
  show Option.bind (wants (i.params.map paramKV)) (fun w => if w.req then
        match m, rf with
        | .res _, some r => valueIn c (.req r) (nameText i.name) w
        | _, _ => none
      else valueIn c m (nameText i.name) w) = _
  rw [hw, Option.bind_some, hf, show nameText (.field f) = f from rfl]
  rcases hsrc with ⟨h1, rfl⟩ | ⟨h1, s, r, rfl, rfl, rfl⟩
  · rw [if_neg (fun e => h1 (hr.req.1 e))]
    unfold valueIn
    rw [if_neg hat]
  · rw [if_pos (hr.req.2 h1)]
    simp only
    unfold valueIn
    rw [if_neg hat]; rfl

/-- The value of the RFC, if there is one, comes from lines of text. -/
theorem value_source (hs : SafeId i) {v : Str} (h : value c m rf (idItem i) = some v) : ∃ h, TakenFrom m rf i h := by
  obtain ⟨w, hw, hr⟩ := wants_of hs
  replace h : Option.bind (wants (i.params.map paramKV)) (fun w => if w.req then
        match m, rf with
        | .res _, some r => valueIn c (.req r) (nameText i.name) w
        | _, _ => none
      else valueIn c m (nameText i.name) w) = some v := h
  rw [hw, Option.bind_some] at h
  by_cases hq : CParam.req ∈ i.params
  · rw [if_pos (hr.req.2 hq)] at h
    split at h
    · rename_i s r
      exact ⟨_, Or.inr ⟨hq, s, r, rfl, rfl, rfl⟩⟩
    · cases h
  · exact ⟨_, Or.inl ⟨hq, rfl⟩⟩

/-- A field with `q` and perhaps `req`, in the RFC. -/
theorem value_lines (hs : SafeId i) (hf : i.name = .field f) (ho : OnlyWith i q) (hq : q = .sf ∨ ∃ k, q = .key k) {v : Str} :
    value c m rf (idItem i) = some v ↔ lowerCase f = f ∧ ∃ ts, SourceLines m rf i f ts ∧ ts ≠ [] ∧
      match q with
      | .key k => member k (combined ts) = some v
      | _ => ∃ k, c.kind f = some k ∧ structured k (combined ts) = some v := by
  obtain ⟨w, hw, hr⟩ := wants_of hs
  have hbs : w.bs = false := by
    by_contra e
    rcases hq with rfl | ⟨k, rfl⟩ <;> exact only_absent ho (p := .bs) nofun nofun (hr.bs.1 (by simpa using e))
  have htr : w.tr = false := by
    by_contra e
    rcases hq with rfl | ⟨k, rfl⟩ <;> exact only_absent ho (p := .tr) nofun nofun (hr.tr.1 (by simpa using e))
  have hname : w.name = none := by
    cases e : w.name with
    | none => rfl
    | some n => rcases hq with rfl | ⟨k, rfl⟩ <;> exact absurd ((hr.name n).1 e) (only_absent ho nofun nofun)
  have key : ∀ {h : Headers}, TakenFrom m rf i h → (value c m rf (idItem i) = some v ↔ lowerCase f = f ∧ ∃ ts, Wire.LinesText h f ts ∧ ts ≠ [] ∧
      match q with
      | .key k => member k (combined ts) = some v
      | _ => ∃ k, c.kind f = some k ∧ structured k (combined ts) = some v) := by
    intro h hsrc
    rw [value_eq hs hf hw hr hsrc]
    by_cases hl : lowerCase f = f
    swap
    · rw [if_neg hl]; exact iff_of_false nofun (fun h => hl h.1)
    rw [if_pos hl]
    unfold fieldValue
    simp only [hbs, htr, hname, linesText_iff]
    by_cases hne : fieldLines h f = []
    · rw [if_pos (Or.inl hne), hne]
      refine iff_of_false nofun ?_
      rintro ⟨_, ts, h1, h2, _⟩
      cases h1; exact h2 rfl
    rw [if_neg (by simp [hne])]
    simp only [Bool.false_eq_true, if_false, Option.bind_eq_some_iff]
    constructor
    · rintro ⟨ts, h1, h2⟩
      have h1 := Rfc.allSome_texts h1
      refine ⟨hl, ts, h1, ?_, ?_⟩
      · rintro rfl
        cases e : fieldLines h f with
        | nil => exact hne e
        | cons => rw [e] at h1; cases h1
      · rcases hq with rfl | ⟨k, rfl⟩
        · have hk : w.key = none := by
            cases e : w.key with
            | none => rfl
            | some k => exact absurd ((hr.key k).1 e) (only_absent ho nofun nofun)
          rw [hk] at h2
          simp only [hr.sf.2 ho.1, if_true, Option.bind_eq_some_iff] at h2
          exact h2
        · rw [(hr.key k).2 ho.1] at h2
          exact h2
    · rintro ⟨_, ts, h1, _, h2⟩
      refine ⟨ts, ?_, ?_⟩
      · rw [Rfc.allSome_iff, List.forall₂_map_left_iff]; exact h1
      · rcases hq with rfl | ⟨k, rfl⟩
        · have hk : w.key = none := by
            cases e : w.key with
            | none => rfl
            | some k => exact absurd ((hr.key k).1 e) (only_absent ho nofun nofun)
          rw [hk]
          simp only [hr.sf.2 ho.1, if_true, Option.bind_eq_some_iff]
          exact h2
        · rw [(hr.key k).2 ho.1]
          exact h2
  constructor
  · intro h
    obtain ⟨hd, hsrc⟩ := value_source hs h
    obtain ⟨hl, ts, h1, h2⟩ := (key hsrc).1 h
    exact ⟨hl, ts, ⟨hd, hsrc, h1⟩, h2⟩
  · rintro ⟨hl, ts, ⟨hd, hsrc, h1⟩, h2⟩
    exact (key hsrc).2 ⟨hl, ts, h1, h2⟩

theorem applied_only {ps : List CParam} (hd : (ps.map paramLabel).Nodup) (ho : ∀ p ∈ ps, p = .req ∨ p = q) (hq : q ∈ ps)
    {k : Str} (hk : q = .sf ∨ q = .key k) {vs out : List Str} :
    Applied ps vs out ↔ (q = .sf ∧ List.Forall₂ Canon vs out) ∨ (q = .key k ∧ Members k vs out) := by
  induction ps with
  | nil => cases hq
  | cons p ps ih =>
    rw [List.map_cons, List.nodup_cons] at hd
    rcases ho p (by simp) with rfl | rfl
    · have hq' : q ∈ ps := by
        rcases List.mem_cons.1 hq with rfl | h
        · rcases hk with h | h <;> cases h
        · exact h
      rw [← ih hd.2 (fun p hp => ho p (by simp [hp])) hq']
      constructor
      · intro h; cases h with | req h => exact h
      · exact .req
    · have hreq : ∀ p' ∈ ps, p' = .req := by
        intro p' hp'
        rcases ho p' (by simp [hp']) with h | rfl
        · exact h
        · exact absurd (List.mem_map_of_mem hp') hd.1
      rcases hk with rfl | rfl
      · constructor
        · intro h
          cases h with
          | sf h1 h2 => rw [(applied_reqs hreq).1 h2]; exact Or.inl ⟨rfl, h1⟩
        · rintro (⟨_, h⟩ | ⟨h, _⟩)
          · exact .sf h (Rfc.applied_req hreq _)
          · cases h
      · constructor
        · intro h
          cases h with
          | key h1 h2 => rw [(applied_reqs hreq).1 h2]; exact Or.inr ⟨rfl, h1⟩
        · rintro (⟨h, _⟩ | ⟨_, h⟩)
          · cases h
          · exact .key h (Rfc.applied_req hreq _)

/-- The same in the library. -/
theorem has_lines (hs : SafeId i) (hf : i.name = .field f) (ho : OnlyWith i q) {k : Str} (hk : q = .sf ∨ q = .key k) {v : Str} :
    Wire.HasValue m rf i v ↔ ∃ ts out, SourceLines m rf i f ts ∧
      ((q = .sf ∧ List.Forall₂ Canon ts out) ∨ (q = .key k ∧ Members k ts out)) ∧ v = join (c! ", ") out := by
  rw [wireHasValue_iff]
  have e : HasValue m rf i v ↔ ∃ h, TakenFrom m rf i h ∧ FieldValue h f i.params v := by
    unfold HasValue ValueIn TakenFrom
    rw [hf]
    by_cases hq : CParam.req ∈ i.params
    · simp only [hq, if_true, not_true, false_and, true_and, false_or]
      constructor
      · rintro ⟨s, r, rfl, rfl, h⟩; exact ⟨_, ⟨s, r, rfl, rfl, rfl⟩, h⟩
      · rintro ⟨_, ⟨s, r, rfl, rfl, rfl⟩, h⟩; exact ⟨s, r, rfl, rfl, h⟩
    · simp [hq]
  rw [e]
  unfold FieldValue SourceLines
  simp only [linesText_iff, applied_only hs.distinct ho.2 ho.1 hk]
  constructor
  · rintro ⟨h, h1, ts, out, h2, h3, h4⟩
    exact ⟨ts, out, ⟨h, h1, h2⟩, h3, h4⟩
  · rintro ⟨ts, out, ⟨h, h1, h2⟩, h3, h4⟩
    exact ⟨h, h1, ts, out, h2, h3, h4⟩

end

/-! ### Lines and their texts -/

open RfcLines

theorem strip_blank {t : Str} : strip t = [] ↔ Ows t := by
  constructor
  · intro h
    unfold strip at h
    rw [List.reverse_eq_nil_iff, List.dropWhile_eq_nil_iff] at h
    rw [ows_iff]
    have h2 : ∀ c ∈ t.dropWhile blank, blank c = true := fun c hc => h c (List.mem_reverse.2 hc)
    have h3 : t.dropWhile blank = [] := by
      cases e : t.dropWhile blank with
      | nil => rfl
      | cons d r =>
        have := List.head?_dropWhile_not blank t
        rw [e] at this h2
        simp [h2 d (by simp)] at this
    rw [List.dropWhile_eq_nil_iff] at h3
    exact h3
  · exact strip_ows

theorem hasMember_iff {k t : Str} : HasMember k t ↔ ∃ d, parseDict t = some d ∧ k ∈ d.map Prod.fst := by
  unfold HasMember; simp only [parseDict_iff]

theorem found_none {k : Str} {ts : List Str} {ds : List Dict} (h : List.Forall₂ (fun v d => parseDict v = some d) ts ds) :
    found k ds = [] ↔ ∀ u ∈ ts, ¬ HasMember k u := by
  induction h with
  | nil => simp [found]
  | @cons t d ts ds hd _ ih =>
    have hm : HasMember k t ↔ d.lookup k ≠ none := by
      rw [hasMember_iff, ← imGet_lookup, ne_eq, imGet_none, not_not, hd]
      simp
    rw [List.forall_mem_cons, ← ih, hm]
    unfold found
    rw [List.filterMap_cons]
    cases d.lookup k <;> simp

theorem found_one {k : Str} {ts : List Str} {ds : List Dict} (h : List.Forall₂ (fun v d => parseDict v = some d) ts ds) :
    (found k ds).length = 1 ↔ Once k ts := by
  induction h with
  | nil =>
    refine iff_of_false (by simp [found]) ?_
    rintro ⟨a, t, b, e, _⟩
    cases a <;> cases e
  | @cons t d ts ds hd hds ih =>
    have hm : HasMember k t ↔ d.lookup k ≠ none := by
      rw [hasMember_iff, ← imGet_lookup, ne_eq, imGet_none, not_not, hd]
      simp
    have e : found k (d :: ds) = (match d.lookup k with | none => found k ds | some e => e :: found k ds) := by
      unfold found
      rw [List.filterMap_cons]
      cases d.lookup k <;> rfl
    rw [e]
    cases hl : d.lookup k with
    | none =>
      rw [ih]
      have hnot : ¬ HasMember k t := by rw [hm, hl]; simp
      constructor
      · rintro ⟨a, u, b, rfl, h1, h2⟩
        refine ⟨t :: a, u, b, rfl, h1, ?_⟩
        intro v hv
        rcases List.mem_cons.1 hv with rfl | hv
        · exact hnot
        · exact h2 v hv
      · rintro ⟨a, u, b, e, h1, h2⟩
        cases a with
        | nil => cases e; exact absurd h1 hnot
        | cons a0 a => cases e; exact ⟨a, u, b, rfl, h1, fun v hv => h2 v (by simp at hv ⊢; tauto)⟩
    | some x =>
      have hyes : HasMember k t := by rw [hm, hl]; simp
      simp only [List.length_cons]
      rw [Nat.add_eq_right, List.length_eq_zero_iff, found_none hds]
      constructor
      · intro h; exact ⟨[], t, ts, rfl, hyes, h⟩
      · rintro ⟨a, u, b, e, h1, h2⟩
        cases a with
        | nil => cases e; exact h2
        | cons a0 a => cases e; exact absurd hyes (h2 _ (by simp))

theorem found_last {k : Str} {v : Str} {ts : List Str} {ds : List Dict} (h : List.Forall₂ (fun v d => parseDict v = some d) ts ds) :
    ((found k ds).getLast?).map serEntry = some v ↔ LastMember k ts v := by
  induction h with
  | nil =>
    refine iff_of_false (by simp [found]) ?_
    rintro ⟨a, t, b, _, _, e, _⟩
    cases a <;> cases e
  | @cons t d ts ds hd hds ih =>
    have e : found k (d :: ds) = (match d.lookup k with | none => found k ds | some e => e :: found k ds) := by
      unfold found
      rw [List.filterMap_cons]
      cases d.lookup k <;> rfl
    have later : LastMember k ts v → LastMember k (t :: ts) v := by
      rintro ⟨a, u, b, d', e', rfl, h1⟩
      exact ⟨t :: a, u, b, d', e', rfl, h1⟩
    rw [e]
    cases hl : d.lookup k with
    | none =>
      simp only
      rw [ih]
      refine ⟨later, ?_⟩
      rintro ⟨a, u, b, d', e', e1, h1, h2, h3, h4⟩
      cases a with
      | nil =>
        cases e1
        rw [← parseDict_iff, hd] at h1
        cases h1
        rw [hl] at h2; cases h2
      | cons a0 a => cases e1; exact ⟨a, u, b, d', e', rfl, h1, h2, h3, h4⟩
    | some x =>
      simp only
      rw [List.getLast?_cons]
      by_cases hf : found k ds = []
      · rw [hf]
        simp only [List.getLast?_nil, Option.getD_none, Option.map_some, Option.some.injEq]
        constructor
        · rintro rfl
          exact ⟨[], t, ts, d, x, rfl, (parseDict_iff _ _).1 hd, hl, rfl, (found_none hds).1 hf⟩
        · rintro ⟨a, u, b, d', e', e1, h1, h2, h3, h4⟩
          cases a with
          | nil =>
            cases e1
            rw [← parseDict_iff, hd] at h1
            cases h1
            rw [hl] at h2; cases h2
            exact h3.symm
          | cons a0 a =>
            cases e1
            have := (found_none hds).1 hf u (by simp)
            refine absurd ⟨d', h1, ?_⟩ this
            by_contra hn
            rw [← imGet_none, imGet_lookup, h2] at hn
            cases hn
      · obtain ⟨y, hy⟩ : ∃ y, (found k ds).getLast? = some y := by
          cases e : (found k ds).getLast? with
          | none => exact absurd (List.getLast?_eq_none_iff.1 e) hf
          | some y => exact ⟨y, rfl⟩
        rw [hy] at ih ⊢
        simp only [Option.getD_some]
        rw [ih]
        refine ⟨later, ?_⟩
        rintro ⟨a, u, b, d', e', e1, h1, h2, h3, h4⟩
        cases a with
        | nil => cases e1; exact absurd ((found_none hds).2 h4) hf
        | cons a0 a => cases e1; exact ⟨a, u, b, d', e', rfl, h1, h2, h3, h4⟩

/-! ### `key` -/

theorem dicts_exist {ts : List Str} (h : ∀ t ∈ ts, ∃ d, DictText d t) : ∃ ds, List.Forall₂ (fun v d => parseDict v = some d) ts ds := by
  induction ts with
  | nil => exact ⟨[], .nil⟩
  | cons t ts ih =>
    obtain ⟨ds, hds⟩ := ih (fun u hu => h u (by simp [hu]))
    obtain ⟨d, hd⟩ := h t (by simp)
    exact ⟨d :: ds, .cons ((parseDict_iff _ _).2 hd) hds⟩

section
variable {c : Ctx} {m : Msg} {rf : Option Request} {i : CId} {f k : Str} {it : Item}

/-- A member of a dictionary: the library has a value exactly if every line of the field is a dictionary of its own. -/
theorem C94_key_has (hs : SafeId i) (hf : i.name = .field f) (ho : OnlyWith i (.key k)) :
    (∃ w, Wire.HasValue m rf i w) ↔ ∃ ts, SourceLines m rf i f ts ∧ ∀ t ∈ ts, ∃ d, DictText d t := by
  simp only [has_lines hs hf ho (Or.inr rfl)]
  constructor
  · rintro ⟨w, ts, out, h1, ⟨h, _⟩ | ⟨_, h2⟩, rfl⟩
    · cases h
    · refine ⟨ts, h1, fun t ht => ?_⟩
      obtain ⟨d, hd⟩ := members_dicts h2 t ht
      exact ⟨d, (parseDict_iff _ _).1 hd⟩
  · rintro ⟨ts, h1, h2⟩
    obtain ⟨ds, hds⟩ := dicts_exist h2
    exact ⟨_, ts, _, h1, Or.inr ⟨trivial, ds, hds, rfl⟩, rfl⟩

/-- The value of a member in the RFC, for lines that are dictionaries. -/
theorem key_rfc (hs : SafeId i) (hf : i.name = .field f) (ho : OnlyWith i (.key k)) {ts : List Str} {ds : List Dict}
    (h : List.Forall₂ (fun v d => parseDict v = some d) ts ds) (hl : SourceLines m rf i f ts) {v : Str} :
    value c m rf (idItem i) = some v ↔ lowerCase f = f ∧ (∀ t ∈ ts, ¬ Ows t) ∧ ((found k ds).getLast?).map serEntry = some v := by
  rw [value_lines hs hf ho (Or.inr ⟨k, rfl⟩)]
  have e : member k (combined ts) = if [] ∈ ts.map strip then none else ((found k ds).getLast?).map serEntry := by
    rw [← combined_map, key_member (stripped ts) (ds := ds)]
    rw [List.forall₂_map_left_iff]
    refine h.imp fun t d hd => ?_
    rw [strip_dict (Or.inr ⟨d, hd⟩), hd]
  have hb : [] ∈ ts.map strip ↔ ¬ ∀ t ∈ ts, ¬ Ows t := by
    simp only [List.mem_map, strip_blank, not_forall, not_not, exists_prop]
  constructor
  · rintro ⟨h1, us, h2, h3, h4⟩
    cases sourceLines_unique h2 hl
    simp only [e] at h4
    split at h4
    · cases h4
    · rename_i hn
      exact ⟨h1, by rw [hb, not_not] at hn; exact hn, h4⟩
  · rintro ⟨h1, h2, h3⟩
    refine ⟨h1, ts, hl, ?_, ?_⟩
    · rintro rfl; cases h; cases h3
    · simp only [e]
      rw [if_neg (by rw [hb, not_not]; exact h2), h3]

/-- Then the RFC has a value exactly if the name is in lower case, no line is blank and some line has the member: the one on the last
such line. -/
theorem C94_key_rfc {w v : Str} (hs : SafeId i) (hf : i.name = .field f) (ho : OnlyWith i (.key k)) (hl : LegalItem it)
    (ht : serItem it = idText i) (h : Wire.HasValue m rf i w) :
    value c m rf it = some v ↔ lowerCase f = f ∧ ∃ ts, SourceLines m rf i f ts ∧ (∀ t ∈ ts, ¬ Ows t) ∧ LastMember k ts v := by
  rw [item_eq hs hl ht]
  obtain ⟨ts, h1, h2⟩ := (C94_key_has hs hf ho).1 ⟨w, h⟩
  obtain ⟨ds, hds⟩ := dicts_exist h2
  rw [key_rfc hs hf ho hds h1, found_last hds]
  constructor
  · rintro ⟨a, b, c⟩; exact ⟨a, ts, h1, b, c⟩
  · rintro ⟨a, us, b1, b, c⟩
    cases sourceLines_unique b1 h1
    exact ⟨a, b, c⟩

/-- And it is the value of the library exactly if, besides, no other line has the member. -/
theorem C94_key {w : Str} (hs : SafeId i) (hf : i.name = .field f) (ho : OnlyWith i (.key k)) (hl : LegalItem it)
    (ht : serItem it = idText i) (h : Wire.HasValue m rf i w) :
    value c m rf it = some w ↔ lowerCase f = f ∧ ∃ ts, SourceLines m rf i f ts ∧ (∀ t ∈ ts, ¬ Ows t) ∧ Once k ts := by
  rw [item_eq hs hl ht]
  obtain ⟨ts, out, h1, ⟨h0, _⟩ | ⟨_, ds, hds, rfl⟩, rfl⟩ := (has_lines hs hf ho (Or.inr rfl)).1 h
  · cases h0
  rw [key_rfc hs hf ho hds h1, found_join, found_one hds]
  constructor
  · rintro ⟨a, b, c⟩; exact ⟨a, ts, h1, b, c⟩
  · rintro ⟨a, us, b1, b, c⟩
    cases sourceLines_unique b1 h1
    exact ⟨a, b, c⟩

/-- The other way round: the RFC has a value and the library has none exactly if some line is no dictionary of its own. -/
theorem C94_key_missing {v : Str} (hs : SafeId i) (hf : i.name = .field f) (ho : OnlyWith i (.key k)) (hl : LegalItem it)
    (ht : serItem it = idText i) (h : value c m rf it = some v) :
    (¬ ∃ w, Wire.HasValue m rf i w) ↔ ∃ ts, SourceLines m rf i f ts ∧ ∃ t ∈ ts, ¬ ∃ d, DictText d t := by
  rw [item_eq hs hl ht] at h
  obtain ⟨_, ts, h1, _⟩ := (value_lines hs hf ho (Or.inr ⟨k, rfl⟩)).1 h
  rw [C94_key_has hs hf ho]
  constructor
  · intro hn
    refine ⟨ts, h1, ?_⟩
    by_contra hh
    refine hn ⟨ts, h1, fun t ht => ?_⟩
    by_contra hd
    exact hh ⟨t, ht, hd⟩
  · rintro ⟨us, h2, t, ht, hd⟩ ⟨us', h3, hall⟩
    cases sourceLines_unique h2 h3
    exact hd (hall t ht)

/-! ### `sf` -/

theorem canon_exists {t : Str} : (∃ o, Canon t o) ↔ (∃ l, l ≠ [] ∧ ListText l t) ∨ ((¬ ∃ l, ListText l t) ∧ ∃ d, d ≠ [] ∧ DictText d t) := by
  simp only [← parseList_iff, ← parseDict_iff]
  constructor
  · rintro ⟨o, ⟨l, h1, h2⟩ | ⟨h1, d, h2, h3⟩⟩
    · exact Or.inl ⟨l, (by rintro rfl; cases h2), h1⟩
    · refine Or.inr ⟨by rw [h1]; simp, d, (by rintro rfl; cases h3), h2⟩
  · rintro (⟨l, h1, h2⟩ | ⟨h1, d, h2, h3⟩)
    · exact ⟨_, Or.inl ⟨l, h2, by rw [serList, if_neg h1]⟩⟩
    · refine ⟨_, Or.inr ⟨?_, d, h3, by rw [serDict, if_neg h2]⟩⟩
      cases e : parseList t with
      | none => rfl
      | some l => exact absurd ⟨l, e⟩ h1

theorem canon_nonblank (t : Str) : (∃ o, Canon t o) ↔ ((∃ l, ListText l t) ∨ ∃ d, DictText d t) ∧ ¬ Ows t := by
  rw [canon_exists]
  have hl : ∀ l, ListText l t → (Ows t ↔ l = []) := by
    intro l h
    rw [← strip_blank]
    exact (reader_entry.strip ((parseList_iff _ _).2 h)).2
  have hd : ∀ d, DictText d t → (Ows t ↔ d = []) := by
    intro d h
    obtain ⟨x, hx, rfl⟩ := parseDict_raw ((parseDict_iff _ _).2 h)
    rw [← strip_blank, imOfList_nil_iff]
    exact (reader_member.strip hx).2
  constructor
  · rintro (⟨l, h1, h2⟩ | ⟨_, d, h1, h2⟩)
    · exact ⟨Or.inl ⟨l, h2⟩, fun h => h1 ((hl l h2).1 h)⟩
    · exact ⟨Or.inr ⟨d, h2⟩, fun h => h1 ((hd d h2).1 h)⟩
  · rintro ⟨h, hb⟩
    by_cases h1 : ∃ l, ListText l t
    · obtain ⟨l, h1⟩ := h1
      exact Or.inl ⟨l, fun e => hb ((hl l h1).2 e), h1⟩
    · obtain ⟨d, h⟩ := h.resolve_left h1
      exact Or.inr ⟨h1, d, fun e => hb ((hd d h).2 e), h⟩

theorem canons_exist (ts : List Str) : (∃ out, List.Forall₂ Canon ts out) ↔ ∀ t ∈ ts, ∃ o, Canon t o := by
  constructor
  · rintro ⟨out, h⟩ t ht
    obtain ⟨o, _, h⟩ := forall₂_mem_left h t ht
    exact ⟨o, h⟩
  · intro h
    induction ts with
    | nil => exact ⟨[], .nil⟩
    | cons t ts ih =>
      obtain ⟨out, h1⟩ := ih (fun u hu => h u (by simp [hu]))
      obtain ⟨o, h2⟩ := h t (by simp)
      exact ⟨o :: out, .cons h2 h1⟩

/-- Strict serialization: the library has a value exactly if every line is a list or a dictionary of its own, and none is blank. -/
theorem C94_sf_has (hs : SafeId i) (hf : i.name = .field f) (ho : OnlyWith i .sf) :
    (∃ w, Wire.HasValue m rf i w) ↔
      ∃ ts, SourceLines m rf i f ts ∧ ∀ t ∈ ts, ((∃ l, ListText l t) ∨ ∃ d, DictText d t) ∧ ¬ Ows t := by
  simp only [has_lines hs hf ho (k := []) (Or.inl rfl), ← canon_nonblank, ← canons_exist]
  constructor
  · rintro ⟨w, ts, out, h1, ⟨_, h2⟩ | ⟨h, _⟩, rfl⟩
    · exact ⟨ts, h1, out, h2⟩
    · cases h
  · rintro ⟨ts, h1, out, h2⟩
    exact ⟨_, ts, out, h1, Or.inl ⟨trivial, h2⟩, rfl⟩

/-- The kinds of a field, on stripped lines and as they are. -/
theorem whole_iff {ts out : List Str} (hc : List.Forall₂ Canon ts out) (hne : ts ≠ []) (o : Option Kind) :
    (∃ k v, o = some k ∧ structured k (combined ts) = some v) ↔ WholeField o ts := by
  have hc' : List.Forall₂ Canon (ts.map strip) out := by
    rw [List.forall₂_map_left_iff]; exact hc.imp (fun _ _ => canon_strip)
  have hne' : ts.map strip ≠ [] := by simpa using hne
  have hr : ∀ t ∈ ts, Readable t := fun t ht => by
    obtain ⟨o, _, h⟩ := forall₂_mem_left hc t ht
    exact canon_readable h
  have hl : (∀ u ∈ ts.map strip, ∃ l, parseList u = some l) ↔ ∀ t ∈ ts, ∃ l, ListText l t := by
    simp only [List.forall_mem_map, ← parseList_iff]
    exact forall₂_congr fun t ht => by rw [strip_list (hr t ht)]
  have hd : (∀ u ∈ ts.map strip, ∃ d, parseDict u = some d) ↔ ∀ t ∈ ts, ∃ d, DictText d t := by
    simp only [List.forall_mem_map, ← parseDict_iff]
    exact forall₂_congr fun t ht => by rw [strip_dict (hr t ht)]
  rw [← combined_map]
  cases o with
  | none => exact iff_of_false (by rintro ⟨_, _, h, _⟩; cases h) id
  | some k =>
    cases k with
    | list =>
      show _ ↔ ∀ t ∈ ts, ∃ l, ListText l t
      rw [← hl]
      constructor
      · rintro ⟨k, v, e, h⟩
        cases e
        by_contra hn
        rw [structured, (sf_list (stripped ts) hc' hne').2 hn] at h
        cases h
      · intro h
        exact ⟨_, _, rfl, (sf_list (stripped ts) hc' hne').1 h⟩
    | dict =>
      show _ ↔ ∀ t ∈ ts, ∃ d, DictText d t
      rw [← hd]
      constructor
      · rintro ⟨k, v, e, h⟩
        cases e
        by_contra hn
        rw [structured, (sf_dict (stripped ts) hc' hne').2 hn] at h
        cases h
      · intro h
        obtain ⟨v, hv⟩ := ((sf_dict (stripped ts) hc' hne').1 h).1
        exact ⟨_, v, rfl, hv⟩
    | item =>
      show _ ↔ ∃ t i, ts = [t] ∧ ListText [.item i] t
      constructor
      · rintro ⟨k, v, e, h⟩
        cases e
        rw [structured, Option.map_eq_some_iff] at h
        obtain ⟨i, h, rfl⟩ := h
        obtain ⟨u, h1, h2⟩ := (sf_item (stripped ts) hc' hne').1 h
        cases ts with
        | nil => cases h1
        | cons t ts =>
          rw [List.map_cons] at h1
          injection h1 with h1 h3
          rw [List.map_eq_nil_iff] at h3; subst h3
          refine ⟨t, i, rfl, ?_⟩
          rw [← parseList_iff, ← strip_list (hr t (by simp)), h1, h2]
      · rintro ⟨t, i, rfl, h⟩
        refine ⟨_, serItem i, rfl, ?_⟩
        rw [structured, (sf_item (i := i) (stripped [t]) hc' hne').2 ⟨_, rfl, ?_⟩]
        · rfl
        · rw [strip_list (hr t (by simp))]; exact (parseList_iff _ _).2 h

theorem noRepeats_iff {ts : List Str} (hr : ∀ t ∈ ts, Readable t) : RfcLines.Distinct (ts.map strip) ↔ NoRepeats ts := by
  unfold RfcLines.Distinct NoRepeats
  rw [List.pairwise_map]
  refine and_congr ⟨fun h => ?_, fun h => ?_⟩ ?_
  · refine List.Pairwise.imp_of_mem ?_ h
    intro t u ht hu h k h1 h2
    rw [hasMember_iff] at h1 h2
    obtain ⟨d, h1, h3⟩ := h1
    obtain ⟨e, h2, h4⟩ := h2
    exact h d e k (by rw [strip_dict (hr t ht), h1]) (by rw [strip_dict (hr u hu), h2]) h3 h4
  · refine List.Pairwise.imp_of_mem ?_ h
    intro t u ht hu h d e k h1 h2 h3 h4
    rw [strip_dict (hr t ht)] at h1
    rw [strip_dict (hr u hu)] at h2
    exact h k (hasMember_iff.2 ⟨d, h1, h3⟩) (hasMember_iff.2 ⟨e, h2, h4⟩)
  · rw [List.forall_mem_map]
    refine forall₂_congr fun t ht => ?_
    rw [strip_list (hr t ht), strip_dict (hr t ht)]
    simp only [parseList_iff, parseDict_iff]

/-- Then the RFC has a value exactly if the name is in lower case, the field is there and the whole of it is of its kind, which the
single lines tell. -/
theorem C94_sf_rfc {w : Str} (hs : SafeId i) (hf : i.name = .field f) (ho : OnlyWith i .sf) (hl : LegalItem it)
    (ht : serItem it = idText i) (h : Wire.HasValue m rf i w) :
    (∃ v, value c m rf it = some v) ↔ lowerCase f = f ∧ ∃ ts, SourceLines m rf i f ts ∧ ts ≠ [] ∧ WholeField (c.kind f) ts := by
  rw [item_eq hs hl ht]
  obtain ⟨ts, out, h1, ⟨_, h2⟩ | ⟨h0, _⟩, rfl⟩ := (has_lines hs hf ho (k := []) (Or.inl rfl)).1 h
  swap
  · cases h0
  simp only [value_lines hs hf ho (Or.inl rfl)]
  constructor
  · rintro ⟨v, a, us, b, c, k, d, e⟩
    cases sourceLines_unique b h1
    exact ⟨a, ts, b, c, (whole_iff h2 c _).1 ⟨k, v, d, e⟩⟩
  · rintro ⟨a, us, b, c, d⟩
    cases sourceLines_unique b h1
    obtain ⟨k, v, d, e⟩ := (whole_iff h2 c _).2 d
    exact ⟨v, a, ts, b, c, k, d, e⟩

/-- And it is the value of the library, always for lists and items, and for a dictionary exactly if, besides, no key is on two lines
and none is twice on a line that can also be read as a list. -/
theorem C94_sf {w : Str} (hs : SafeId i) (hf : i.name = .field f) (ho : OnlyWith i .sf) (hl : LegalItem it)
    (ht : serItem it = idText i) (h : Wire.HasValue m rf i w) :
    value c m rf it = some w ↔ lowerCase f = f ∧ ∃ ts, SourceLines m rf i f ts ∧ ts ≠ [] ∧ WholeField (c.kind f) ts ∧
      (c.kind f = some .dict → NoRepeats ts) := by
  rw [item_eq hs hl ht]
  obtain ⟨ts, out, h1, ⟨_, h2⟩ | ⟨h0, _⟩, rfl⟩ := (has_lines hs hf ho (k := []) (Or.inl rfl)).1 h
  swap
  · cases h0
  have hr : ∀ t ∈ ts, Readable t := fun t ht => by
    obtain ⟨o, _, h⟩ := forall₂_mem_left h2 t ht
    exact canon_readable h
  have hc' : List.Forall₂ Canon (ts.map strip) out := by
    rw [List.forall₂_map_left_iff]; exact h2.imp (fun _ _ => canon_strip)
  have key : ts ≠ [] → ∀ k v, c.kind f = some k → structured k (combined ts) = some v →
      (v = join (c! ", ") out ↔ (c.kind f = some .dict → NoRepeats ts)) := by
    intro hne k v hk hv
    have hne' : ts.map strip ≠ [] := by simpa using hne
    rw [hk]
    rw [← combined_map] at hv
    cases k with
    | list =>
      refine iff_of_true ?_ nofun
      by_cases hall : ∀ u ∈ ts.map strip, ∃ l, parseList u = some l
      · rw [(sf_list (stripped ts) hc' hne').1 hall] at hv
        injection hv with hv; exact hv.symm
      · rw [structured, (sf_list (stripped ts) hc' hne').2 hall] at hv; cases hv
    | item =>
      refine iff_of_true ?_ nofun
      rw [structured, Option.map_eq_some_iff] at hv
      obtain ⟨i, hi, rfl⟩ := hv
      obtain ⟨u, e1, e2⟩ := (sf_item (stripped ts) hc' hne').1 hi
      rw [e1] at hc'
      cases hc' with
      | cons h3 h4 =>
        cases h4
        rcases h3 with ⟨l, a, b⟩ | ⟨a, _⟩
        · rw [e2] at a; cases a
          injection b
        · rw [e2] at a; cases a
    | dict =>
      rw [show (some Kind.dict = some Kind.dict → NoRepeats ts) ↔ NoRepeats ts from ⟨fun h => h rfl, fun h _ => h⟩, ← noRepeats_iff hr]
      by_cases hall : ∀ u ∈ ts.map strip, ∃ d, parseDict u = some d
      · rw [← ((sf_dict (stripped ts) hc' hne').1 hall).2, hv, Option.some.injEq]
      · rw [structured, (sf_dict (stripped ts) hc' hne').2 hall] at hv; cases hv
  rw [value_lines hs hf ho (Or.inl rfl)]
  constructor
  · rintro ⟨a, us, b, c, k, d, e⟩
    cases sourceLines_unique b h1
    exact ⟨a, ts, b, c, (whole_iff h2 c _).1 ⟨k, _, d, e⟩, (key c k _ d e).1 rfl⟩
  · rintro ⟨a, us, b, c, d, g⟩
    cases sourceLines_unique b h1
    obtain ⟨k, v, d, e⟩ := (whole_iff h2 c _).2 d
    refine ⟨a, ts, b, c, k, d, ?_⟩
    rw [e, (key c k v d e).2 g]

/-- The other way round: the RFC has a value and the library has none exactly if some line is neither a list nor a dictionary of its
own, or is blank. -/
theorem C94_sf_missing {v : Str} (hs : SafeId i) (hf : i.name = .field f) (ho : OnlyWith i .sf) (hl : LegalItem it)
    (ht : serItem it = idText i) (h : value c m rf it = some v) :
    (¬ ∃ w, Wire.HasValue m rf i w) ↔
      ∃ ts, SourceLines m rf i f ts ∧ ∃ t ∈ ts, ((¬ ∃ l, ListText l t) ∧ ¬ ∃ d, DictText d t) ∨ Ows t := by
  rw [item_eq hs hl ht] at h
  obtain ⟨_, ts, h1, _⟩ := (value_lines hs hf ho (Or.inl rfl)).1 h
  rw [C94_sf_has hs hf ho]
  constructor
  · intro hn
    refine ⟨ts, h1, ?_⟩
    by_contra hh
    refine hn ⟨ts, h1, fun t ht => ?_⟩
    by_contra hd
    refine hh ⟨t, ht, ?_⟩
    by_contra hx
    rw [not_or, not_and_or, not_not, not_not] at hx
    exact hd hx
  · rintro ⟨us, h2, t, ht, hd⟩ ⟨us', h3, hall⟩
    cases sourceLines_unique h2 h3
    obtain ⟨h4, h5⟩ := hall t ht
    rcases hd with ⟨h6, h7⟩ | h6
    · exact h4.elim h6 h7
    · exact h5 h6

end

/-! ### Concrete cases -/

def x94 (ls : List String) : Msg := .req (xReq "GET" none none "/" none (ls.map fun l => (c! "d", utf8 l.toList)))
def i94 (q : CParam) : CId := ⟨.field (c! "d"), [q]⟩
def c94 (k : Kind) : Ctx := ⟨fun _ => some k, c! "https"⟩

theorem i94_key (k : Str) (h : SafeText k) : SafeId (i94 (.key k)) ∧ OnlyWith (i94 (.key k)) (.key k) :=
  ⟨{ distinct := by simp [i94]
     name := fun n h => by simp [i94] at h
     fieldOnly := fun _ => ⟨_, rfl⟩
     noAt := fun f h => by cases h; decide
     nameText := fun f h => by cases h; decide
     keyText := fun k' h' => by simp [i94] at h'; subst h'; exact h
     nameParam := fun n h => by simp [i94] at h }, by simp [i94], fun p hp => Or.inr (List.mem_singleton.1 hp)⟩

theorem i94_sf : SafeId (i94 .sf) ∧ OnlyWith (i94 .sf) .sf :=
  ⟨{ distinct := by simp [i94]
     name := fun n h => by simp [i94] at h
     fieldOnly := fun _ => ⟨_, rfl⟩
     noAt := fun f h => by cases h; decide
     nameText := fun f h => by cases h; decide
     keyText := fun k' h' => by simp [i94] at h'
     nameParam := fun n h => by simp [i94] at h }, by simp [i94], fun p hp => Or.inr (List.mem_singleton.1 hp)⟩

theorem x94_lines {q : CParam} (hq : q ≠ .req) {ls : List String} {ts : List Str}
    (h : List.Forall₂ (fun l t => hvToStr (utf8 l.toList) = some t) ls ts) : SourceLines (x94 ls) none (i94 q) (c! "d") ts := by
  refine ⟨_, Or.inl ⟨by simp [i94, hq.symm], rfl⟩, ?_⟩
  rw [linesText_iff]
  have : fieldLines (x94 ls).headers (c! "d") = ls.map (fun l => utf8 l.toList) := by
    show ((ls.map fun l => (c! "d", utf8 l.toList)).filter _).map Prod.snd = _
    rw [List.filter_eq_self.2, List.map_map]
    · rfl
    · intro kv hkv
      obtain ⟨l, _, rfl⟩ := List.mem_map.1 hkv
      rfl
  rw [this]
  unfold LineTexts
  rw [List.forall₂_map_left_iff]
  exact h

/-- `a=1, b=2` and `a=3`: the member `b` is the same on both sides, since only one line has it. -/
example : ∃ w, Wire.HasValue (x94 ["a=1, b=2", "a=3"]) none (i94 (.key (c! "b"))) w ∧
    value (c94 .dict) (x94 ["a=1, b=2", "a=3"]) none (idItem (i94 (.key (c! "b")))) = some w := by
  have hi := i94_key (c! "b") (by decide)
  have hsl := x94_lines (q := .key (c! "b")) nofun (ls := ["a=1, b=2", "a=3"]) (ts := [c! "a=1, b=2", c! "a=3"])
    (.cons (by decide +kernel) (.cons (by decide +kernel) .nil))
  have hd : ∀ t ∈ [c! "a=1, b=2", c! "a=3"], ∃ d, DictText d t := by
    simp only [← parseDict_iff, ← Option.isSome_iff_exists]; decide +kernel
  obtain ⟨w, hw⟩ := (C94_key_has hi.1 rfl hi.2).2 ⟨_, hsl, hd⟩
  refine ⟨w, hw, (C94_key hi.1 rfl hi.2 (idItem_legal hi.1) (by rw [← C58_id_text, disp_eq_ser hi.1]) hw).2
    ⟨by decide, _, hsl, by simp [Ows], [], c! "a=1, b=2", [c! "a=3"], rfl, ?_, ?_⟩⟩
  · rw [hasMember_iff]; exact ⟨_, rfl, by decide +kernel⟩
  · intro u hu h
    rw [hasMember_iff] at h
    simp at hu
    subst hu
    obtain ⟨d, h1, h2⟩ := h
    have : parseDict ['a', '=', '3'] = some [(c! "a", .item ⟨.int 3, []⟩)] := by decide +kernel
    rw [this] at h1
    cases h1
    revert h2; decide

/-- The member `a` is not: `1, 3` in the library, and `3` in the RFC, which takes the last one. -/
example : ∃ w, Wire.HasValue (x94 ["a=1, b=2", "a=3"]) none (i94 (.key (c! "a"))) w ∧
    value (c94 .dict) (x94 ["a=1, b=2", "a=3"]) none (idItem (i94 (.key (c! "a")))) = some (c! "3") ∧ w = c! "1, 3" := by
  have hi := i94_key (c! "a") (by decide)
  have hsl := x94_lines (q := .key (c! "a")) nofun (ls := ["a=1, b=2", "a=3"]) (ts := [c! "a=1, b=2", c! "a=3"])
    (.cons (by decide +kernel) (.cons (by decide +kernel) .nil))
  have hw : Wire.HasValue (x94 ["a=1, b=2", "a=3"]) none (i94 (.key (c! "a"))) (c! "1, 3") :=
    (has_lines hi.1 rfl hi.2 (Or.inr rfl)).2 ⟨_, [c! "1", c! "3"], hsl, Or.inr ⟨rfl, _, .cons rfl (.cons rfl .nil), by decide +kernel⟩,
      by decide⟩
  refine ⟨_, hw, (C94_key_rfc hi.1 rfl hi.2 (idItem_legal hi.1) (by rw [← C58_id_text, disp_eq_ser hi.1]) hw).2
    ⟨by decide, _, hsl, by simp [Ows], [c! "a=1, b=2"], c! "a=3", [], _, .item ⟨.int 3, []⟩, rfl, (parseDict_iff _ _).1 rfl, by decide +kernel,
      by decide +kernel, by simp⟩, rfl⟩

/-- With a blank line next to it there is no value in the RFC. -/
example : ∃ w, Wire.HasValue (x94 ["a=1", ""]) none (i94 (.key (c! "a"))) w ∧
    value (c94 .dict) (x94 ["a=1", ""]) none (idItem (i94 (.key (c! "a")))) = none := by
  have hi := i94_key (c! "a") (by decide)
  have hsl := x94_lines (q := .key (c! "a")) nofun (ls := ["a=1", ""]) (ts := [c! "a=1", []])
    (.cons (by decide +kernel) (.cons (by decide +kernel) .nil))
  have hd : ∀ t ∈ [c! "a=1", []], ∃ d, DictText d t := by
    simp only [← parseDict_iff, ← Option.isSome_iff_exists]; decide +kernel
  obtain ⟨w, hw⟩ := (C94_key_has hi.1 rfl hi.2).2 ⟨_, hsl, hd⟩
  refine ⟨w, hw, ?_⟩
  rw [← Option.not_isSome_iff_eq_none, Option.isSome_iff_exists]
  rintro ⟨v, hv⟩
  obtain ⟨_, ts, h1, h2, _⟩ := (C94_key_rfc hi.1 rfl hi.2 (idItem_legal hi.1) (by rw [← C58_id_text, disp_eq_ser hi.1]) hw).1 hv
  cases sourceLines_unique h1 hsl
  exact h2 [] (by simp) (by simp [Ows])

/-- A string that goes over two lines: the RFC has a value, the library none. -/
example : (∃ v, value (c94 .dict) (x94 ["a=\"x", "y\""]) none (idItem (i94 (.key (c! "a")))) = some v) ∧
    ¬ ∃ w, Wire.HasValue (x94 ["a=\"x", "y\""]) none (i94 (.key (c! "a"))) w := by
  have hi := i94_key (c! "a") (by decide)
  have hsl := x94_lines (q := .key (c! "a")) nofun (ls := ["a=\"x", "y\""]) (ts := [c! "a=\"x", c! "y\""])
    (.cons (by decide +kernel) (.cons (by decide +kernel) .nil))
  obtain ⟨v, hv⟩ : ∃ v, value (c94 .dict) (x94 ["a=\"x", "y\""]) none (idItem (i94 (.key (c! "a")))) = some v :=
    Option.isSome_iff_exists.1 (by decide +kernel)
  refine ⟨⟨v, hv⟩, (C94_key_missing hi.1 rfl hi.2 (idItem_legal hi.1) (by rw [← C58_id_text, disp_eq_ser hi.1]) hv).2
    ⟨_, hsl, c! "a=\"x", by simp, ?_⟩⟩
  rintro ⟨d, h⟩
  rw [← parseDict_iff] at h
  have : parseDict ['a', '=', '"', 'x'] = none := by decide +kernel
  rw [this] at h; cases h

/-- `sf` on a list in two lines: the same value. -/
example : ∃ w, Wire.HasValue (x94 ["1 ,  2", "a;x"]) none (i94 .sf) w ∧
    value (c94 .list) (x94 ["1 ,  2", "a;x"]) none (idItem (i94 .sf)) = some w := by
  have hsl := x94_lines (q := .sf) nofun (ls := ["1 ,  2", "a;x"]) (ts := [c! "1 ,  2", c! "a;x"])
    (.cons (by decide +kernel) (.cons (by decide +kernel) .nil))
  have hd : ∀ t ∈ [c! "1 ,  2", c! "a;x"], ∃ l, ListText l t := by
    simp only [← parseList_iff, ← Option.isSome_iff_exists]; decide +kernel
  obtain ⟨w, hw⟩ := (C94_sf_has i94_sf.1 rfl i94_sf.2).2 ⟨_, hsl, fun t ht => ⟨Or.inl (hd t ht), by revert t; simp [Ows]⟩⟩
  exact ⟨w, hw, (C94_sf i94_sf.1 rfl i94_sf.2 (idItem_legal i94_sf.1) (by rw [← C58_id_text, disp_eq_ser i94_sf.1]) hw).2
    ⟨by decide, _, hsl, by simp, hd, nofun⟩⟩

/-- `sf` on the dictionary `a, a`: the RFC has a value, `a`, and the library another one. -/
example : ∃ w, Wire.HasValue (x94 ["a, a"]) none (i94 .sf) w ∧ (∃ v, value (c94 .dict) (x94 ["a, a"]) none (idItem (i94 .sf)) = some v) ∧
    value (c94 .dict) (x94 ["a, a"]) none (idItem (i94 .sf)) ≠ some w := by
  have hsl := x94_lines (q := .sf) nofun (ls := ["a, a"]) (ts := [c! "a, a"]) (.cons (by decide +kernel) .nil)
  have hd : ∀ t ∈ [c! "a, a"], ∃ d, DictText d t := by
    simp only [← parseDict_iff, ← Option.isSome_iff_exists]; decide +kernel
  obtain ⟨w, hw⟩ := (C94_sf_has i94_sf.1 rfl i94_sf.2).2 ⟨_, hsl, fun t ht => ⟨Or.inr (hd t ht), by revert t; simp [Ows]⟩⟩
  have hit : serItem (idItem (i94 .sf)) = Spec.idText (i94 .sf) := by rw [← C58_id_text, disp_eq_ser i94_sf.1]
  refine ⟨w, hw, (C94_sf_rfc i94_sf.1 rfl i94_sf.2 (idItem_legal i94_sf.1) hit hw).2 ⟨by decide, _, hsl, by simp, hd⟩, ?_⟩
  intro e
  obtain ⟨_, ts, h1, _, _, h2⟩ := (C94_sf i94_sf.1 rfl i94_sf.2 (idItem_legal i94_sf.1) hit hw).1 e
  cases sourceLines_unique h1 hsl
  have := (h2 rfl).2 _ (by simp) _ _ ((parseList_iff (c! "a, a") [.item ⟨.tok (c! "a"), []⟩, .item ⟨.tok (c! "a"), []⟩]).1 (by decide +kernel))
    ((parseDict_iff (c! "a, a") [(c! "a", .item ⟨.bool true, []⟩)]).1 (by decide +kernel))
  cases this

/-- A list that no line ends: the RFC has a value, the library none. -/
example : (∃ v, value (c94 .list) (x94 ["\"x", "y\""]) none (idItem (i94 .sf)) = some v) ∧
    ¬ ∃ w, Wire.HasValue (x94 ["\"x", "y\""]) none (i94 .sf) w := by
  have hsl := x94_lines (q := .sf) nofun (ls := ["\"x", "y\""]) (ts := [c! "\"x", c! "y\""])
    (.cons (by decide +kernel) (.cons (by decide +kernel) .nil))
  have hit : serItem (idItem (i94 .sf)) = Spec.idText (i94 .sf) := by rw [← C58_id_text, disp_eq_ser i94_sf.1]
  obtain ⟨v, hv⟩ : ∃ v, value (c94 .list) (x94 ["\"x", "y\""]) none (idItem (i94 .sf)) = some v :=
    Option.isSome_iff_exists.1 (by decide +kernel)
  refine ⟨⟨v, hv⟩, (C94_sf_missing i94_sf.1 rfl i94_sf.2 (idItem_legal i94_sf.1) hit hv).2 ⟨_, hsl, c! "\"x", by simp, Or.inl ⟨?_, ?_⟩⟩⟩
  · rintro ⟨l, h⟩
    rw [← parseList_iff] at h
    have : parseList ['"', 'x'] = none := by decide +kernel
    rw [this] at h; cases h
  · rintro ⟨d, h⟩
    rw [← parseDict_iff] at h
    have : parseDict ['"', 'x'] = none := by decide +kernel
    rw [this] at h; cases h

end Verif
