import Verif.Spec.RfcAll
import Verif.Proofs.RfcBoth
import Verif.Props.C94
/-!
C95: all identifiers that can be written to a header, those with `sf` and `key` together among them. Where the base of the library is
that of RFC 9421, and where only one of the two exists.
-/
namespace Verif
open Sfv Spec Rfc9421 Grammar RfcLines

/-! ### `sf` and `key` together -/

theorem members_of_canon {k : Str} {ts mid out : List Str} (h : List.Forall₂ Canon ts mid) : Members k mid out ↔ Members k ts out := by
  have e : ∀ ds : List Dict, List.Forall₂ (fun v d => parseDict v = some d) mid ds ↔ List.Forall₂ (fun v d => parseDict v = some d) ts ds := by
    induction h with
    | nil => exact fun ds => Iff.rfl
    | @cons t o ts mid hc _ ih =>
      intro ds
      cases ds with
      | nil => exact iff_of_false nofun nofun
      | cons d ds => rw [List.forall₂_cons, List.forall₂_cons, canon_dict hc, ih]
  unfold Members
  simp only [e]

theorem canon_members {k : Str} {ts mid out : List Str} (h : Members k ts mid) : List.Forall₂ Canon mid out ↔ out = mid := by
  obtain ⟨ds, hds, rfl⟩ := h
  have hl : ∀ o ∈ ds.filterMap (fun d => (d.lookup k).map serEntry), ∃ e, LegalEntry e ∧ o = serEntry e := by
    intro o ho
    obtain ⟨d, hd, ho⟩ := List.mem_filterMap.1 ho
    obtain ⟨e, he, rfl⟩ := Option.map_eq_some_iff.1 ho
    obtain ⟨t, _, ht⟩ := forall₂_mem_right hds d hd
    exact ⟨e, ((parseDict_legal ht).2 (k, e) (by
      rw [← imGet_lookup] at he; exact imGet_mem he)).2, rfl⟩
  generalize ds.filterMap (fun d => (d.lookup k).map serEntry) = l at hl
  induction l generalizing out with
  | nil => simp
  | cons o l ih =>
    obtain ⟨e, he, rfl⟩ := hl o (by simp)
    cases out with
    | nil => simp
    | cons o' out =>
      have h := ih (out := out) (fun o ho => hl o (List.mem_cons_of_mem _ ho))
      rw [List.forall₂_cons, canon_entry he, List.cons.injEq]
      exact and_congr_right fun _ => h

/-- `key` and `sf` in either order: the same members. With `sf` in front, no line may be blank. -/
theorem applied_both {ps : List CParam} {k : Str} (hd : (ps.map paramLabel).Nodup) (ho : ∀ p ∈ ps, p = .req ∨ p = .sf ∨ p = .key k)
    (hs : CParam.sf ∈ ps) (hk : CParam.key k ∈ ps) {vs out : List Str} :
    Applied ps vs out ↔ Members k vs out ∧ (SfFirst k ps → ∀ t ∈ vs, ¬ Ows t) := by
  induction ps with
  | nil => cases hs
  | cons p ps ih =>
    rw [List.map_cons, List.nodup_cons] at hd
    have no : ∀ q ∈ ps, paramLabel q ≠ paramLabel p := fun q hq e => hd.1 (e ▸ List.mem_map_of_mem hq)
    have ho' : ∀ p ∈ ps, p = .req ∨ p = .sf ∨ p = .key k := fun p hp => ho p (by simp [hp])
    rcases ho p (by simp) with rfl | rfl | rfl
    · have e1 : CParam.sf ∈ ps := by simpa using hs
      have e2 : CParam.key k ∈ ps := by simpa using hk
      have e3 : SfFirst k (.req :: ps) ↔ SfFirst k ps := by
        unfold SfFirst
        constructor
        · intro h; cases h; assumption
        · intro h; exact h.cons _
      rw [e3, ← ih hd.2 ho' e1 e2]
      exact ⟨fun h => by cases h with | req h => exact h, .req⟩
    · have e2 : CParam.key k ∈ ps := by simpa using hk
      have e3 : SfFirst k (.sf :: ps) := (List.singleton_sublist.2 e2).cons_cons _
      have ho2 : ∀ p ∈ ps, p = .req ∨ p = .key k := by
        intro p hp
        rcases ho' p hp with h | rfl | h
        · exact Or.inl h
        · exact absurd rfl (no _ hp)
        · exact Or.inr h
      have e4 : ∀ mid, Applied ps mid out ↔ Members k mid out := fun mid => by
        rw [applied_only hd.2 ho2 e2 (Or.inr rfl)]; simp
      constructor
      · intro h
        cases h with
        | sf h1 h2 =>
          rw [e4] at h2
          refine ⟨(members_of_canon h1).1 h2, fun _ t ht => ?_⟩
          obtain ⟨o, _, h⟩ := forall₂_mem_left h1 t ht
          exact ((canon_nonblank t).1 ⟨o, h⟩).2
      · rintro ⟨h1, h2⟩
        obtain ⟨mid, h3⟩ := (canons_exist vs).2 (fun t ht => (canon_nonblank t).2 ⟨Or.inr (by
          obtain ⟨d, hd⟩ := members_dicts h1 t ht
          exact ⟨d, (parseDict_iff _ _).1 hd⟩), h2 e3 t ht⟩)
        exact .sf h3 ((e4 mid).2 ((members_of_canon h3).2 h1))
    · have e1 : CParam.sf ∈ ps := by simpa using hs
      have e3 : ¬ SfFirst k (.key k :: ps) := by
        intro h
        cases h with
        | cons _ h => exact no _ (h.subset (by simp)) rfl
      have ho2 : ∀ p ∈ ps, p = .req ∨ p = .sf := by
        intro p hp
        rcases ho' p hp with h | h | rfl
        · exact Or.inl h
        · exact Or.inr h
        · exact absurd rfl (no _ hp)
      have e4 : ∀ mid, Applied ps mid out ↔ List.Forall₂ Canon mid out := fun mid => by
        rw [applied_only hd.2 ho2 e1 (k := k) (Or.inl rfl)]; simp
      constructor
      · intro h
        cases h with
        | key h1 h2 =>
          rw [e4, canon_members h1] at h2
          subst h2
          exact ⟨h1, fun h => absurd h e3⟩
      · rintro ⟨h1, _⟩
        exact .key h1 ((e4 _).2 ((canon_members h1).2 rfl))


section
variable {c : Ctx} {m : Msg} {rf : Option Request} {i : CId} {f k : Str} {it : Item}

/-- The value of the library for a field. -/
theorem field_applied (hf : i.name = .field f) {v : Str} :
    Wire.HasValue m rf i v ↔ ∃ ts out, SourceLines m rf i f ts ∧ Applied i.params ts out ∧ v = join (c! ", ") out := by
  rw [wireHasValue_iff]
  have e : HasValue m rf i v ↔ ∃ h, TakenFrom m rf i h ∧ FieldValue h f i.params v := by
    unfold HasValue ValueIn TakenFrom
    rw [hf]
    by_cases hq : CParam.req ∈ i.params
    · simp only [hq, if_true, not_true, false_and, true_and, false_or]
      constructor
      · rintro ⟨s, r, rfl, rfl, h⟩; exact ⟨_, ⟨s, r, rfl, rfl, rfl⟩, h⟩
      · rintro ⟨_, ⟨s, r, rfl, rfl, rfl⟩, h⟩; exact ⟨s, r, rfl, rfl, h⟩
    · simp [hq]
  rw [e]
  unfold FieldValue SourceLines
  simp only [linesText_iff]
  constructor
  · rintro ⟨h, h1, ts, out, h2, h3, h4⟩
    exact ⟨ts, out, ⟨h, h1, h2⟩, h3, h4⟩
  · rintro ⟨ts, out, ⟨h, h1, h2⟩, h3, h4⟩
    exact ⟨h, h1, ts, out, h2, h3, h4⟩

theorem applied_known {ps : List CParam} {vs out : List Str} (h : Applied ps vs out) : ∀ p ∈ ps, p = .req ∨ p = .sf ∨ ∃ k, p = .key k := by
  induction h with
  | done => simp
  | req _ ih => simpa using ih
  | sf _ _ ih => simpa using ih
  | key _ _ ih => simpa using ih

theorem key_unique {ps : List CParam} {k k' : Str} (hd : (ps.map paramLabel).Nodup) (h : CParam.key k ∈ ps) (h' : CParam.key k' ∈ ps) : k = k' := by
  have := List.inj_on_of_nodup_map hd h h' rfl
  injection this

theorem withoutSf_mem {p : CParam} : p ∈ (withoutSf i).params ↔ p ∈ i.params ∧ p ≠ .sf := by
  simp [withoutSf]

theorem withoutSf_safe (hs : SafeId i) : SafeId (withoutSf i) where
  distinct := hs.distinct.sublist (List.filter_sublist.map _)
  name := fun n h => hs.name n (withoutSf_mem.1 h).1
  fieldOnly := by
    simp only [withoutSf_mem]
    rintro (h | h | h | ⟨k, h⟩)
    · exact hs.fieldOnly (Or.inl h.1)
    · exact hs.fieldOnly (Or.inr (Or.inl h.1))
    · exact hs.fieldOnly (Or.inr (Or.inr (Or.inl h.1)))
    · exact hs.fieldOnly (Or.inr (Or.inr (Or.inr ⟨k, h.1⟩)))
  noAt := hs.noAt
  nameText := hs.nameText
  keyText := fun k h => hs.keyText k (withoutSf_mem.1 h).1
  nameParam := fun n h => hs.nameParam n (withoutSf_mem.1 h).1

theorem withoutSf_only (hk : CParam.key k ∈ i.params) (ho : ∀ p ∈ i.params, p = .req ∨ p = .sf ∨ p = .key k) :
    OnlyWith (withoutSf i) (.key k) := by
  refine ⟨withoutSf_mem.2 ⟨hk, nofun⟩, fun p hp => ?_⟩
  obtain ⟨h1, h2⟩ := withoutSf_mem.1 hp
  rcases ho p h1 with h | h | h
  · exact Or.inl h
  · exact absurd h h2
  · exact Or.inr h

theorem withoutSf_lines {ts : List Str} : SourceLines m rf (withoutSf i) f ts ↔ SourceLines m rf i f ts := by
  unfold SourceLines TakenFrom
  simp [withoutSf_mem]

/-- C95: `sf` beside `key` changes nothing in the library, but that blank lines are refused if it stands in front. -/
theorem C95_both {v : Str} (hs : SafeId i) (hf : i.name = .field f) (hk : CParam.key k ∈ i.params)
    (ho : ∀ p ∈ i.params, p = .req ∨ p = .sf ∨ p = .key k) :
    Wire.HasValue m rf i v ↔ Wire.HasValue m rf (withoutSf i) v ∧ (SfFirst k i.params → ∀ ts, SourceLines m rf i f ts → ∀ t ∈ ts, ¬ Ows t) := by
  rw [has_lines (withoutSf_safe hs) hf (withoutSf_only hk ho) (Or.inr rfl), field_applied hf]
  simp only [withoutSf_lines, reduceCtorEq, false_and, true_and, false_or]
  by_cases hsf : CParam.sf ∈ i.params
  · simp only [applied_both hs.distinct ho hsf hk]
    constructor
    · rintro ⟨ts, out, h1, ⟨h2, h3⟩, rfl⟩
      refine ⟨⟨ts, out, h1, h2, rfl⟩, fun hx us hu => ?_⟩
      cases sourceLines_unique hu h1
      exact h3 hx
    · rintro ⟨⟨ts, out, h1, h2, rfl⟩, h3⟩
      exact ⟨ts, out, h1, ⟨h2, fun hx => h3 hx ts h1⟩, rfl⟩
  · have hx : ¬ SfFirst k i.params := fun h => hsf (h.subset (by simp))
    have ho2 : ∀ p ∈ i.params, p = .req ∨ p = .key k := by
      intro p hp
      rcases ho p hp with h | rfl | h
      · exact Or.inl h
      · exact absurd hp hsf
      · exact Or.inr h
    simp only [applied_only hs.distinct ho2 hk (Or.inr rfl), reduceCtorEq, false_and, true_and, false_or, hx, false_imp_iff, and_true]

/-- C95: and it changes nothing in the RFC. -/
theorem C95_both_rfc (hs : SafeId i) (hf : i.name = .field f) (hk : CParam.key k ∈ i.params) :
    value c m rf (idItem i) = value c m rf (idItem (withoutSf i)) := by
  obtain ⟨w, hw, hr⟩ := wants_of hs
  obtain ⟨w', hw', hr'⟩ := wants_of (withoutSf_safe hs)
  have same : ∀ p : CParam, p ≠ .sf → (p ∈ (withoutSf i).params ↔ p ∈ i.params) := fun p hp => by rw [withoutSf_mem]; simp [hp]
  have e : w'.bs = w.bs ∧ w'.tr = w.tr ∧ w'.req = w.req ∧ w'.key = w.key ∧ w'.name = w.name := by
    refine ⟨?_, ?_, ?_, ?_, ?_⟩
    · rw [Bool.eq_iff_iff, hr'.bs, hr.bs]; exact same _ nofun
    · rw [Bool.eq_iff_iff, hr'.tr, hr.tr]; exact same _ nofun
    · rw [Bool.eq_iff_iff, hr'.req, hr.req]; exact same _ nofun
    · exact Option.ext fun k => by rw [hr'.key, hr.key]; exact same _ nofun
    · exact Option.ext fun k => by rw [hr'.name, hr.name]; exact same _ nofun
  have ek : w.key = some k := (hr.key k).2 hk
  have key : ∀ h, fieldValue c h f w = fieldValue c h f w' := by
    intro h
    unfold fieldValue
    rw [e.1, e.2.1, e.2.2.2.1, e.2.2.2.2, ek]
    simp
  have keyM : ∀ m, valueIn c m f w = valueIn c m f w' := by
    intro m
    have hat := hs.noAt f hf
    unfold valueIn
    rw [if_neg hat, if_neg hat, key]
  show Option.bind (wants (i.params.map paramKV)) (fun w => if w.req then
        match m, rf with
        | .res _, some r => valueIn c (.req r) (nameText i.name) w
        | _, _ => none
      else valueIn c m (nameText i.name) w) = Option.bind (wants ((withoutSf i).params.map paramKV)) (fun w => if w.req then
        match m, rf with
        | .res _, some r => valueIn c (.req r) (nameText i.name) w
        | _, _ => none
      else valueIn c m (nameText i.name) w)
  rw [hw, hw', Option.bind_some, Option.bind_some, hf, show nameText (.field f) = f from rfl, e.2.2.1]
  simp only [keyM]

/-! ### One component -/

theorem idItem_text (hs : SafeId i) : serItem (idItem i) = idText i := by rw [← C58_id_text, disp_eq_ser hs]

theorem last_exists {ts : List Str} (h : ∀ t ∈ ts, ∃ d, DictText d t) : (∃ v, LastMember k ts v) ↔ ∃ t ∈ ts, HasMember k t := by
  obtain ⟨ds, hds⟩ := dicts_exist h
  simp only [← found_last hds]
  have := found_none (k := k) hds
  constructor
  · rintro ⟨v, hv⟩
    by_contra hn
    rw [this.2 (fun u hu hm => hn ⟨u, hu, hm⟩)] at hv
    cases hv
  · rintro ⟨t, ht, hm⟩
    cases e : (found k ds).getLast? with
    | none => exact absurd hm (this.1 (List.getLast?_eq_none_iff.1 e) t ht)
    | some x => exact ⟨_, rfl⟩

theorem derived_plain {d : Derived} (hs : SafeId i) (hn : i.name = .derived d) : PlainId i := by
  intro p hp
  constructor
  · rintro rfl
    obtain ⟨f, h⟩ := hs.fieldOnly (Or.inl hp)
    rw [hn] at h; cases h
  · rintro k rfl
    obtain ⟨f, h⟩ := hs.fieldOnly (Or.inr (Or.inr (Or.inr ⟨k, hp⟩)))
    rw [hn] at h; cases h

theorem linesText_nil {h : Headers} {ts : List Str} (ht : Wire.LinesText h f ts) : ts = [] ↔ Wire.linesOf h f = [] := by
  unfold Wire.LinesText at ht
  generalize Wire.linesOf h f = ls at ht
  cases ht <;> simp

theorem linesText_exists {h : Headers} : (∃ ts, Wire.LinesText h f ts) ↔ ∀ l ∈ Wire.linesOf h f, ∃ t, Wire.LineText l t := by
  unfold Wire.LinesText
  generalize Wire.linesOf h f = ls
  constructor
  · rintro ⟨ts, ht⟩ l hl
    obtain ⟨t, _, h⟩ := forall₂_mem_left ht l hl
    exact ⟨t, h⟩
  · intro h
    induction ls with
    | nil => exact ⟨[], .nil⟩
    | cons l ls ih =>
      obtain ⟨ts, hts⟩ := ih (fun l hl => h l (by simp [hl]))
      obtain ⟨t, ht⟩ := h l (by simp)
      exact ⟨t :: ts, .cons ht hts⟩

theorem lax_plain (hf : i.name = .field f) : Lax m rf i ↔ ∃ ts, SourceLines m rf i f ts ∧ (∀ p ∈ i.params, p = .req) ∧ (lowerCase f ≠ f ∨ ts = []) := by
  have key : ∀ m : Msg, LaxIn m i ↔ ∃ ts, Wire.LinesText m.headers f ts ∧ (∀ p ∈ i.params, p = .req) ∧ (lowerCase f ≠ f ∨ ts = []) := by
    intro m
    have e : LaxIn m i ↔ (∀ p ∈ i.params, p = .req) ∧ (Wire.linesOf m.headers f = [] ∨ lowerCase f ≠ f) ∧
        ∀ l ∈ Wire.linesOf m.headers f, ∃ t, Wire.LineText l t := by
      obtain ⟨n, ps⟩ := i
      simp only at hf; subst hf
      cases m <;> exact Iff.rfl
    rw [e, ← linesText_exists]
    constructor
    · rintro ⟨h1, h2, ts, h3⟩
      exact ⟨ts, h3, h1, h2.symm.imp_right (linesText_nil h3).2⟩
    · rintro ⟨ts, h3, h1, h2⟩
      exact ⟨h1, (h2.imp_right (linesText_nil h3).1).symm, ts, h3⟩
  unfold Lax SourceLines TakenFrom
  simp only [key]
  constructor
  · rintro (⟨h, ts, h1, h2⟩ | ⟨h, s, r, rfl, rfl, ts, h1, h2⟩)
    · exact ⟨ts, ⟨_, Or.inl ⟨h, rfl⟩, h1⟩, h2⟩
    · exact ⟨ts, ⟨_, Or.inr ⟨h, s, r, rfl, rfl, rfl⟩, h1⟩, h2⟩
  · rintro ⟨ts, ⟨hd, ⟨h, rfl⟩ | ⟨h, s, r, rfl, rfl, rfl⟩, h1⟩, h2⟩
    · exact Or.inl ⟨h, ts, h1, h2⟩
    · exact Or.inr ⟨h, s, r, rfl, rfl, ts, h1, h2⟩

/-- C95: the library has a value and the RFC has none: exactly in the listed cases. -/
theorem C95_lax (hs : SafeId i) (hl : LegalItem it) (ht : serItem it = idText i) :
    (value c m rf it = none ∧ ∃ v, Wire.HasValue m rf i v) ↔ LaxAll c m rf i := by
  rw [item_eq hs hl ht]
  have hno : value c m rf (idItem i) = none ↔ ¬ ∃ v, value c m rf (idItem i) = some v := by
    rw [← Option.not_isSome_iff_eq_none, Option.isSome_iff_exists]
  unfold LaxAll
  split
  rotate_left
  · rename_i d hn
    exact C92_lax hs (derived_plain hs hn) (idItem_legal hs) (idItem_text hs)
  rename_i f hf
  have hs' := withoutSf_safe hs
  constructor
  · rintro ⟨h0, v, hv⟩
    obtain ⟨ts, out, h1, h2, _⟩ := (field_applied hf).1 hv
    have hap := applied_known h2
    refine ⟨ts, h1, ?_⟩
    by_cases hk : ∃ k, CParam.key k ∈ i.params
    · obtain ⟨k, hk⟩ := hk
      have ho : ∀ p ∈ i.params, p = .req ∨ p = .sf ∨ p = .key k := by
        intro p hp
        rcases hap p hp with h | h | ⟨k', rfl⟩
        · exact Or.inl h
        · exact Or.inr (Or.inl h)
        · rw [key_unique hs.distinct hp hk]; exact Or.inr (Or.inr rfl)
      have ho' := withoutSf_only hk ho
      obtain ⟨hv', hb⟩ := (C95_both hs hf hk ho).1 hv
      obtain ⟨us, h3, h4⟩ := (C94_key_has hs' hf ho').1 ⟨v, hv'⟩
      cases sourceLines_unique (withoutSf_lines.1 h3) h1
      refine .key hk ho h4 (fun hx => hb hx _ h1) ?_
      by_contra hn
      rw [not_or, not_or, not_not] at hn
      obtain ⟨n1, n2, n3⟩ := hn
      obtain ⟨w, hw⟩ := (last_exists h4).2 (by simpa using n3)
      rw [hno, C95_both_rfc hs hf hk] at h0
      exact h0 ⟨w, (C94_key_rfc hs' hf ho' (idItem_legal hs') (idItem_text hs') hv').2
        ⟨n1, _, h3, fun t ht h => n2 ⟨t, ht, h⟩, hw⟩⟩
    · have hk' : ∀ k, CParam.key k ∉ i.params := fun k h => hk ⟨k, h⟩
      have ho : ∀ p ∈ i.params, p = .req ∨ p = .sf := by
        intro p hp
        rcases hap p hp with h | h | ⟨k', rfl⟩
        · exact Or.inl h
        · exact Or.inr h
        · exact absurd hp (hk' k')
      by_cases hsf : CParam.sf ∈ i.params
      · obtain ⟨us, h3, h4⟩ := (C94_sf_has hs hf ⟨hsf, ho⟩).1 ⟨v, hv⟩
        cases sourceLines_unique h3 h1
        refine .sf hsf ho h4 ?_
        by_contra hn
        rw [not_or, not_or, not_not, not_not] at hn
        rw [hno, C94_sf_rfc hs hf ⟨hsf, ho⟩ (idItem_legal hs) (idItem_text hs) hv] at h0
        exact h0 ⟨hn.1, _, h1, hn.2⟩
      · have hp : PlainId i := fun p hp => ⟨(by rintro rfl; exact hsf hp), (by rintro k rfl; exact hk' k hp)⟩
        obtain ⟨us, h3, h4, h5⟩ := (lax_plain hf).1 ((C92_lax hs hp (idItem_legal hs) (idItem_text hs)).1 ⟨h0, v, hv⟩)
        cases sourceLines_unique h3 h1
        exact .plain h4 h5
  · rintro ⟨ts, h1, h⟩
    cases h with
    | plain h2 h3 =>
      have hp : PlainId i := fun p hp => by rw [h2 p hp]; exact ⟨nofun, nofun⟩
      exact (C92_lax hs hp (idItem_legal hs) (idItem_text hs)).2 ((lax_plain hf).2 ⟨ts, h1, h2, h3⟩)
    | sf hsf ho h2 h3 =>
      obtain ⟨v, hv⟩ := (C94_sf_has hs hf ⟨hsf, ho⟩).2 ⟨ts, h1, h2⟩
      refine ⟨?_, v, hv⟩
      rw [hno, C94_sf_rfc hs hf ⟨hsf, ho⟩ (idItem_legal hs) (idItem_text hs) hv]
      rintro ⟨n1, us, hu, n2, n3⟩
      cases sourceLines_unique hu h1
      rcases h3 with h3 | h3 | h3
      · exact h3 n1
      · exact n2 h3
      · exact h3 n3
    | @key k hk ho h2 h3 h4 =>
      have ho' := withoutSf_only hk ho
      obtain ⟨v, hv'⟩ := (C94_key_has hs' hf ho').2 ⟨ts, withoutSf_lines.2 h1, h2⟩
      have hv := (C95_both hs hf hk ho).2 ⟨hv', fun hx us hu => by cases sourceLines_unique hu h1; exact h3 hx⟩
      refine ⟨?_, v, hv⟩
      rw [hno, C95_both_rfc hs hf hk]
      rintro ⟨w, hw⟩
      obtain ⟨n1, us, hu, n2, n3⟩ := (C94_key_rfc hs' hf ho' (idItem_legal hs') (idItem_text hs') hv').1 hw
      cases sourceLines_unique (withoutSf_lines.1 hu) h1
      rcases h4 with h4 | ⟨t, ht, h4⟩ | h4
      · exact h4 n1
      · exact n2 t ht h4
      · obtain ⟨t, ht, h5⟩ := (last_exists h2).1 ⟨w, n3⟩
        exact h4 t ht h5

/-- What a value of the RFC says about the parameters and the lines. -/
theorem value_field {v : Str} (hs : SafeId i) (hf : i.name = .field f) (h : value c m rf (idItem i) = some v) :
    CParam.tr ∉ i.params ∧ (CParam.bs ∈ i.params → CParam.sf ∉ i.params ∧ ∀ k, CParam.key k ∉ i.params) ∧
    (CParam.bs ∉ i.params → ∃ ts, SourceLines m rf i f ts ∧ (CParam.sf ∉ i.params → (∀ k, CParam.key k ∉ i.params) → v = combined ts)) := by
  obtain ⟨w, hw, hr⟩ := wants_of hs
  obtain ⟨hd, hsrc⟩ := value_source hs h
  rw [value_eq hs hf hw hr hsrc] at h
  split at h
  swap
  · cases h
  unfold fieldValue at h
  simp only at h
  split at h
  · cases h
  rename_i h0
  simp only [not_or] at h0
  refine ⟨fun e => h0.2.1 (hr.tr.2 e), fun e => ?_, fun e => ?_⟩
  · rw [if_pos (hr.bs.2 e)] at h
    split at h
    · cases h
    rename_i h1
    simp only [not_or] at h1
    exact ⟨fun e => h1.1 (hr.sf.2 e), fun k e => h1.2 (by rw [(hr.key k).2 e]; rfl)⟩
  · rw [if_neg (fun e' => e (hr.bs.1 e'))] at h
    obtain ⟨ts, hts, h⟩ := Option.bind_eq_some_iff.1 h
    refine ⟨ts, ⟨hd, hsrc, linesText_iff.2 (Rfc.allSome_texts hts)⟩, fun e1 e2 => ?_⟩
    have hk : w.key = none := by
      cases e : w.key with
      | none => rfl
      | some k => exact absurd ((hr.key k).1 e) (e2 k)
    rw [hk] at h
    simp only [if_neg (fun e' => e1 (hr.sf.1 e'))] at h
    injection h with h; exact h.symm

theorem field_params (hs : SafeId i) (hf : i.name = .field f) (htr : CParam.tr ∉ i.params) (hbs : CParam.bs ∉ i.params) :
    ∀ p ∈ i.params, p = .req ∨ p = .sf ∨ ∃ k, p = .key k := by
  intro p hp
  cases p with
  | req => exact Or.inl rfl
  | sf => exact Or.inr (Or.inl rfl)
  | key k => exact Or.inr (Or.inr ⟨k, rfl⟩)
  | bs => exact absurd hp hbs
  | tr => exact absurd hp htr
  | name n => have := hs.name n hp; rw [hf] at this; cases this

theorem derived_noBs {d : Derived} (hs : SafeId i) (hn : i.name = .derived d) : CParam.bs ∉ i.params := by
  intro h
  obtain ⟨f, h⟩ := hs.fieldOnly (Or.inr (Or.inl h))
  rw [hn] at h; cases h

theorem not_strict {t : Str} : ¬ Strict t ↔ ((¬ ∃ l, ListText l t) ∧ ¬ ∃ d, DictText d t) ∨ Ows t := by
  unfold Strict
  rw [not_and_or, not_or, not_not]

/-- C95: the RFC has a value and the library has none: exactly in the listed cases. -/
theorem C95_missing {v : Str} (hs : SafeId i) (hl : LegalItem it) (ht : serItem it = idText i) (h : value c m rf it = some v) :
    (¬ ∃ w, Wire.HasValue m rf i w) ↔ Missing m rf i := by
  rw [item_eq hs hl ht] at h
  cases hn : i.name with
  | derived d =>
    have hbs := derived_noBs hs hn
    rw [C92_missing hs (derived_plain hs hn) (idItem_legal hs) (idItem_text hs) h]
    unfold Missing
    simp [hbs, hn]
  | field f =>
    obtain ⟨htr, hbs, hsrc⟩ := value_field hs hn h
    by_cases hb : CParam.bs ∈ i.params
    · refine iff_of_true ?_ (Or.inl hb)
      rintro ⟨w, hw⟩
      obtain ⟨ts, out, _, h2, _⟩ := (field_applied hn).1 hw
      rcases applied_known h2 _ hb with h | h | ⟨k, h⟩ <;> cases h
    have hap := field_params hs hn htr hb
    obtain ⟨ts, h1, _⟩ := hsrc hb
    have e : Missing m rf i ↔ (∃ k, CParam.key k ∈ i.params ∧ ∃ t ∈ ts, ¬ ∃ d, DictText d t) ∨ (SfAlone i.params ∧ ∃ t ∈ ts, ¬ Strict t) := by
      unfold Missing
      constructor
      · rintro (h | ⟨f', us, h2, h3, h4⟩)
        · exact absurd h hb
        · rw [hn] at h2; cases h2
          cases sourceLines_unique h3 h1
          exact h4
      · intro h; exact Or.inr ⟨f, ts, hn, h1, h⟩
    rw [e]
    by_cases hk : ∃ k, CParam.key k ∈ i.params
    · obtain ⟨k, hk⟩ := hk
      have hs' := withoutSf_safe hs
      have ho : ∀ p ∈ i.params, p = .req ∨ p = .sf ∨ p = .key k := by
        intro p hp
        rcases hap p hp with h | h | ⟨k', rfl⟩
        · exact Or.inl h
        · exact Or.inr (Or.inl h)
        · rw [key_unique hs.distinct hp hk]; exact Or.inr (Or.inr rfl)
      have ho' := withoutSf_only hk ho
      rw [C95_both_rfc hs hn hk] at h
      have e2 : (∃ w, Wire.HasValue m rf i w) ↔ ∃ w, Wire.HasValue m rf (withoutSf i) w := by
        constructor
        · rintro ⟨w, hw⟩; exact ⟨w, ((C95_both hs hn hk ho).1 hw).1⟩
        · rintro ⟨w, hw⟩
          refine ⟨w, (C95_both hs hn hk ho).2 ⟨hw, fun _ us hu => ?_⟩⟩
          obtain ⟨_, us', hu', h3, _⟩ := (C94_key_rfc hs' hn ho' (idItem_legal hs') (idItem_text hs') hw).1 h
          cases sourceLines_unique (withoutSf_lines.1 hu') hu
          exact h3
      rw [e2, C94_key_missing hs' hn ho' (idItem_legal hs') (idItem_text hs') h]
      constructor
      · rintro ⟨us, hu, h3⟩
        cases sourceLines_unique (withoutSf_lines.1 hu) h1
        exact Or.inl ⟨k, hk, h3⟩
      · rintro (⟨_, _, h3⟩ | ⟨h3, _⟩)
        · exact ⟨ts, withoutSf_lines.2 h1, h3⟩
        · exact absurd hk (h3.2 k)
    · have hk' : ∀ k, CParam.key k ∉ i.params := fun k h => hk ⟨k, h⟩
      have ho : ∀ p ∈ i.params, p = .req ∨ p = .sf := by
        intro p hp
        rcases hap p hp with h | h | ⟨k', rfl⟩
        · exact Or.inl h
        · exact Or.inr h
        · exact absurd hp (hk' k')
      by_cases hsf : CParam.sf ∈ i.params
      · rw [C94_sf_missing hs hn ⟨hsf, ho⟩ (idItem_legal hs) (idItem_text hs) h]
        simp only [← not_strict]
        constructor
        · rintro ⟨us, hu, h3⟩
          cases sourceLines_unique hu h1
          exact Or.inr ⟨⟨hsf, hk'⟩, h3⟩
        · rintro (⟨k, h3, _⟩ | ⟨_, h3⟩)
          · exact absurd h3 (hk' k)
          · exact ⟨ts, h1, h3⟩
      · have hp : PlainId i := fun p hp => ⟨(by rintro rfl; exact hsf hp), (by rintro k rfl; exact hk' k hp)⟩
        rw [C92_missing hs hp (idItem_legal hs) (idItem_text hs) h]
        refine iff_of_false (fun h => h hb) ?_
        rintro (⟨k, h3, _⟩ | ⟨h3, _⟩)
        · exact hk' k h3
        · exact hsf h3.1

/-- C95: the RFC has a value: the library has the same exactly in the listed cases. -/
theorem C95_same {v : Str} (hm : WfHeaders m.headers) (hf : ∀ r, rf = some r → WfHeaders r.headers)
    (hc : c.scheme ≠ []) (ha : ∀ r, m = .req r ∨ rf = some r → rfcValue c r (c! "@authority") ≠ some [])
    (hs : SafeId i) (hl : LegalItem it) (ht : serItem it = idText i) (h : value c m rf it = some v) :
    Wire.HasValue m rf i v ↔ ExactAll c m rf i it := by
  unfold ExactAll
  split
  rotate_left
  · rename_i d hn
    have hp : PlainItem it := by
      rw [item_eq hs hl ht]
      intro kv hkv
      obtain ⟨p, hp, rfl⟩ := List.mem_map.1 hkv
      have := derived_plain hs hn p hp
      cases p with
      | sf => exact absurd rfl this.1
      | key k => exact absurd rfl (this.2 k)
      | _ => simp [paramKV]
    rw [← C76_item hm hf hc ha hl hp h, wireHasValue_iff]
    constructor
    · intro hv; exact ⟨i, v, hs, ht, hv, h⟩
    · rintro ⟨id, v', h1, h2, h3, h4⟩
      rw [h4] at h; cases h
      have e := item_eq hs hl ht
      rw [item_eq h1 hl h2] at e
      rw [← idItem_inj h1 hs e]
      exact h3
  · rename_i f hn
    rw [item_eq hs hl ht] at h
    obtain ⟨htr, hbs, hsrc⟩ := value_field hs hn h
    by_cases hb : CParam.bs ∈ i.params
    · refine iff_of_false (fun hw => ?_) (fun hx => hx.1 hb)
      obtain ⟨ts, out, _, h2, _⟩ := (field_applied hn).1 hw
      rcases applied_known h2 _ hb with h | h | ⟨k, h⟩ <;> cases h
    have hap := field_params hs hn htr hb
    obtain ⟨ts, h1, hpl⟩ := hsrc hb
    have e : (CParam.bs ∉ i.params ∧ ∀ ts, SourceLines m rf i f ts → ExactField c f i.params ts) ↔ ExactField c f i.params ts := by
      constructor
      · intro hx; exact hx.2 ts h1
      · intro hx; exact ⟨hb, fun us hu => by cases sourceLines_unique hu h1; exact hx⟩
    rw [e]
    by_cases hk : ∃ k, CParam.key k ∈ i.params
    · obtain ⟨k, hk⟩ := hk
      have hs' := withoutSf_safe hs
      have ho : ∀ p ∈ i.params, p = .req ∨ p = .sf ∨ p = .key k := by
        intro p hp
        rcases hap p hp with h | h | ⟨k', rfl⟩
        · exact Or.inl h
        · exact Or.inr (Or.inl h)
        · rw [key_unique hs.distinct hp hk]; exact Or.inr (Or.inr rfl)
      have ho' := withoutSf_only hk ho
      rw [C95_both_rfc hs hn hk] at h
      have hes : ExactField c f i.params ts ↔ (∀ t ∈ ts, ∃ d, DictText d t) ∧ Once k ts := by
        constructor
        · intro hx; exact hx.key k hk
        · intro hx
          exact ⟨fun _ h => absurd hk (h k), fun h => absurd hk (h.2 k), fun k' hk' => by rw [key_unique hs.distinct hk' hk]; exact hx⟩
      rw [hes]
      constructor
      · intro hw
        have hw' := ((C95_both hs hn hk ho).1 hw).1
        obtain ⟨us, hu, h3⟩ := (C94_key_has hs' hn ho').1 ⟨v, hw'⟩
        cases sourceLines_unique (withoutSf_lines.1 hu) h1
        obtain ⟨_, us, hu, _, h4⟩ := (C94_key hs' hn ho' (idItem_legal hs') (idItem_text hs') hw').1 h
        cases sourceLines_unique (withoutSf_lines.1 hu) h1
        exact ⟨h3, h4⟩
      · rintro ⟨h3, h4⟩
        obtain ⟨w, hw'⟩ := (C94_key_has hs' hn ho').2 ⟨ts, withoutSf_lines.2 h1, h3⟩
        obtain ⟨n1, us, hu, n2, n3⟩ := (C94_key_rfc hs' hn ho' (idItem_legal hs') (idItem_text hs') hw').1 h
        cases sourceLines_unique (withoutSf_lines.1 hu) h1
        have := (C94_key (c := c) hs' hn ho' (idItem_legal hs') (idItem_text hs') hw').2 ⟨n1, _, hu, n2, h4⟩
        rw [h] at this; cases this
        exact (C95_both hs hn hk ho).2 ⟨hw', fun _ us hu => by cases sourceLines_unique hu h1; exact n2⟩
    · have hk' : ∀ k, CParam.key k ∉ i.params := fun k h => hk ⟨k, h⟩
      have ho : ∀ p ∈ i.params, p = .req ∨ p = .sf := by
        intro p hp
        rcases hap p hp with h | h | ⟨k', rfl⟩
        · exact Or.inl h
        · exact Or.inr h
        · exact absurd hp (hk' k')
      by_cases hsf : CParam.sf ∈ i.params
      · have hes : ExactField c f i.params ts ↔ (∀ t ∈ ts, Strict t) ∧ (c.kind f = some .dict → NoRepeats ts) := by
          constructor
          · intro hx; exact hx.sf ⟨hsf, hk'⟩
          · intro hx
            exact ⟨fun h => absurd hsf h, fun _ => hx, fun k h => absurd h (hk' k)⟩
        rw [hes]
        constructor
        · intro hw
          obtain ⟨us, hu, h3⟩ := (C94_sf_has hs hn ⟨hsf, ho⟩).1 ⟨v, hw⟩
          cases sourceLines_unique hu h1
          obtain ⟨_, us, hu, _, _, h4⟩ := (C94_sf hs hn ⟨hsf, ho⟩ (idItem_legal hs) (idItem_text hs) hw).1 h
          cases sourceLines_unique hu h1
          exact ⟨h3, h4⟩
        · rintro ⟨h3, h4⟩
          obtain ⟨w, hw⟩ := (C94_sf_has hs hn ⟨hsf, ho⟩).2 ⟨ts, h1, h3⟩
          obtain ⟨n1, us, hu, n2, n3⟩ := (C94_sf_rfc hs hn ⟨hsf, ho⟩ (idItem_legal hs) (idItem_text hs) hw).1 ⟨v, h⟩
          cases sourceLines_unique hu h1
          have := (C94_sf hs hn ⟨hsf, ho⟩ (idItem_legal hs) (idItem_text hs) hw).2 ⟨n1, _, hu, n2, n3, h4⟩
          rw [h] at this; cases this
          exact hw
      · have hreq : ∀ p ∈ i.params, p = .req := by
          intro p hp
          rcases ho p hp with h | rfl
          · exact h
          · exact absurd hp hsf
        have hes : ExactField c f i.params ts ↔ ∀ t ∈ ts, strip t = t := by
          constructor
          · intro hx; exact hx.plain hsf hk'
          · intro hx
            exact ⟨fun _ _ => hx, fun h => absurd h.1 hsf, fun k h => absurd h (hk' k)⟩
        rw [hes, field_applied hn, ← join_strip_iff, ← Rfc.intercalate_eq, hpl hsf hk']
        simp only [applied_reqs hreq]
        constructor
        · rintro ⟨us, out, hu, rfl, h3⟩
          cases sourceLines_unique hu h1
          exact h3
        · intro h3; exact ⟨ts, ts, h1, rfl, h3⟩

end

/-! ### Bases -/

section
variable {c : Ctx} {m : Msg} {rf : Option Request} {p : SigParams} {l : InnerList}

theorem baseOf_exists : (∃ t, Wire.BaseOf m rf p t) ↔ ∀ i ∈ p.covered, ∃ v, Wire.HasValue m rf i v := by
  rw [← lines_exist]
  exact ⟨fun ⟨_, t, h, _⟩ => ⟨t, h⟩, fun ⟨t, h⟩ => ⟨_, t, h, rfl⟩⟩

/-- C95: the library has a base and the RFC has none: the library has a value for every component, one of them in the listed cases. -/
theorem C95_base_lax (hs : SafeParams p) (hl : LegalEntry (.inner l)) (ht : serInner l = paramsText p) :
    (base c m rf l = none ∧ ∃ t, Wire.BaseOf m rf p t) ↔
      (∀ i ∈ p.covered, ∃ v, Wire.HasValue m rf i v) ∧ ∃ i ∈ p.covered, LaxAll c m rf i := by
  rw [inner_eq hs hl ht, ← Option.not_isSome_iff_eq_none, Option.isSome_iff_exists, base_some hs, baseOf_exists, and_comm]
  refine and_congr_right fun h => ?_
  have key : ∀ i ∈ p.covered, (¬ ∃ v, value c m rf (idItem i) = some v) ↔ LaxAll c m rf i := by
    intro i hi
    rw [← C95_lax (hs.ids i hi) (idItem_legal (hs.ids i hi)) (idItem_text (hs.ids i hi)), ← Option.not_isSome_iff_eq_none,
      Option.isSome_iff_exists]
    exact ⟨fun hx => ⟨hx, h i hi⟩, fun hx => hx.1⟩
  constructor
  · intro hx
    by_contra hn
    exact hx fun i hi => by
      by_contra h2
      exact hn ⟨i, hi, (key i hi).1 h2⟩
  · rintro ⟨i, hi, hx⟩ h2
    exact (key i hi).2 hx (h2 i hi)

/-- C95: the RFC has a base and the library has none: exactly if one of the components is in the listed cases. -/
theorem C95_base_missing {t : Str} (hs : SafeParams p) (hl : LegalEntry (.inner l)) (ht : serInner l = paramsText p)
    (h : base c m rf l = some t) : (¬ ∃ t, Wire.BaseOf m rf p t) ↔ ∃ i ∈ p.covered, Missing m rf i := by
  rw [inner_eq hs hl ht] at h
  have key : ∀ i ∈ p.covered, (¬ ∃ v, Wire.HasValue m rf i v) ↔ Missing m rf i := by
    intro i hi
    obtain ⟨v, hv⟩ := (base_some hs).1 ⟨t, h⟩ i hi
    exact C95_missing (hs.ids i hi) (idItem_legal (hs.ids i hi)) (idItem_text (hs.ids i hi)) hv
  rw [baseOf_exists]
  constructor
  · intro hx
    by_contra hn
    exact hx fun i hi => by
      by_contra h2
      exact hn ⟨i, hi, (key i hi).1 h2⟩
  · rintro ⟨i, hi, hx⟩ h2
    exact (key i hi).2 hx (h2 i hi)

/-- C95: the RFC has a base: the library signs and verifies the same exactly if the signature parameters are in its order and form and
every component is in the listed cases. -/
theorem C95_exact {t : Str} (hm : WfMsg m) (hf : ∀ r, rf = some r → WfRequest r) (hc : OneLine c.scheme) (hc' : c.scheme ≠ [])
    (ha : ∀ r, m = .req r ∨ rf = some r → rfcValue c r (c! "@authority") ≠ some []) (hl : LegalEntry (.inner l)) (h : base c m rf l = some t) :
    codeBase m rf l = some t ↔ UsualParams l.params ∧
      ∀ it ∈ l.items, ∃ i, SafeId i ∧ serItem it = idText i ∧ ExactAll c m rf i it := by
  rw [C76_exact hm hf hc hl h]
  obtain ⟨_, vs, hvs, _⟩ := Rfc.base_lines h
  refine and_congr_right fun _ => forall₂_congr fun it hi => ?_
  obtain ⟨v, _, hv⟩ := forall₂_mem_left hvs it hi
  unfold Agrees
  have key : ∀ i, SafeId i → serItem it = idText i → (Wire.HasValue m rf i v ↔ ExactAll c m rf i it) := fun i hs ht =>
    C95_same (WfMsg.wfHeaders hm) (fun r hr => (hf r hr).headers) hc' ha hs (hl.1 it hi) ht hv
  constructor
  · rintro ⟨i, w, h1, h2, h3, h4⟩
    rw [hv] at h4; cases h4
    exact ⟨i, h1, h2, (key i h1 h2).1 (wireHasValue_iff.2 h3)⟩
  · rintro ⟨i, h1, h2, h3⟩
    exact ⟨i, v, h1, h2, wireHasValue_iff.1 ((key i h1 h2).2 h3), hv⟩

end

/-! ### Concrete cases -/

def i95 (ps : List CParam) : CId := ⟨.field (c! "d"), ps⟩

theorem i95_safe {ps : List CParam} (h1 : (ps.map paramLabel).Nodup) (h2 : ∀ p ∈ ps, p = .sf ∨ p = .key (c! "a")) : SafeId (i95 ps) where
  distinct := h1
  name := fun n h => by rcases h2 _ h with h | h <;> cases h
  fieldOnly := fun _ => ⟨_, rfl⟩
  noAt := fun f h => by cases h; decide
  nameText := fun f h => by cases h; decide
  keyText := fun k h => by
    rcases h2 _ h with h | h
    · cases h
    · cases h; decide
  nameParam := fun n h => by rcases h2 _ h with h | h <;> cases h

theorem x95_lines {ps : List CParam} (hq : CParam.req ∉ ps) {ls : List String} {ts : List Str}
    (h : List.Forall₂ (fun l t => hvToStr (utf8 l.toList) = some t) ls ts) : SourceLines (x94 ls) none (i95 ps) (c! "d") ts := by
  obtain ⟨hd, h1, h2⟩ := x94_lines (q := .sf) nofun h
  refine ⟨hd, ?_, h2⟩
  rcases h1 with ⟨_, e⟩ | ⟨e, _⟩
  · exact Or.inl ⟨hq, e⟩
  · simp [i94] at e

/-- `sf` and `key` in the two orders, on `a=1` and a blank line: a value only with `key` in front, and none in the RFC. -/
example : (∃ v, Wire.HasValue (x94 ["a=1", ""]) none (i95 [.key (c! "a"), .sf]) v) ∧
    (¬ ∃ v, Wire.HasValue (x94 ["a=1", ""]) none (i95 [.sf, .key (c! "a")]) v) ∧
    value (c94 .dict) (x94 ["a=1", ""]) none (idItem (i95 [.key (c! "a"), .sf])) = none := by
  have hs1 := i95_safe (ps := [.key (c! "a"), .sf]) (by decide) (by simp)
  have hs2 := i95_safe (ps := [.sf, .key (c! "a")]) (by decide) (by simp)
  have hsl1 := x95_lines (ps := [.key (c! "a"), .sf]) (by simp) (ls := ["a=1", ""]) (ts := [c! "a=1", []])
    (.cons (by decide +kernel) (.cons (by decide +kernel) .nil))
  have hsl2 := x95_lines (ps := [.sf, .key (c! "a")]) (by simp) (ls := ["a=1", ""]) (ts := [c! "a=1", []])
    (.cons (by decide +kernel) (.cons (by decide +kernel) .nil))
  have hd : ∀ t ∈ [c! "a=1", []], ∃ d, DictText d t := by
    simp only [← parseDict_iff, ← Option.isSome_iff_exists]; decide +kernel
  have hl := (C95_lax (c := c94 .dict) (m := x94 ["a=1", ""]) (rf := none) hs1 (idItem_legal hs1) (idItem_text hs1)).2 (by
    refine ⟨_, hsl1, LaxField.key (k := c! "a") (by simp [i95]) (by simp [i95]) hd ?_ (Or.inr (Or.inl ⟨[], by simp, by simp [Ows]⟩))⟩
    intro h
    unfold SfFirst at h
    exact absurd h (by decide))
  refine ⟨hl.2, ?_, hl.1⟩
  rintro ⟨v, hv⟩
  exact ((C95_both hs2 rfl (by simp [i95]) (by simp [i95])).1 hv).2 (List.Sublist.refl _) _ hsl2 [] (by simp) (by simp [Ows])

def l95 : InnerList := ⟨[idItem (i95 [.sf, .key (c! "a")]), idItem (i94 .sf)], p76⟩

/-- Two lines `a=1` and `b=2`, covered with `"d";sf;key="a"` and with `"d";sf`: the same base. -/
example : ∃ t, base (c94 .dict) (x94 ["a=1", "b=2"]) none l95 = some t ∧ codeBase (x94 ["a=1", "b=2"]) none l95 = some t := by
  have hs := i95_safe (ps := [.sf, .key (c! "a")]) (by decide) (by simp)
  have hsl := x95_lines (ps := [.sf, .key (c! "a")]) (by simp) (ls := ["a=1", "b=2"]) (ts := [c! "a=1", c! "b=2"])
    (.cons (by decide +kernel) (.cons (by decide +kernel) .nil))
  have hsl2 := x94_lines (q := .sf) nofun (ls := ["a=1", "b=2"]) (ts := [c! "a=1", c! "b=2"])
    (.cons (by decide +kernel) (.cons (by decide +kernel) .nil))
  have ea : parseDict (c! "a=1") = some [(c! "a", .item ⟨.int 1, []⟩)] := by decide +kernel
  have eb : parseDict (c! "b=2") = some [(c! "b", .item ⟨.int 2, []⟩)] := by decide +kernel
  have hd : ∀ t ∈ [c! "a=1", c! "b=2"], ∃ d, DictText d t := by
    simp only [← parseDict_iff, ← Option.isSome_iff_exists]; decide +kernel
  obtain ⟨t, ht⟩ : ∃ t, base (c94 .dict) (x94 ["a=1", "b=2"]) none l95 = some t := Option.isSome_iff_exists.1 (by decide +kernel)
  refine ⟨t, ht, (C95_exact ?_ (by simp) (by decide) (by decide) ?_ ?_ ht).2 ⟨p76_usual, ?_⟩⟩
  · refine ⟨?_, by decide, ⟨(by intro s h; cases h), (by intro s h; cases h), by decide, (by intro s h; cases h)⟩⟩
    intro kv hkv
    rcases List.mem_pair.1 hkv with rfl | rfl <;> exact ⟨by decide, by decide, by decide⟩
  · rintro r (h | h)
    · injection h with h; subst h; decide +kernel
    · cases h
  · refine ⟨?_, p76_legal⟩
    intro i hi
    rcases List.mem_pair.1 hi with rfl | rfl
    · exact idItem_legal hs
    · exact idItem_legal i94_sf.1
  · intro it hi
    rcases List.mem_pair.1 hi with rfl | rfl
    · refine ⟨_, hs, idItem_text hs, by simp [i95], fun ts h => ?_⟩
      cases sourceLines_unique h hsl
      refine ⟨by simp [i95], fun h => absurd (h.2 (c! "a")) (by simp [i95]), fun k hk => ?_⟩
      have : k = c! "a" := by simpa [i95] using hk
      subst this
      refine ⟨hd, [], c! "a=1", [c! "b=2"], rfl, ?_, ?_⟩
      · rw [hasMember_iff]; exact ⟨_, ea, by decide⟩
      · intro u hu h
        simp only [List.nil_append, List.mem_singleton] at hu
        subst hu
        rw [hasMember_iff, eb] at h
        obtain ⟨d, h1, h2⟩ := h
        cases h1; revert h2; decide
    · refine ⟨_, i94_sf.1, idItem_text i94_sf.1, by simp [i94], fun ts h => ?_⟩
      cases sourceLines_unique h hsl2
      refine ⟨fun h => absurd (by simp [i94]) h, fun _ => ⟨fun t ht => ⟨Or.inr (hd t ht), by revert t; simp [Ows]⟩, fun _ => ⟨?_, ?_⟩⟩,
        fun k hk => by simp [i94] at hk⟩
      · rw [List.pairwise_pair]
        intro k h1 h2
        rw [hasMember_iff] at h1 h2
        rw [ea] at h1; rw [eb] at h2
        obtain ⟨d, h1, h3⟩ := h1
        obtain ⟨e, h2, h4⟩ := h2
        cases h1; cases h2
        simp at h3 h4
        subst h3; cases h4
      · intro t ht l d h1 _
        rw [← parseList_iff] at h1
        have : ∀ t ∈ [c! "a=1", c! "b=2"], parseList t = none := by decide +kernel
        rw [this t ht] at h1; cases h1

/-- `"d";sf` where a string goes over two lines: a base by the RFC only. -/
example : (∃ t, base (c94 .list) (x94 ["\"x", "y\""]) none ⟨[idItem (i94 .sf)], []⟩ = some t) ∧
    ¬ ∃ t, Wire.BaseOf (x94 ["\"x", "y\""]) none (p92 [i94 .sf]) t := by
  have hsl := x94_lines (q := .sf) nofun (ls := ["\"x", "y\""]) (ts := [c! "\"x", c! "y\""])
    (.cons (by decide +kernel) (.cons (by decide +kernel) .nil))
  obtain ⟨t, h⟩ : ∃ t, base (c94 .list) (x94 ["\"x", "y\""]) none ⟨[idItem (i94 .sf)], []⟩ = some t :=
    Option.isSome_iff_exists.1 (by decide +kernel)
  refine ⟨⟨t, h⟩, (C95_base_missing (p92_safe ?_ (by simp)) ?_ (by decide) h).2 ⟨i94 .sf, by simp [p92], Or.inr
    ⟨c! "d", _, rfl, hsl, Or.inr ⟨⟨by simp [i94], by simp [i94]⟩, c! "\"x", by simp, ?_⟩⟩⟩⟩
  · intro i hi; rw [List.mem_singleton.1 hi]; exact i94_sf.1
  · refine ⟨?_, by simp [LegalParams]⟩
    intro i hi; rw [List.mem_singleton.1 hi]; exact idItem_legal i94_sf.1
  · rw [not_strict]
    refine Or.inl ⟨?_, ?_⟩
    · rintro ⟨l, h⟩
      rw [← parseList_iff] at h
      have : parseList ['"', 'x'] = none := by decide +kernel
      rw [this] at h; cases h
    · rintro ⟨d, h⟩
      rw [← parseDict_iff] at h
      have : parseDict ['"', 'x'] = none := by decide +kernel
      rw [this] at h; cases h

/-- `"d";sf` of a field that is not there: a base of the library only. -/
example : base (c94 .list) (x94 []) none ⟨[idItem (i94 .sf)], []⟩ = none ∧ ∃ t, Wire.BaseOf (x94 []) none (p92 [i94 .sf]) t := by
  have hsl := x94_lines (q := .sf) nofun (ls := []) (ts := []) .nil
  refine (C95_base_lax (p92_safe ?_ (by simp)) ?_ (by decide)).2 ⟨?_, i94 .sf, by simp [p92], [], hsl,
    .sf (by simp [i94]) (by simp [i94]) (by simp) (Or.inr (Or.inl rfl))⟩
  · intro i hi; rw [List.mem_singleton.1 hi]; exact i94_sf.1
  · refine ⟨?_, by simp [LegalParams]⟩
    intro i hi; rw [List.mem_singleton.1 hi]; exact idItem_legal i94_sf.1
  · intro i hi; rw [List.mem_singleton.1 hi]
    exact (C94_sf_has i94_sf.1 rfl i94_sf.2).2 ⟨[], hsl, by simp⟩

end Verif
