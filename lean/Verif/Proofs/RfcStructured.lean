import Verif.Proofs.RfcLines
import Mathlib.Data.List.Nodup
/-!
Lemmas for C94: the values of `sf` and `key` on both sides, for lines that the library reads.
-/
namespace Verif.RfcLines
open Sfv Spec Grammar Rfc9421

/-! ### Without surrounding white space -/

section
variable {α β : Type} {p : Str → Option (α × Str)} {T : α → Str → Prop} {q : Str → Option (β × Str)} {U : β → Str → Prop}

/-- Reading the stripped line or the line itself is the same, if the line is read at all. -/
theorem strip_same (R : Reader p T) (Q : Reader q U) {s : Str} {m : List β} (h : parseSep q (s.dropWhile isSp) = some m) :
    parseSep p (strip s) = parseSep p (s.dropWhile isSp) := by
  refine Option.ext fun l => ⟨fun hl => ?_, fun hl => (R.strip hl).1⟩
  rcases (Q.field s m).1 h with ⟨rfl, n, rfl⟩ | ⟨n, t, a, h1, h2, rfl⟩
  · rw [strip_ows (sp_ows n), parseSep_nil] at hl
    injection hl with hl; subst hl
    exact (R.field _ _).2 (Or.inl ⟨rfl, n, rfl⟩)
  · obtain ⟨c, u, e, hc⟩ := sepText_head Q.head h1
    rw [strip_eq (sp_ows n) h2 (by rw [e]; exact head_not_ows hc) (solid_sep Q.solid h1)] at hl
    obtain ⟨v, b, h3, h4, rfl⟩ := parseSep_text R.prog R.text hl (by rw [e]; simp)
    refine (R.field _ _).2 (Or.inr ⟨n, v, b ++ a, h3, ?_, by simp⟩)
    intro c hc
    rcases List.mem_append.1 hc with hc | hc
    · exact h4 c hc
    · exact h2 c hc

end

/-- The line is a list or a dictionary. -/
def Readable (t : Str) : Prop := (∃ l, parseList t = some l) ∨ ∃ d, parseDict t = some d

theorem parseDict_raw {s : Str} {d : Dict} (h : parseDict s = some d) : ∃ x, parseSep parseMember (s.dropWhile isSp) = some x ∧ d = imOfList x := by
  unfold parseDict at h
  split at h
  · rename_i l hl
    injection h with h
    exact ⟨l, hl, h.symm⟩
  · cases h

theorem strip_list {t : Str} (h : Readable t) : parseList (strip t) = parseList t := by
  have : parseSep parseEntry (strip t) = parseSep parseEntry (t.dropWhile isSp) := by
    rcases h with ⟨l, h⟩ | ⟨d, h⟩
    · exact strip_same reader_entry reader_entry h
    · obtain ⟨x, hx, _⟩ := parseDict_raw h
      exact strip_same reader_entry reader_member hx
  unfold parseList
  rw [Rfc.dropSp_of (strip_strip t), this]

theorem strip_dict {t : Str} (h : Readable t) : parseDict (strip t) = parseDict t := by
  have : parseSep parseMember (strip t) = parseSep parseMember (t.dropWhile isSp) := by
    rcases h with ⟨l, h⟩ | ⟨d, h⟩
    · exact strip_same reader_member reader_entry h
    · obtain ⟨x, hx, _⟩ := parseDict_raw h
      exact strip_same reader_member reader_member hx
  unfold parseDict
  rw [Rfc.dropSp_of (strip_strip t), this]

theorem canon_readable {t o : Str} (h : Canon t o) : Readable t := by
  rcases h with ⟨l, h, _⟩ | ⟨_, d, h, _⟩
  · exact Or.inl ⟨l, h⟩
  · exact Or.inr ⟨d, h⟩

theorem canon_strip {t o : Str} (h : Canon t o) : Canon (strip t) o := by
  unfold Canon
  rw [strip_list (canon_readable h), strip_dict (canon_readable h)]
  exact h

theorem members_dicts {k : Str} {ts out : List Str} (h : Members k ts out) : ∀ t ∈ ts, ∃ d, parseDict t = some d := by
  obtain ⟨ds, h, _⟩ := h
  intro t ht
  obtain ⟨d, _, hd⟩ := forall₂_mem_left h t ht
  exact ⟨d, hd⟩

theorem members_strip {k : Str} {ts out : List Str} (h : Members k ts out) : Members k (ts.map strip) out := by
  obtain ⟨ds, h, e⟩ := h
  refine ⟨ds, ?_, e⟩
  rw [List.forall₂_map_left_iff]
  refine h.imp fun t d hd => ?_
  rw [strip_dict (Or.inr ⟨d, hd⟩), hd]

theorem combined_map (ts : List Str) : combined (ts.map strip) = combined ts := by
  unfold combined
  rw [List.map_map]
  congr 1
  exact List.map_congr_left (fun t _ => strip_strip t)

theorem stripped (ts : List Str) : ∀ u ∈ ts.map strip, strip u = u := by
  intro u hu
  obtain ⟨t, _, rfl⟩ := List.mem_map.1 hu
  exact strip_strip t

/-! ### Lines without surrounding white space -/

section
variable {us out : List Str} (hs : ∀ u ∈ us, strip u = u)

include hs in
theorem parseList_join : parseList (combined us) = parseSep parseEntry (join (c! ", ") us) := by
  rw [Rfc.combined_strip hs, parseList, dropWhile_stop]
  intro c hc
  have := join_drop hs
  cases e : join (c! ", ") us with
  | nil => rw [e] at hc; cases hc
  | cons d r =>
    rw [e] at hc this
    injection hc with hc; subst hc
    rw [List.dropWhile_cons] at this
    split at this
    · exact absurd (congrArg List.length this) (by have := dropWhile_length_le (p := isOws) r; simp; omega)
    · rename_i h
      simp only [isOws, Bool.or_eq_true, not_or] at h
      simpa [isSp] using h.1

include hs in
theorem parseDict_join : parseDict (combined us) = (parseSep parseMember (join (c! ", ") us)).map imOfList := by
  have : (join (c! ", ") us).dropWhile isSp = join (c! ", ") us := by
    apply dropWhile_stop
    intro c hc
    have := join_drop hs
    cases e : join (c! ", ") us with
    | nil => rw [e] at hc; cases hc
    | cons d r =>
      rw [e] at hc this
      injection hc with hc; subst hc
      rw [List.dropWhile_cons] at this
      split at this
      · exact absurd (congrArg List.length this) (by have := dropWhile_length_le (p := isOws) r; simp; omega)
      · rename_i h
        simp only [isOws, Bool.or_eq_true, not_or] at h
        simpa [isSp] using h.1
  rw [Rfc.combined_strip hs, parseDict, this]
  cases parseSep parseMember (join (c! ", ") us) <;> rfl

theorem list_alone {u : Str} (h : strip u = u) : parseList u = parseSep parseEntry u := by
  rw [parseList, Rfc.dropSp_of h]

theorem dict_alone {u : Str} (h : strip u = u) : parseDict u = (parseSep parseMember u).map imOfList := by
  rw [parseDict, Rfc.dropSp_of h]
  cases parseSep parseMember u <;> rfl

theorem imOfList_nil_iff {x : List (Str × Entry)} : imOfList x = [] ↔ x = [] := by
  constructor
  · intro h
    cases x with
    | nil => rfl
    | cons a t =>
      have : a.1 ∈ (imOfList (a :: t)).map Prod.fst := imOfList_keys_mem.2 (by simp)
      rw [h] at this; cases this
  · rintro rfl; rfl

/-! ### `sf` on a list -/

include hs in
theorem sf_list (hc : List.Forall₂ Canon us out) (hne : us ≠ []) :
    ((∀ u ∈ us, ∃ l, parseList u = some l) → structured .list (combined us) = some (join (c! ", ") out)) ∧
    (¬ (∀ u ∈ us, ∃ l, parseList u = some l) → parseList (combined us) = none) := by
  constructor
  · intro h
    have h2 : ∀ u ∈ us, ∃ l, l ≠ [] ∧ parseList u = some l := by
      intro u hu
      obtain ⟨l, hl⟩ := h u hu
      refine ⟨l, ?_, hl⟩
      obtain ⟨o, _, ho⟩ := forall₂_mem_left hc u hu
      rcases ho with ⟨l', h1, h2⟩ | ⟨h1, _⟩
      · rw [hl] at h1; injection h1 with h1; subst h1
        rintro rfl; cases h2
      · rw [hl] at h1; cases h1
    obtain ⟨xs, h3, h4⟩ := Rfc.parseList_lines hs h2
    have hv : structured .list (combined us) = some (join (c! ", ") (xs.flatten.map serEntry)) := by
      have : xs.flatten ≠ [] := by
        cases h3 with
        | nil => exact absurd rfl hne
        | cons hx _ => simp [hx.1]
      rw [Rfc.combined_strip hs, structured, h4, Option.bind_some, serList, if_neg this]
    obtain ⟨out', h5, h6⟩ := Rfc.sf_value hs (k := .list) h2 hne hv
    have : out = out' := by
      clear hv h6 h4 h3 h2 h hne
      induction hc generalizing out' with
      | nil => cases h5; rfl
      | cons h _ ih =>
        cases h5 with
        | cons h' hr =>
          rw [ih (fun u hu => hs u (by simp [hu])) _ hr]
          congr 1
          rcases h with ⟨l, a, b⟩ | ⟨a, d, b, c⟩ <;> rcases h' with ⟨l', a', b'⟩ | ⟨a', d', b', c'⟩
          · rw [a] at a'; injection a' with a'; subst a'; rw [b] at b'; injection b'
          · rw [a] at a'; cases a'
          · rw [a] at a'; cases a'
          · rw [b] at b'; injection b' with b'; subst b'; rw [c] at c'; injection c'
    rw [hv, h6, this]
  · intro h
    rw [parseList_join hs]
    have hall : ∀ u ∈ us, strip u = u ∧ ((∃ x, parseSep parseEntry u = some x) ∨ Spoils parseEntry u) := by
      intro u hu
      refine ⟨hs u hu, ?_⟩
      cases e : parseSep parseEntry u with
      | some x => exact Or.inl ⟨x, rfl⟩
      | none =>
        right
        obtain ⟨o, _, ho⟩ := forall₂_mem_left hc u hu
        rcases ho with ⟨l', h1, h2⟩ | ⟨h1, d, h2, _⟩
        · rw [list_alone (hs u hu), e] at h1; cases h1
        · rw [dict_alone (hs u hu), Option.map_eq_some_iff] at h2
          obtain ⟨x, hx, _⟩ := h2
          exact dict_spoils hx e
    refine reader_entry.none hall (Or.inl ?_)
    by_contra hn
    apply h
    intro u hu
    rcases (hall u hu).2 with ⟨x, hx⟩ | hb
    · exact ⟨x, by rw [list_alone (hs u hu), hx]⟩
    · exact absurd ⟨u, hu, hb⟩ hn

/-! ### `sf` on an item -/

include hs in
theorem sf_item (hc : List.Forall₂ Canon us out) (hne : us ≠ []) {i : Item} :
    parseItemTop (combined us) = some i ↔ ∃ u, us = [u] ∧ parseList u = some [.item i] := by
  constructor
  · intro h
    have hl := Rfc.parseItemTop_list h
    by_cases hall : ∀ u ∈ us, ∃ l, parseList u = some l
    swap
    · rw [(sf_list hs hc hne).2 hall] at hl; cases hl
    have h2 : ∀ u ∈ us, ∃ l, l ≠ [] ∧ parseList u = some l := by
      intro u hu
      obtain ⟨l, hl⟩ := hall u hu
      refine ⟨l, ?_, hl⟩
      obtain ⟨o, _, ho⟩ := forall₂_mem_left hc u hu
      rcases ho with ⟨l', h1, h2⟩ | ⟨h1, _⟩
      · rw [hl] at h1; injection h1 with h1; subst h1
        rintro rfl; cases h2
      · rw [hl] at h1; cases h1
    obtain ⟨xs, h3, h4⟩ := Rfc.parseList_lines hs h2
    rw [Rfc.combined_strip hs, h4] at hl
    injection hl with hl
    cases h3 with
    | nil => exact absurd rfl hne
    | @cons u x us xs hx hxs =>
      cases hxs with
      | nil => exact ⟨u, rfl, by rw [hx.2]; simpa using hl⟩
      | @cons u' x' us xs hx' hxs =>
        have := congrArg List.length hl
        have a1 := List.length_pos_iff.2 hx.1
        have a2 := List.length_pos_iff.2 hx'.1
        simp at this
        omega
  · rintro ⟨u, rfl, h⟩
    rw [Rfc.combined_strip hs, join_one]
    have hu := hs u (by simp)
    rw [parseList_iff] at h
    rw [parseItemTop_iff]
    rcases h with ⟨h, _⟩ | ⟨n, t, a, h1, h2, h3⟩
    · cases h
    · cases h1 with
      | one h1 =>
        have hh := entryText_head h1
        have hso := solid_entry h1
        cases h1 with
        | item h1 =>
          obtain ⟨c, v, e, hc⟩ := hh
          have := strip_eq (sp_ows n) h2 (by rw [e]; exact head_not_ows hc) hso
          rw [← h3, hu] at this
          exact ⟨0, 0, t, h1, by rw [this]; simp [sp]⟩
      | cons _ _ _ h => cases h

/-! ### `sf` on a dictionary -/

theorem firsts_length (l : List Str) : (firsts l).length ≤ l.length := by
  induction l with
  | nil => rfl
  | cons k t ih =>
    simp only [firsts, List.length_cons]
    have := List.length_filter_le (fun x => decide (x ≠ k)) (firsts t)
    omega

theorem firsts_full {l : List Str} : (firsts l).length = l.length ↔ l.Nodup := by
  induction l with
  | nil => simp [firsts]
  | cons k t ih =>
    have h1 := List.length_filter_le (fun x => decide (x ≠ k)) (firsts t)
    have h2 := firsts_length t
    simp only [firsts, List.length_cons, List.nodup_cons, ← ih, ← firsts_mem (l := t)]
    constructor
    · intro h
      refine ⟨?_, by omega⟩
      have h3 : ((firsts t).filter (fun x => decide (x ≠ k))).length = (firsts t).length := by omega
      rw [List.length_filter_eq_length_iff] at h3
      intro hk
      simpa using h3 k hk
    · rintro ⟨h3, h4⟩
      rw [List.filter_eq_self.2 (by intro x hx; simp; rintro rfl; exact h3 hx), h4]

theorem imOfList_full {x : List (Str × Entry)} : (imOfList x).length = x.length ↔ (x.map Prod.fst).Nodup := by
  have := (imOfList_mapOf x).1
  rw [← firsts_full, ← this]
  simp

/-- No key is twice on a line that is a list, and none is on two lines. -/
def Distinct (us : List Str) : Prop :=
  us.Pairwise (fun t u => ∀ d e k, parseDict t = some d → parseDict u = some e → k ∈ d.map Prod.fst → k ∉ e.map Prod.fst) ∧
  ∀ u ∈ us, ∀ l d, parseList u = some l → parseDict u = some d → l.length = d.length

/-- A line, its members, and the members as the library writes them. -/
def DictLine (u : Str) (z : List (Str × Entry) × List (Str × Entry)) : Prop :=
  parseSep parseMember u = some z.1 ∧ z.1 ≠ [] ∧ strip u = u ∧
    ((z.2 = z.1 ∧ ∃ l, parseList u = some l ∧ l.length = z.1.length) ∨ (z.2 = imOfList z.1 ∧ parseList u = none))

include hs in
theorem dict_lines (hc : List.Forall₂ Canon us out) (hd : ∀ u ∈ us, ∃ d, parseDict u = some d) :
    ∃ zs, List.Forall₂ DictLine us zs ∧ out = zs.map (fun z => join (c! ", ") (z.2.map serMember)) := by
  induction hc with
  | nil => exact ⟨[], .nil, rfl⟩
  | @cons u o us out ho _ ih =>
    obtain ⟨zs, h1, h2⟩ := ih (fun u hu => hs u (by simp [hu])) (fun u hu => hd u (by simp [hu]))
    obtain ⟨d, h⟩ := hd u (by simp)
    have hu := hs u (by simp)
    have h0 := h
    rw [dict_alone hu, Option.map_eq_some_iff] at h
    obtain ⟨x, hx, rfl⟩ := h
    rcases ho with ⟨l, hl, ho⟩ | ⟨hl, d', h3, ho⟩
    · have hl' := hl
      rw [list_alone hu] at hl'
      have e := list_and_dict hx hl'
      have hne : l ≠ [] := by rintro rfl; cases ho
      rw [serList, if_neg hne] at ho
      injection ho with ho
      have hlen : l.length = x.length := by simpa using congrArg List.length e
      refine ⟨(x, x) :: zs, .cons ⟨hx, ?_, hu, Or.inl ⟨rfl, l, hl, hlen⟩⟩ h1, ?_⟩
      · rintro rfl; exact hne (List.length_eq_zero_iff.1 hlen)
      · rw [h2, ← ho, e]; rfl
    · rw [h0] at h3; injection h3 with h3; subst h3
      have hne : imOfList x ≠ [] := by intro e; rw [e] at ho; cases ho
      rw [serDict, if_neg hne] at ho
      injection ho with ho
      refine ⟨(x, imOfList x) :: zs, .cons ⟨hx, fun e => hne (imOfList_nil_iff.2 e), hu, Or.inr ⟨rfl, hl⟩⟩ h1, ?_⟩
      rw [h2, ← ho]; rfl

theorem members_inj {l m : List (Str × Entry)} (hl : ∀ kv ∈ l, LegalKey kv.1 ∧ LegalEntry kv.2)
    (hm : ∀ kv ∈ m, LegalKey kv.1 ∧ LegalEntry kv.2) (h : join (c! ", ") (l.map serMember) = join (c! ", ") (m.map serMember)) : l = m := by
  have h1 := parseSep_ser parseMember_prog l (fun e he r hr => parseMember_ser (hl e he).1 (hl e he).2 hr)
    (fun e he => serMember_head _ (hl e he).1)
  have h2 := parseSep_ser parseMember_prog m (fun e he r hr => parseMember_ser (hm e he).1 (hm e he).2 hr)
    (fun e he => serMember_head _ (hm e he).1)
  rw [show [',', ' '] = c! ", " from rfl] at h1 h2
  rw [h, h2] at h1
  injection h1 with h1
  exact h1.symm

theorem dictLine_sub {u : Str} {z : List (Str × Entry) × List (Str × Entry)} (h : DictLine u z) : ∀ kv ∈ z.2, kv ∈ z.1 := by
  intro kv hkv
  rcases h.2.2.2 with ⟨e, _⟩ | ⟨e, _⟩
  · rwa [e] at hkv
  · rw [e] at hkv; exact imOfList_mem hkv

theorem dictLine_legal {u : Str} {z : List (Str × Entry) × List (Str × Entry)} (h : DictLine u z) :
    ∀ kv ∈ z.1, LegalKey kv.1 ∧ LegalEntry kv.2 :=
  parseSep_forall parseMember_prog (Q := fun kv => LegalKey kv.1 ∧ LegalEntry kv.2) (fun _ _ _ h => parseMember_legal h) h.1

theorem dictLine_map {u : Str} {z : List (Str × Entry) × List (Str × Entry)} (h : DictLine u z) : imOfList z.2 = imOfList z.1 := by
  rcases h.2.2.2 with ⟨e, _⟩ | ⟨e, _⟩
  · rw [e]
  · rw [e, imOfList_of_nodup (imOfList_nodup _)]

theorem dictLine_dict {u : Str} {z : List (Str × Entry) × List (Str × Entry)} (h : DictLine u z) : parseDict u = some (imOfList z.1) := by
  rw [dict_alone h.2.2.1, h.1]; rfl

theorem dictLine_keys {u : Str} {z : List (Str × Entry) × List (Str × Entry)} (h : DictLine u z) {k : Str} :
    k ∈ z.2.map Prod.fst ↔ k ∈ z.1.map Prod.fst := by
  rw [← imOfList_keys_mem, dictLine_map h, imOfList_keys_mem]

theorem dictLine_nodup {u : Str} {z : List (Str × Entry) × List (Str × Entry)} (h : DictLine u z) :
    (z.2.map Prod.fst).Nodup ↔ ∀ l d, parseList u = some l → parseDict u = some d → l.length = d.length := by
  rw [dictLine_dict h]
  rcases h.2.2.2 with ⟨e, l, hl, hlen⟩ | ⟨e, hl⟩
  · rw [e, hl, ← imOfList_full]
    constructor
    · rintro h l' d rfl' hd
      cases rfl'; cases hd
      rw [hlen, h]
    · intro h
      rw [← h l _ rfl rfl, hlen]
  · rw [e, hl]
    exact iff_of_true (imOfList_nodup _) (by intro l d h; cases h)

/-- The keys are all distinct. -/
theorem keys_nodup {zs : List (List (Str × Entry) × List (Str × Entry))} (h : List.Forall₂ DictLine us zs) :
    (((zs.map Prod.snd).flatten).map Prod.fst).Nodup ↔ Distinct us := by
  induction h with
  | nil => simp [Distinct]
  | @cons u z us zs hz hzs ih =>
    rw [List.map_cons, List.flatten_cons, List.map_append, List.nodup_append, ih, dictLine_nodup hz]
    unfold Distinct
    rw [List.pairwise_cons]
    constructor
    · rintro ⟨h1, ⟨h2, h3⟩, h4⟩
      refine ⟨⟨?_, h2⟩, ?_⟩
      · intro v hv d e k hd he hk hk'
        obtain ⟨y, hy, hv'⟩ := forall₂_mem_left hzs v hv
        rw [dictLine_dict hz] at hd
        rw [dictLine_dict hv'] at he
        cases hd; cases he
        rw [imOfList_keys_mem, ← dictLine_keys hz] at hk
        rw [imOfList_keys_mem, ← dictLine_keys hv'] at hk'
        refine h4 k hk k ?_ rfl
        rw [List.map_flatten, List.mem_flatten]
        exact ⟨_, List.mem_map_of_mem (List.mem_map_of_mem hy), hk'⟩
      · intro v hv
        rcases List.mem_cons.1 hv with rfl | hv
        · exact h1
        · exact h3 v hv
    · rintro ⟨⟨h1, h2⟩, h3⟩
      refine ⟨h3 u (by simp), ⟨h2, fun v hv => h3 v (by simp [hv])⟩, ?_⟩
      rintro k hk _ hk' rfl
      rw [List.map_flatten, List.mem_flatten] at hk'
      obtain ⟨y', hy', hk'⟩ := hk'
      rw [List.map_map] at hy'
      obtain ⟨y, hy, rfl⟩ := List.mem_map.1 hy'
      obtain ⟨v, hv, hv'⟩ := forall₂_mem_right hzs y hy
      refine h1 v hv _ _ k (dictLine_dict hz) (dictLine_dict hv') ?_ ?_
      · rw [imOfList_keys_mem, ← dictLine_keys hz]; exact hk
      · rw [imOfList_keys_mem, ← dictLine_keys hv']; exact hk'

/-- The map of the whole is what the library writes exactly if nothing is repeated. -/
theorem flatten_eq {zs : List (List (Str × Entry) × List (Str × Entry))} (h : List.Forall₂ DictLine us zs) :
    imOfList (zs.map Prod.fst).flatten = (zs.map Prod.snd).flatten ↔ Distinct us := by
  rw [← keys_nodup h]
  constructor
  · intro e; rw [← e]; exact imOfList_nodup _
  · intro hn
    rw [imOfList_flatten_snd h hn]
where
  imOfList_flatten_snd {us : List Str} {zs : List (List (Str × Entry) × List (Str × Entry))} (h : List.Forall₂ DictLine us zs)
      (hn : (((zs.map Prod.snd).flatten).map Prod.fst).Nodup) :
      imOfList (zs.map Prod.fst).flatten = (zs.map Prod.snd).flatten := by
    have hpw : (zs.map Prod.fst).Pairwise (fun x y => ∀ k ∈ x.map Prod.fst, k ∉ y.map Prod.fst) := by
      rw [List.pairwise_map]
      have := hn
      rw [List.map_flatten, List.nodup_flatten, List.pairwise_map, List.pairwise_map] at this
      refine List.Pairwise.imp_of_mem ?_ this.2
      intro x y hx hy hd k hk hk'
      obtain ⟨_, _, h1⟩ := forall₂_mem_right h x hx
      obtain ⟨_, _, h2⟩ := forall₂_mem_right h y hy
      exact hd ((dictLine_keys h1).2 hk) ((dictLine_keys h2).2 hk')
    rw [Rfc.imOfList_flatten hpw, List.map_map]
    congr 1
    apply List.map_congr_left
    intro z hz
    obtain ⟨_, _, h1⟩ := forall₂_mem_right h z hz
    show imOfList z.1 = z.2
    rw [← dictLine_map h1, imOfList_of_nodup]
    rw [List.map_flatten, List.nodup_flatten] at hn
    exact hn.1 _ (List.mem_map_of_mem (List.mem_map_of_mem hz))

include hs in
theorem sf_dict (hc : List.Forall₂ Canon us out) (hne : us ≠ []) :
    ((∀ u ∈ us, ∃ d, parseDict u = some d) → (∃ v, structured .dict (combined us) = some v) ∧
      (structured .dict (combined us) = some (join (c! ", ") out) ↔ Distinct us)) ∧
    (¬ (∀ u ∈ us, ∃ d, parseDict u = some d) → parseDict (combined us) = none) := by
  constructor
  · intro h
    obtain ⟨zs, h1, h2⟩ := dict_lines hs hc h
    have h3 : List.Forall₂ (fun t x => parseSep parseMember t = some x ∧ t ≠ [] ∧ strip t = t) us (zs.map Prod.fst) := by
      rw [List.forall₂_map_right_iff]
      refine h1.imp fun u z hz => ⟨hz.1, ?_, hz.2.2.1⟩
      rintro rfl
      have := hz.1
      rw [parseSep_nil] at this
      injection this with this
      exact hz.2.1 this.symm
    have h4 : parseDict (combined us) = some (imOfList (zs.map Prod.fst).flatten) := by
      rw [parseDict_join hs, Rfc.parseSep_lines parseMember_prog parseMember_locC h3]; rfl
    have hx : imOfList (zs.map Prod.fst).flatten ≠ [] := by
      rw [ne_eq, imOfList_nil_iff]
      cases h1 with
      | nil => exact absurd rfl hne
      | cons hz _ => simp [hz.2.1]
    have hv : structured .dict (combined us) = some (join (c! ", ") ((imOfList (zs.map Prod.fst).flatten).map serMember)) := by
      rw [structured, h4, Option.bind_some, serDict, if_neg hx]
    refine ⟨⟨_, hv⟩, ?_⟩
    have ho : join (c! ", ") out = join (c! ", ") ((zs.map Prod.snd).flatten.map serMember) := by
      rw [h2, List.map_flatten, Rfc.join_flatten, List.map_map, List.map_map]
      · rfl
      · intro l hl
        rw [List.map_map] at hl
        obtain ⟨z, hz, rfl⟩ := List.mem_map.1 hl
        obtain ⟨_, _, hz⟩ := forall₂_mem_right h1 z hz
        intro e
        have e2 : z.2 = [] := List.map_eq_nil_iff.1 e
        rcases hz.2.2.2 with ⟨e3, _⟩ | ⟨e3, _⟩
        · exact hz.2.1 (by rw [← e3, e2])
        · exact hz.2.1 (imOfList_nil_iff.1 (by rw [← e3, e2]))
    rw [hv, ho, Option.some.injEq, ← flatten_eq h1]
    constructor
    · refine members_inj ?_ ?_
      · intro kv hkv
        obtain ⟨l, hl, hkv⟩ := List.mem_flatten.1 (imOfList_mem hkv)
        obtain ⟨z, hz, rfl⟩ := List.mem_map.1 hl
        obtain ⟨_, _, hz⟩ := forall₂_mem_right h1 z hz
        exact dictLine_legal hz kv hkv
      · intro kv hkv
        obtain ⟨l, hl, hkv⟩ := List.mem_flatten.1 hkv
        obtain ⟨z, hz, rfl⟩ := List.mem_map.1 hl
        obtain ⟨_, _, hz⟩ := forall₂_mem_right h1 z hz
        exact dictLine_legal hz kv (dictLine_sub hz kv hkv)
    · intro e; rw [e]
  · intro h
    rw [parseDict_join hs]
    have hall : ∀ u ∈ us, strip u = u ∧ ((∃ x, parseSep parseMember u = some x) ∨ Spoils parseMember u) := by
      intro u hu
      refine ⟨hs u hu, ?_⟩
      cases e : parseSep parseMember u with
      | some x => exact Or.inl ⟨x, rfl⟩
      | none =>
        right
        obtain ⟨o, _, ho⟩ := forall₂_mem_left hc u hu
        rcases ho with ⟨l', h1, h2⟩ | ⟨h1, d, h2, _⟩
        · rw [list_alone (hs u hu)] at h1
          exact list_spoils h1 e
        · rw [dict_alone (hs u hu), e] at h2; cases h2
    rw [reader_member.none hall (Or.inl ?_)]
    · rfl
    · by_contra hn
      apply h
      intro u hu
      rcases (hall u hu).2 with ⟨x, hx⟩ | hb
      · exact ⟨_, by rw [dict_alone (hs u hu), hx]; rfl⟩
      · exact absurd ⟨u, hu, hb⟩ hn

/-! ### `key` -/

section last
variable {κ ν : Type} [DecidableEq κ]

/-- Of the members with one key the last counts. -/
theorem imGet_flatten_last (xs : List (List (κ × ν))) (k : κ) :
    imGet (imOfList xs.flatten) k = (xs.filterMap (fun x => imGet (imOfList x) k)).getLast? := by
  induction xs with
  | nil => rfl
  | cons x t ih =>
    rw [List.flatten_cons, imOfList_eq, imInsertAll_append, ← imOfList_eq, Rfc.imGet_insertAll, ih, List.filterMap_cons]
    cases imGet (imOfList x) k with
    | none => cases (t.filterMap fun x => imGet (imOfList x) k).getLast? <;> rfl
    | some e =>
      rw [List.getLast?_cons]
      cases (t.filterMap fun x => imGet (imOfList x) k).getLast? <;> rfl

end last

theorem join_longer {sep : Str} {l : List Str} {a : Str} (hs : sep ≠ []) (ha : a ∈ l) (hl : 2 ≤ l.length) : a.length < (join sep l).length := by
  induction l with
  | nil => cases ha
  | cons b t ih =>
    have ht : t ≠ [] := by rintro rfl; simp at hl
    have h0 := List.length_pos_iff.2 hs
    rw [join_cons _ _ ht, List.length_append, List.length_append]
    rcases List.mem_cons.1 ha with rfl | ha
    · omega
    · by_cases h2 : 2 ≤ t.length
      · have := ih ha h2; omega
      · cases t with
        | nil => exact absurd rfl ht
        | cons c u =>
          cases u with
          | nil => simp at ha; subst ha; rw [join_one]; omega
          | cons => simp at h2

/-- The members with this key, of each line. -/
def found (k : Str) (ds : List Dict) : List Entry := ds.filterMap (fun d => d.lookup k)

theorem found_join {k : Str} {ds : List Dict} :
    ((found k ds).getLast?).map serEntry = some (join (c! ", ") (ds.filterMap (fun d => (d.lookup k).map serEntry))) ↔
      (found k ds).length = 1 := by
  have : ds.filterMap (fun d => (d.lookup k).map serEntry) = (found k ds).map serEntry := by
    rw [found, List.map_filterMap]
  rw [this]
  generalize found k ds = g
  constructor
  · intro h
    rw [Option.map_eq_some_iff] at h
    obtain ⟨e, h1, h2⟩ := h
    by_contra hn
    have hl : 2 ≤ (g.map serEntry).length := by
      have : g ≠ [] := by rintro rfl; cases h1
      have := List.length_pos_iff.2 this
      simp; omega
    have := join_longer (sep := c! ", ") (by simp) (List.mem_map_of_mem (f := serEntry) (List.mem_of_getLast? h1)) hl
    rw [h2] at this
    omega
  · intro h
    obtain ⟨e, rfl⟩ := List.length_eq_one_iff.1 h
    rfl

include hs in
theorem key_member {k : Str} {ds : List Dict} (h : List.Forall₂ (fun v d => parseDict v = some d) us ds) :
    member k (combined us) = if [] ∈ us then none else ((found k ds).getLast?).map serEntry := by
  have hx : ∃ xs, List.Forall₂ (fun u x => parseSep parseMember u = some x) us xs ∧ ds = xs.map imOfList := by
    clear k
    induction h with
    | nil => exact ⟨[], .nil, rfl⟩
    | @cons u d us ds hd _ ih =>
      obtain ⟨xs, h1, h2⟩ := ih (fun u hu => hs u (by simp [hu]))
      rw [dict_alone (hs u (by simp)), Option.map_eq_some_iff] at hd
      obtain ⟨x, hx, rfl⟩ := hd
      exact ⟨x :: xs, .cons hx h1, by rw [h2]; rfl⟩
  obtain ⟨xs, h1, rfl⟩ := hx
  unfold member
  rw [parseDict_join hs]
  by_cases hb : [] ∈ us
  · rw [if_pos hb]
    by_cases hl : 2 ≤ us.length
    · rw [reader_member.none (fun u hu => ⟨hs u hu, Or.inl ?_⟩) (Or.inr ⟨hb, hl⟩)]
      · rfl
      · obtain ⟨x, _, hx⟩ := forall₂_mem_left h1 u hu
        exact ⟨x, hx⟩
    · cases us with
      | nil => cases hb
      | cons u us =>
        cases us with
        | nil =>
          simp at hb; subst hb
          rw [join_one, parseSep_nil]; rfl
        | cons => simp at hl
  · rw [if_neg hb, Rfc.parseSep_lines parseMember_prog parseMember_locC (xs := xs) ?_]
    · simp only [Option.map_some, Option.bind_some]
      rw [← imGet_lookup, imGet_flatten_last]
      congr 2
      rw [found, List.filterMap_map]
      congr 1
      funext x
      simp only [Function.comp]
      rw [← imGet_lookup]
    · clear h
      induction h1 with
      | nil => exact .nil
      | @cons u x us xs hx _ ih =>
        refine .cons ⟨hx, ?_, hs u (by simp)⟩ (ih (fun u hu => hs u (by simp [hu])) (fun h => hb (by simp [h])))
        rintro rfl; exact hb (by simp)

end

end Verif.RfcLines
