import Verif.Proofs.ParamsRead
import Verif.Props.C13
/-!
C16 Panics while parsing untrusted signature headers. The property a user expects (no panic) is false of the code; the
panicking inputs are characterised exactly.
-/
namespace Verif
open Sfv Spec

/-- A text that looks like a derived component but is none of the ten. -/
def UnknownDerived (t : Str) : Prop := t.head? = some '@' ∧ ∀ d : Derived, t ≠ d.toStr

/-- The item a component id text stands for: a non-empty text without quotes is quoted first. -/
def readItem (s : Str) : Option Item :=
  if trim s ≠ [] ∧ '"' ∉ trim s then parseItemTop ('"' :: (trim s ++ ['"'])) else parseItemTop (trim s)

theorem derived_panic {t : Str} : Derived.ofStr t = .panic ↔ ∀ d : Derived, t ≠ d.toStr := by
  constructor
  · intro h d e
    rw [e, Derived.ofStr_toStr] at h; cases h
  · intro h
    unfold Derived.ofStr
    rw [if_neg (show ¬ t = c! "@method" from h .method), if_neg (show ¬ t = c! "@target-uri" from h .targetUri), if_neg (show ¬ t = c! "@authority" from h .authority), if_neg (show ¬ t = c! "@scheme" from h .scheme), if_neg (show ¬ t = c! "@request-target" from h .requestTarget),
      if_neg (show ¬ t = c! "@path" from h .path), if_neg (show ¬ t = c! "@query" from h .query), if_neg (show ¬ t = c! "@query-param" from h .queryParam), if_neg (show ¬ t = c! "@status" from h .status), if_neg (show ¬ t = c! "@signature-params" from h .signatureParams)]

theorem ofBare_panic {b : Bare} : CName.ofBare b = .panic ↔ ∃ t, b = .str t ∧ UnknownDerived t := by
  cases b with
  | str s =>
    simp only [CName.ofBare, Bare.str.injEq, exists_eq_left', UnknownDerived]
    cases s with
    | nil => simp
    | cons c t =>
      by_cases hc : c = '@'
      · subst hc
        simp only [List.head?_cons, true_and]
        rw [← derived_panic, Res.bind_eq_panic]
        simp
      · simp only [List.head?_cons, Option.some.injEq, hc, false_and, iff_false]
        split
        · rename_i heq; injection heq with h1; exact absurd h1 hc
        · simp
  | _ => simp [CName.ofBare]

theorem ofKV_ne_panic (kv : Str × Bare) : CParam.ofKV kv ≠ .panic := by
  unfold CParam.ofKV
  repeat' split
  all_goals first
    | (intro h; cases h)
    | (intro h; rw [Res.bind_eq_panic] at h
       rcases h with h | ⟨_, _, h⟩
       · exact Res.ofOption_ne_panic h
       · cases h)

theorem ofItem_panic {it : Item} : CId.ofItem it = .panic ↔ ∃ t, it.bare = .str t ∧ UnknownDerived t := by
  unfold CId.ofItem
  rw [Res.bind_eq_panic, ofBare_panic]
  constructor
  · rintro (h | ⟨n, _, h⟩)
    · exact h
    · exfalso
      rw [Res.bind_eq_panic] at h
      rcases h with h | ⟨l, _, h⟩
      · unfold cparamsOf at h
        rw [Res.bind_eq_panic] at h
        rcases h with h | ⟨_, _, h⟩
        · obtain ⟨_, t, _, _, x, _, hx⟩ := Res.collect_eq_panic.1 h
          exact ofKV_ne_panic x hx
        · cases h
      · unfold CId.check at h
        repeat' split at h
        all_goals cases h
  · exact Or.inl

/-- C16: an id text makes the parser panic exactly when it is an item whose string is an unknown derived name. -/
theorem C16_id_panics_iff (s : Str) :
    CId.ofStr s = .panic ↔ ∃ it t, readItem s = some it ∧ it.bare = .str t ∧ UnknownDerived t := by
  unfold CId.ofStr readItem
  simp only
  rw [Res.bind_eq_panic]
  constructor
  · rintro (h | ⟨it, h1, h2⟩)
    · exact absurd h Res.ofOption_ne_panic
    · obtain ⟨t, h3, h4⟩ := ofItem_panic.1 h2
      exact ⟨it, t, Res.ofOption_eq_ok.1 h1, h3, h4⟩
  · rintro ⟨it, t, h1, h2, h3⟩
    exact Or.inr ⟨it, Res.ofOption_eq_ok.2 h1, ofItem_panic.2 ⟨t, h2, h3⟩⟩

/-- The covered item is read as an id that makes the parser panic. -/
def BadItem (i : Item) : Prop := CId.ofStr (serItem i) = .panic

theorem collect_panic_iff {ε α β : Type} {f : α → Res ε β} {l : List α} :
    Res.collect f l = .panic ↔ ∃ a x t, l = a ++ x :: t ∧ (∀ y ∈ a, ∃ r, f y = .ok r) ∧ f x = .panic := by
  rw [Res.collect_eq_panic]
  constructor
  · rintro ⟨a, t, h1, ⟨r, hr⟩, x, h2, h3⟩
    cases t with
    | nil => simp at h2
    | cons y t =>
      simp at h2; subst h2
      refine ⟨a, y, t, h1.symm, ?_, h3⟩
      intro z hz
      obtain ⟨b, _, hb⟩ := forall₂_mem_left (Res.collect_ok_iff.1 hr) z hz
      exact ⟨b, hb⟩
  · rintro ⟨a, x, t, rfl, h1, h3⟩
    refine ⟨a, x :: t, rfl, ?_, x, rfl, h3⟩
    clear h3
    induction a with
    | nil => exact ⟨[], rfl⟩
    | cons y a ih =>
      obtain ⟨r, hr⟩ := h1 y (by simp)
      obtain ⟨rs, hrs⟩ := ih (fun z hz => h1 z (by simp [hz]))
      exact ⟨r :: rs, by simp [Res.collect, hr, hrs]⟩

/-- C16: one member of Signature-Input makes the parser panic exactly when an item with an unknown derived name comes before any
item that is refused, or when all items are accepted and different and `created` or `expires` is negative. -/
theorem C16_member_panics_iff (e : Entry) :
    SigParams.ofEntry e = .panic ↔ ∃ l, e = .inner l ∧
      ((∃ l1 i l2, l.items = l1 ++ i :: l2 ∧ (∀ j ∈ l1, ∃ id, CId.ofStr (serItem j) = .ok id) ∧ BadItem i) ∨
       (∃ ids, List.Forall₂ (fun j id => CId.ofStr (serItem j) = .ok id) l.items ids ∧ ids.Pairwise (fun a b => ¬ SameId a b) ∧
        ∃ kv ∈ l.params, (kv.1 = c! "created" ∨ kv.1 = c! "expires") ∧ ∃ n : Nat, kv.2 = .int (-(n + 1 : Int)))) := by
  cases e with
  | item i => simp [SigParams.ofEntry]
  | inner l =>
    have hbt : ∀ kv : Str × Bare, BadTime kv ↔
        ((kv.1 = c! "created" ∨ kv.1 = c! "expires") ∧ ∃ n : Nat, kv.2 = .int (-(n + 1 : Int))) := by
      intro kv; rfl
    have hset : ∀ ids, List.Forall₂ (fun j id => CId.ofStr (serItem j) = .ok id) l.items ids → ∀ i ∈ ids, i.params.Nodup := by
      intro ids h i hi
      obtain ⟨it, _, hof⟩ := forall₂_mem_right h i hi
      exact labels_nodup (ofStr_rules hof).distinct
    unfold SigParams.ofEntry
    simp only [Entry.inner.injEq, exists_eq_left']
    rw [Res.bind_eq_panic, collect_panic_iff]
    constructor
    · rintro (h | ⟨ids, h1, h2⟩)
      · exact Or.inl h
      · right
        have h1 := Res.collect_ok_iff.1 h1
        split at h2
        · cases h2
        rename_i hu
        refine ⟨ids, h1, (hasUnique_iff (hset ids h1)).1 (by simpa using hu), ?_⟩
        obtain ⟨kv, hkv, hb⟩ := (setKVs_panic _ _).1 h2
        exact ⟨kv, hkv, (hbt kv).1 hb⟩
    · rintro (h | ⟨ids, h1, h2, kv, hkv, hb⟩)
      · exact Or.inl h
      · right
        refine ⟨ids, Res.collect_ok_iff.2 h1, ?_⟩
        rw [if_neg (by simp [(hasUnique_iff (hset ids h1)).2 h2])]
        exact (setKVs_panic _ _).2 ⟨kv, hkv, (hbt kv).2 hb⟩

/-- C16 (and C18): parsing the two headers panics exactly when both are dictionaries with the same labels, byte sequences and
inner lists, and the first member of Signature-Input that is not accepted panics. -/
theorem C16_headers_panic_iff (s t : Str) :
    SigHeaders.tryParse s t = .panic ↔ ∃ a b, parseDict s = some a ∧ parseDict t = some b ∧
      (∀ k, k ∈ a.map Prod.fst ↔ k ∈ b.map Prod.fst) ∧ (∀ kv ∈ a, ∃ x ps, kv.2 = .item ⟨.bytes x, ps⟩) ∧
      (∀ kv ∈ b, ∃ il, kv.2 = .inner il) ∧
      ∃ b1 kv b2, b = b1 ++ kv :: b2 ∧ (∀ x ∈ b1, ∃ p, SigParams.ofEntry x.2 = .ok p) ∧ SigParams.ofEntry kv.2 = .panic := by
  -- the byte sequence of a label of `b` is found
  have found : ∀ {a b : Dict}, (∀ k, k ∈ a.map Prod.fst ↔ k ∈ b.map Prod.fst) → (∀ kv ∈ a, ∃ x ps, kv.2 = .item ⟨.bytes x, ps⟩) →
      ∀ kv ∈ b, ∃ x, (imGet a kv.1).bind entryBytes = some x := by
    intro a b h1 h2 kv hkv
    have : (imGet a kv.1).isSome := imGet_isSome.2 ((h1 _).2 (List.mem_map_of_mem hkv))
    obtain ⟨e, he⟩ := Option.isSome_iff_exists.1 this
    obtain ⟨x, hx⟩ := h2 _ (imGet_mem he)
    exact ⟨x, by rw [he]; exact entryBytes_iff.2 hx⟩
  have one : ∀ {a b : Dict}, (∀ k, k ∈ a.map Prod.fst ↔ k ∈ b.map Prod.fst) → (∀ kv ∈ a, ∃ x ps, kv.2 = .item ⟨.bytes x, ps⟩) →
      (Res.collect (parseOne a) b = .panic ↔
        ∃ b1 kv b2, b = b1 ++ kv :: b2 ∧ (∀ x ∈ b1, ∃ p, SigParams.ofEntry x.2 = .ok p) ∧ SigParams.ofEntry kv.2 = .panic) := by
    intro a b h1 h2
    rw [collect_panic_iff]
    constructor
    · rintro ⟨b1, kv, b2, hb, h3, h4⟩
      refine ⟨b1, kv, b2, hb, ?_, ?_⟩
      · intro x hx
        obtain ⟨r, hr⟩ := h3 x hx
        exact ⟨_, (parseOne_ok hr).2.2.2⟩
      · rcases Res.bind_eq_panic.1 h4 with h | ⟨p, _, h⟩
        · exact h
        · obtain ⟨x, hx⟩ := found h1 h2 kv (by rw [hb]; simp)
          rw [hx] at h; cases h
    · rintro ⟨b1, kv, b2, hb, h3, h4⟩
      refine ⟨b1, kv, b2, hb, ?_, ?_⟩
      · intro x hx
        obtain ⟨p, hp⟩ := h3 x hx
        obtain ⟨y, hy⟩ := found h1 h2 x (by rw [hb]; simp [hx])
        exact ⟨(x.1, ⟨x.1, y, p⟩), by unfold parseOne; rw [hp, hy]; rfl⟩
      · unfold parseOne; rw [h4]; rfl
  constructor
  · intro h
    rw [tryParse_eq] at h
    rcases Res.bind_eq_panic.1 h with h | ⟨b, hb, h⟩
    · exact absurd h Res.ofOption_ne_panic
    rcases Res.bind_eq_panic.1 h with h | ⟨a, ha, h⟩
    · exact absurd h Res.ofOption_ne_panic
    have hb := Res.ofOption_eq_ok.1 hb
    have ha := Res.ofOption_eq_ok.1 ha
    have nb := (parseDict_legal hb).1
    have na := (parseDict_legal ha).1
    unfold pairParse at h
    split at h
    · cases h
    rename_i c1
    split at h
    · cases h
    rename_i c2
    split at h
    · cases h
    rename_i c3
    split at h
    · cases h
    rename_i c4
    simp only [not_not, ne_eq, List.all_eq_true] at c1 c2 c3 c4
    have hsub : ∀ k ∈ a.map Prod.fst, k ∈ b.map Prod.fst := by
      intro k hk
      obtain ⟨kv, hkv, rfl⟩ := List.mem_map.1 hk
      exact imGet_isSome.1 (c2 kv hkv)
    have hp : (a.map Prod.fst).Perm (b.map Prod.fst) :=
      (List.subperm_of_subset na hsub).perm_of_length_le (by simp [c1])
    have hl : ∀ k, k ∈ a.map Prod.fst ↔ k ∈ b.map Prod.fst := fun k => hp.mem_iff
    have hby : ∀ kv ∈ a, ∃ x ps, kv.2 = .item ⟨.bytes x, ps⟩ := by
      intro kv hkv
      obtain ⟨x, hx⟩ := Option.isSome_iff_exists.1 (c3 kv hkv)
      exact ⟨x, entryBytes_iff.1 hx⟩
    refine ⟨a, b, ha, hb, hl, hby, fun kv hkv => entryIsInner_iff.1 (c4 kv hkv), ?_⟩
    rcases Res.bind_eq_panic.1 h with h | ⟨_, _, h⟩
    · exact (one hl hby).1 h
    · cases h
  · rintro ⟨a, b, ha, hb, hl, hby, hin, h⟩
    have nb := (parseDict_legal hb).1
    have na := (parseDict_legal ha).1
    have hperm : (a.map Prod.fst).Perm (b.map Prod.fst) := (List.perm_ext_iff_of_nodup na nb).2 hl
    have hlen : a.length = b.length := by simpa using hperm.length_eq
    rw [tryParse_of ha hb]
    unfold pairParse
    rw [if_neg (by simpa using hlen), if_neg, if_neg, if_neg, (one hl hby).2 h]
    · rfl
    · simp only [not_not, List.all_eq_true]
      intro kv hkv; exact entryIsInner_iff.2 (hin kv hkv)
    · simp only [not_not, List.all_eq_true]
      intro kv hkv
      obtain ⟨x, hx⟩ := hby kv hkv
      rw [entryBytes_iff.2 hx]; rfl
    · simp only [not_not, List.all_eq_true]
      intro kv hkv
      exact imGet_isSome.2 ((hl _).1 (List.mem_map_of_mem hkv))

/-- C16, positive form: if no inner list of Signature-Input has an item read as an unknown derived name, and none has a negative
`created` or `expires`, parsing does not panic, whatever the Signature header contains. -/
theorem C16_no_panic_partial (s t : Str)
    (h : ∀ b, parseDict t = some b → ∀ k l, (k, Entry.inner l) ∈ b → (∀ i ∈ l.items, ¬ BadItem i) ∧
      ∀ n : Nat, (c! "created", Bare.int (-(n + 1 : Int))) ∉ l.params ∧ (c! "expires", Bare.int (-(n + 1 : Int))) ∉ l.params) :
    SigHeaders.tryParse s t ≠ .panic := by
  intro hp
  obtain ⟨a, b, _, hb, _, _, _, b1, kv, b2, hkv, _, hpan⟩ := (C16_headers_panic_iff s t).1 hp
  obtain ⟨l, hl, hcase⟩ := (C16_member_panics_iff _).1 hpan
  obtain ⟨k, e⟩ := kv
  simp only at hl; subst hl
  have hh := h b hb k l (by rw [hkv]; simp)
  rcases hcase with ⟨l1, i, l2, hi, _, hbad⟩ | ⟨_, _, _, kv, hmem, hk, n, hn⟩
  · exact hh.1 i (by rw [hi]; simp) hbad
  · obtain ⟨k', v⟩ := kv
    simp only at hk hn; subst hn
    rcases hk with rfl | rfl
    · exact (hh.2 n).1 hmem
    · exact (hh.2 n).2 hmem

/-- C16 is false as it stands: these header texts make the parser panic. The last one holds a date, not a string. -/
theorem C16_false :
    SigHeaders.tryParse (c! "sig=:AQ==:") (c! "sig=(\"@foo\")") = .panic ∧
    SigHeaders.tryParse (c! "sig=:AQ==:") (c! "sig=();created=-1") = .panic ∧
    SigHeaders.tryParse (c! "sig=:AQ==:") (c! "sig=();expires=-1") = .panic ∧
    SigHeaders.tryParse (c! "sig=:AQ==:") (c! "sig=(@5)") = .panic ∧
    CId.ofStr (c! "@foo") = .panic ∧ SigParams.ofStr (c! "(\"@foo\")") = .panic := by decide

-- the hypothesis of the positive form is met by usual headers
example : SigHeaders.tryParse (c! "sig=:AQ==:") (c! "sig=(\"@path\" \"date\");created=5") ≠ .panic := by decide

end Verif
