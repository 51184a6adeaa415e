import Verif.Proofs.SfvGrammarTop
import Verif.Props.C13
import Verif.Props.C16
/-!
C63 The structured field parser reads exactly the grammar of RFC 9651. `Spec/Grammar.lean` says which texts denote which values.
-/
namespace Verif
open Sfv Spec Grammar

/-- A list is read from a text exactly when the text denotes it. -/
theorem C63_list (s : Str) (l : SList) : parseList s = some l ↔ ListText l s := parseList_iff s l

/-- The same for dictionaries. -/
theorem C63_dict (s : Str) (d : Dict) : parseDict s = some d ↔ DictText d s := parseDict_iff s d

/-- The same for a single item. -/
theorem C63_item (s : Str) (i : Item) : parseItemTop s = some i ↔ ItemFieldText i s := parseItemTop_iff s i

/-- The byte sequence decoder reads exactly the texts whose characters carry the bytes, padding complete, short or missing. -/
theorem C63_base64 (s : Str) (b : Bytes) : Base64.decode false s = some b ↔ Base64Text b s := Base64.decode_lenient_iff s b

/-- A text is refused exactly when it denotes nothing. -/
theorem C63_refused (s : Str) :
    (parseList s = none ↔ ¬ ∃ l, ListText l s) ∧ (parseDict s = none ↔ ¬ ∃ d, DictText d s) ∧
    (parseItemTop s = none ↔ ¬ ∃ i, ItemFieldText i s) := by
  have key : ∀ {α : Type} {o : Option α} {P : α → Prop}, (∀ x, o = some x ↔ P x) → (o = none ↔ ¬ ∃ x, P x) := by
    intro α o P h
    cases o with
    | none => simp only [true_iff, not_exists]; intro x hx; cases (h x).2 hx
    | some y => simp only [reduceCtorEq, false_iff, not_not]; exact ⟨y, (h y).1 rfl⟩
  exact ⟨key (C63_list s), key (C63_dict s), key (C63_item s)⟩

/-- The grammar is unambiguous: a text denotes at most one value of each kind. -/
theorem C63_unambiguous (s : Str) :
    (∀ l l', ListText l s → ListText l' s → l = l') ∧ (∀ d d', DictText d s → DictText d' s → d = d') ∧
    (∀ i i', ItemFieldText i s → ItemFieldText i' s → i = i') := by
  refine ⟨fun l l' h h' => ?_, fun l l' h h' => ?_, fun l l' h h' => ?_⟩
  · rw [← C63_list] at h h'; rw [h] at h'; injection h'
  · rw [← C63_dict] at h h'; rw [h] at h'; injection h'
  · rw [← C63_item] at h h'; rw [h] at h'; injection h'

/-- The two signature headers are read exactly when their texts denote dictionaries that agree. Nothing but the grammar and
`Agree` decides. -/
theorem C63_signature_headers (s t : Str) (l : List (Str × SigHeaders)) :
    SigHeaders.tryParse s t = .ok l ↔ ∃ a b, DictText a s ∧ DictText b t ∧ Agree a b l := by
  rw [C13_labels_agree]
  simp only [C63_dict]

/-- White space, padding and repeated members change nothing: two texts of the same dictionary give the same signatures. -/
theorem C63_same_dictionary (s s' t t' : Str) (a b : Dict) (hs : DictText a s) (hs' : DictText a s') (ht : DictText b t)
    (ht' : DictText b t') : SigHeaders.tryParse s t = SigHeaders.tryParse s' t' := by
  have e1 := ((C63_dict s a).2 hs).trans ((C63_dict s' a).2 hs').symm
  have e2 := ((C63_dict t b).2 ht).trans ((C63_dict t' b).2 ht').symm
  unfold SigHeaders.tryParse
  rw [e1, e2]

/-- Every text of a field is ASCII without control characters other than the tab. -/
theorem C63_ascii (s : Str) (h : (∃ l, ListText l s) ∨ (∃ d, DictText d s) ∨ ∃ i, ItemFieldText i s) :
    ∀ c ∈ s, Printable c ∨ c = '\t' := by
  have hkey : ∀ {k}, LegalKey k → ∀ c ∈ k, Printable c := by
    intro k hk c hc
    have dig : ∀ {c}, Digit c → Printable c := fun {c} h => by
      have h1 : 48 ≤ c.toNat := h.1
      have h2 : c.toNat ≤ 57 := h.2
      exact ⟨by omega, by omega⟩
    have low : ∀ {c}, LowerAlpha c → Printable c := fun {c} h => by
      have h1 : 97 ≤ c.toNat := h.1
      have h2 : c.toNat ≤ 122 := h.2
      exact ⟨by omega, by omega⟩
    rcases hk.2 c hc with h | h | rfl | rfl | rfl | rfl
    · exact low h
    · exact dig h
    all_goals decide
  have hdig : ∀ {lo hi ds}, Digits lo hi ds → ∀ c ∈ ds, Printable c := by
    intro lo hi ds hd c hc
    have h1 : 48 ≤ c.toNat := (hd.1 c hc).1
    have h2 : c.toNat ≤ 57 := (hd.1 c hc).2
    exact ⟨by omega, by omega⟩
  have hsign : ∀ neg, ∀ c ∈ sign neg, Printable c := by intro neg; cases neg <;> decide
  have halpha : ∀ {c}, Alpha c → Printable c := by
    rintro c (h | h)
    · have h1 : 97 ≤ c.toNat := h.1
      have h2 : c.toNat ≤ 122 := h.2
      exact ⟨by omega, by omega⟩
    · have h1 : 65 ≤ c.toNat := h.1
      have h2 : c.toNat ≤ 90 := h.2
      exact ⟨by omega, by omega⟩
  have hstr : ∀ {s t}, StringBody s t → ∀ c ∈ t, Printable c := by
    intro s t h
    induction h with
    | nil => simp
    | plain hp _ _ _ ih =>
      intro c hc
      rcases List.mem_cons.1 hc with rfl | hc
      · exact hp
      · exact ih c hc
    | escaped hc' _ ih =>
      intro c hc
      simp only [List.mem_cons] at hc
      rcases hc with rfl | rfl | hc
      · decide
      · rcases hc' with rfl | rfl <;> decide
      · exact ih c hc
  have hhex : ∀ {x : Nat} {c}, hexDigits[x]? = some c → Printable c := by
    intro x c h
    have hm : c ∈ hexDigits := List.mem_of_getElem? h
    have : ∀ c ∈ hexDigits, Printable c := by decide
    exact this c hm
  have hdisp : ∀ {b t}, DisplayBody b t → ∀ c ∈ t, Printable c := by
    intro s t h
    induction h with
    | nil => simp
    | plain hp _ _ _ ih =>
      intro c hc
      rcases List.mem_cons.1 hc with rfl | hc
      · exact hp
      · exact ih c hc
    | percent hx hy _ ih =>
      intro c hc
      simp only [List.mem_cons] at hc
      rcases hc with rfl | rfl | rfl | hc
      · decide
      · exact hhex hx
      · exact hhex hy
      · exact ih c hc
  have hb64 : ∀ {b t}, Base64Text b t → ∀ c ∈ t, Printable c := by
    rintro b t ⟨vs, k, h1, rfl, _⟩ c hc
    rcases List.mem_append.1 hc with hc | hc
    · obtain ⟨v, hv, rfl⟩ := List.mem_map.1 hc
      have : ∀ v < 64, Printable (alphabet.getD v '?') := by decide
      exact this v (h1 v hv)
    · rw [List.eq_of_mem_replicate hc]; decide
  have hbare : ∀ {v t}, BareText v t → ∀ c ∈ t, Printable c := by
    intro v t h c hc
    cases h with
    | @int neg ds h =>
      rcases List.mem_append.1 hc with hc | hc
      · exact hsign neg c hc
      · exact hdig h c hc
    | @dec neg ds fs h h' =>
      simp only [List.mem_append, List.mem_cons] at hc
      rcases hc with (hc | hc) | rfl | hc
      · exact hsign neg c hc
      · exact hdig h c hc
      · decide
      · exact hdig h' c hc
    | str h =>
      simp only [List.cons_append, List.mem_cons, List.mem_append, List.not_mem_nil, or_false] at hc
      rcases hc with rfl | hc | rfl
      · decide
      · exact hstr h c hc
      · decide
    | tok h =>
      obtain ⟨d, u, rfl, hd, hu⟩ := h
      rcases List.mem_cons.1 hc with rfl | hc
      · rcases hd with hd | rfl
        · exact halpha hd
        · decide
      · rcases hu c hc with h | h | h
        · exact halpha h
        · exact hdig (lo := 0) (hi := 1) (ds := [c]) ⟨by simpa using h, by simp, by simp⟩ c (by simp)
        · have : ∀ c ∈ c! "!#$%&'*+-.^_`|~:/", Printable c := by decide
          exact this c h
    | bytes h =>
      simp only [List.cons_append, List.mem_cons, List.mem_append, List.not_mem_nil, or_false] at hc
      rcases hc with rfl | hc | rfl
      · decide
      · exact hb64 h c hc
      · decide
    | yes => revert c; decide
    | no => revert c; decide
    | @date neg ds h =>
      simp only [List.cons_append, List.mem_cons, List.mem_append] at hc
      rcases hc with rfl | hc | hc
      · decide
      · exact hsign neg c hc
      · exact hdig h c hc
    | disp h =>
      simp only [List.cons_append, List.mem_cons, List.mem_append, List.not_mem_nil, or_false] at hc
      rcases hc with rfl | rfl | hc | rfl
      · decide
      · decide
      · exact hdisp h c hc
      · decide
  have hsp : ∀ n, ∀ c ∈ sp n, Printable c := by
    intro n c hc; rw [List.eq_of_mem_replicate hc]; decide
  have hparams : ∀ {raw t}, ParamsText raw t → ∀ c ∈ t, Printable c := by
    intro raw t h
    induction h with
    | nil => simp
    | @flag n k ps t hk _ ih =>
      intro c hc
      simp only [List.cons_append, List.mem_cons, List.mem_append] at hc
      rcases hc with rfl | (hc | hc) | hc
      · decide
      · exact hsp n c hc
      · exact hkey hk c hc
      · exact ih c hc
    | @value n k v b ps t hk hb _ ih =>
      intro c hc
      simp only [List.cons_append, List.mem_cons, List.mem_append] at hc
      rcases hc with rfl | ((hc | hc) | rfl | hc) | hc
      · decide
      · exact hsp n c hc
      · exact hkey hk c hc
      · decide
      · exact hbare hb c hc
      · exact ih c hc
  have hitem : ∀ {i t}, ItemText i t → ∀ c ∈ t, Printable c := by
    rintro i t ⟨raw, b, p, h1, h2, _, rfl⟩ c hc
    rcases List.mem_append.1 hc with hc | hc
    · exact hbare h1 c hc
    · exact hparams h2 c hc
  have hitems : ∀ {is t}, ItemsText is t → ∀ c ∈ t, Printable c := by
    intro is t h
    induction h with
    | nil => exact hsp _
    | @one n m i t hi =>
      intro c hc
      simp only [List.mem_append] at hc
      rcases hc with (hc | hc) | hc
      · exact hsp n c hc
      · exact hitem hi c hc
      · exact hsp m c hc
    | @cons n i j is t u hi _ ih =>
      intro c hc
      simp only [List.mem_append, List.mem_cons] at hc
      rcases hc with (hc | hc) | rfl | hc
      · exact hsp n c hc
      · exact hitem hi c hc
      · decide
      · exact ih c hc
  have hentry : ∀ {x t}, EntryText x t → ∀ c ∈ t, Printable c := by
    intro x t h c hc
    cases h with
    | item h => exact hitem h c hc
    | inner hi hp _ =>
      simp only [List.cons_append, List.mem_cons, List.mem_append] at hc
      rcases hc with rfl | hc | rfl | hc
      · decide
      · exact hitems hi c hc
      · decide
      · exact hparams hp c hc
  have hmember : ∀ {x t}, MemberText x t → ∀ c ∈ t, Printable c := by
    intro x t h c hc
    cases h with
    | value hk he =>
      simp only [List.mem_append, List.mem_cons] at hc
      rcases hc with hc | rfl | hc
      · exact hkey hk c hc
      · decide
      · exact hentry he c hc
    | flag hk hp _ =>
      rcases List.mem_append.1 hc with hc | hc
      · exact hkey hk c hc
      · exact hparams hp c hc
  have hows : ∀ {a}, Ows a → ∀ c ∈ a, Printable c ∨ c = '\t' := by
    intro a ha c hc
    rcases ha c hc with rfl | rfl
    · left; decide
    · right; rfl
  have hfield : ∀ {α : Type} {T : α → Str → Prop}, (∀ x t, T x t → ∀ c ∈ t, Printable c) → ∀ {l s}, FieldText T l s →
      ∀ c ∈ s, Printable c ∨ c = '\t' := by
    intro α T hT l s h
    have hsep : ∀ {l t}, SepText T l t → ∀ c ∈ t, Printable c ∨ c = '\t' := by
      intro l t h
      induction h with
      | one hx => exact fun c hc => Or.inl (hT _ _ hx c hc)
      | cons hx ha hb _ ih =>
        intro c hc
        simp only [List.mem_append, List.mem_cons] at hc
        rcases hc with ((hc | hc) | rfl | hc) | hc
        · exact Or.inl (hT _ _ hx c hc)
        · exact hows ha c hc
        · left; decide
        · exact hows hb c hc
        · exact ih c hc
    rcases h with ⟨_, n, rfl⟩ | ⟨n, t, a, h1, h2, rfl⟩
    · exact fun c hc => Or.inl (hsp n c hc)
    · intro c hc
      simp only [List.mem_append] at hc
      rcases hc with (hc | hc) | hc
      · exact Or.inl (hsp n c hc)
      · exact hsep h1 c hc
      · exact hows h2 c hc
  rcases h with ⟨l, h⟩ | ⟨d, raw, h, _⟩ | ⟨i, n, m, t, h, rfl⟩
  · exact hfield (fun _ _ => hentry) h
  · exact hfield (fun _ _ => hmember) h
  · intro c hc
    simp only [List.mem_append] at hc
    rcases hc with (hc | hc) | hc
    · exact Or.inl (hsp n c hc)
    · exact Or.inl (hitem h c hc)
    · exact Or.inl (hsp m c hc)

-- Texts that denote a value, and texts that denote nothing.
example : ListText [.item ⟨.int 1, [(c! "a", .tok (c! "x"))]⟩, .inner ⟨[⟨.str (c! "b"), []⟩], []⟩] (c! " 1; a=x ,\t( \"b\"  )\t") :=
  (C63_list _ _).1 (by decide)
example : DictText [(c! "a", .item ⟨.int 3, []⟩), (c! "b", .item ⟨.bool true, [(c! "q", .dec 1500)]⟩)] (c! "a=1, b;q=1.5, a=3") :=
  (C63_dict _ _).1 (by decide)
example : ItemFieldText ⟨.bytes [102, 111], []⟩ (c! ":Zm8:") := (C63_item _ _).1 (by decide)
example : Base64Text [102] (c! "Zh") := (C63_base64 _ _).1 (by decide)
example : ¬ ∃ b, Base64Text b (c! "Z===") := by
  rintro ⟨b, h⟩; rw [← C63_base64] at h; revert h; simp [show Base64.decode false (c! "Z===") = none by decide]
example : ¬ ∃ d, DictText d (c! "a=1,") := ((C63_refused _).2.1).1 (by decide)
example : ¬ ∃ l, ListText l (c! "\t1") := ((C63_refused _).1).1 (by decide)
example : ¬ ∃ i, ItemFieldText i (c! "1\t") := ((C63_refused _).2.2).1 (by decide)
example : ¬ ∃ i, ItemFieldText i (c! "1234567890123456") := ((C63_refused _).2.2).1 (by decide)
example : ¬ ∃ i, ItemFieldText i (c! "1.2345") := ((C63_refused _).2.2).1 (by decide)

end Verif
