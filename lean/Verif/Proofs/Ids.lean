import Verif.Proofs.SfvLegal
import Verif.Spec.Safe
import Mathlib.Data.List.Perm.Subperm
/-! Component ids: text form, parsing, equality. -/
namespace Verif
open Sfv Spec

/-! ### Trimming -/

theorem trimEnd_of_last {s : Str} (h : ∀ c, s.getLast? = some c → isWs c = false) : trimEnd s = s := by
  unfold trimEnd
  rw [dropWhile_stop (by intro c hc; rw [List.head?_reverse] at hc; exact h c hc), List.reverse_reverse]

theorem trim_of {s : Str} (h1 : ∀ c, s.head? = some c → isWs c = false) (h2 : ∀ c, s.getLast? = some c → isWs c = false) :
    trim s = s := by
  unfold trim
  rw [dropWhile_stop h1, trimEnd_of_last h2]

theorem forall₂_mem_right {α β : Type} {R : α → β → Prop} {l : List α} {r : List β} (h : List.Forall₂ R l r) :
    ∀ b ∈ r, ∃ a ∈ l, R a b := by
  induction h with
  | nil => simp
  | @cons a b l1 l2 hx _ ih =>
    intro q hq
    rcases List.mem_cons.1 hq with rfl | hq
    · exact ⟨a, by simp, hx⟩
    · obtain ⟨kv, hkv, h⟩ := ih q hq
      exact ⟨kv, by simp [hkv], h⟩

theorem forall₂_mem_left {α β : Type} {R : α → β → Prop} {l : List α} {r : List β} (h : List.Forall₂ R l r) :
    ∀ a ∈ l, ∃ b ∈ r, R a b := by
  induction h with
  | nil => simp
  | @cons a b l1 l2 hx _ ih =>
    intro q hq
    rcases List.mem_cons.1 hq with rfl | hq
    · exact ⟨b, by simp, hx⟩
    · obtain ⟨kv, hkv, h⟩ := ih q hq
      exact ⟨kv, by simp [hkv], h⟩

theorem forall₂_map_eq {α β γ : Type} {R : α → β → Prop} {l : List α} {r : List β} {f : α → γ} {g : β → γ}
    (h : List.Forall₂ R l r) (hfg : ∀ a b, R a b → f a = g b) : l.map f = r.map g := by
  induction h with
  | nil => rfl
  | cons hx _ ih => rw [List.map_cons, List.map_cons, ih, hfg _ _ hx]

/-! ### Ids as structured field items -/

/-- The structured field parameter that stands for a component parameter. -/
def paramKV : CParam → Str × Bare
  | .sf => (c! "sf", .bool true)
  | .key s => (c! "key", .str s)
  | .bs => (c! "bs", .bool true)
  | .tr => (c! "tr", .bool true)
  | .req => (c! "req", .bool true)
  | .name s => (c! "name", .str s)

def nameText : CName → Str
  | .field s => s
  | .derived d => d.toStr

def idItem (i : CId) : Item := ⟨.str (nameText i.name), i.params.map paramKV⟩

theorem escStr_safe {s : Str} (h : SafeText s) : escStr s = s := by
  induction s with
  | nil => rfl
  | cons c t ih =>
    have hc := h c (by simp)
    rw [escStr, if_neg (by rintro (e | e); exacts [hc.2.1 e, hc.2.2 e]), ih (fun x hx => h x (by simp [hx]))]

theorem safe_printable {s : Str} (h : SafeText s) : ∀ c ∈ s, Printable c := fun c hc => (h c hc).1

theorem derived_safe (d : Derived) : SafeText d.toStr := by cases d <;> decide

theorem _root_.Verif.Spec.SafeId.nameSafe {i : CId} (h : SafeId i) : SafeText (nameText i.name) := by
  obtain ⟨n, ps⟩ := i
  cases n with
  | field f => exact h.nameText f rfl
  | derived d => exact derived_safe d

theorem cparamsDisp_eq (l : List CParam) : cparamsDisp l = l.flatMap (fun p => ';' :: p.disp) := by
  induction l with
  | nil => rfl
  | cons p t ih =>
    by_cases ht : t = []
    · subst ht; simp [cparamsDisp]
    · rw [List.flatMap_cons, ← ih]
      simp only [cparamsDisp, ht, if_false, List.map_cons, reduceCtorEq]
      rw [join_cons _ _ (by simp [ht])]
      simp

theorem disp_eq_ser {i : CId} (h : SafeId i) : i.disp = serItem (idItem i) := by
  have hn : i.name.disp = serBare (.str (nameText i.name)) := by
    simp only [serBare]
    rw [escStr_safe h.nameSafe]
    cases i.name <;> rfl
  unfold CId.disp serItem
  rw [hn, cparamsDisp_eq]
  congr 1
  show _ = serParams (i.params.map paramKV)
  unfold serParams
  rw [List.flatMap_map]
  apply List.flatMap_congr
  intro p hp
  cases p with
  | key k => simp [CParam.disp, paramKV, serParam, serBare, escStr_safe (h.keyText k hp)]
  | name k => simp [CParam.disp, paramKV, serParam, serBare, escStr_safe (h.nameParam k hp)]
  | _ => rfl

theorem paramKV_fst (p : CParam) : (paramKV p).1 = paramLabel p := by cases p <;> rfl

theorem idItem_legal {i : CId} (h : SafeId i) : LegalItem (idItem i) := by
  refine ⟨safe_printable h.nameSafe, ?_, ?_⟩
  · show ((i.params.map paramKV).map Prod.fst).Nodup
    rw [List.map_map]
    have : Prod.fst ∘ paramKV = paramLabel := by funext p; exact paramKV_fst p
    rw [this]; exact h.distinct
  · intro kv hkv
    obtain ⟨p, hp, rfl⟩ := List.mem_map.1 hkv
    cases p with
    | key k => exact ⟨by show LegalKey (c! "key"); decide, safe_printable (h.keyText k hp)⟩
    | name k => exact ⟨by show LegalKey (c! "name"); decide, safe_printable (h.nameParam k hp)⟩
    | sf => exact ⟨by show LegalKey (c! "sf"); decide, trivial⟩
    | bs => exact ⟨by show LegalKey (c! "bs"); decide, trivial⟩
    | tr => exact ⟨by show LegalKey (c! "tr"); decide, trivial⟩
    | req => exact ⟨by show LegalKey (c! "req"); decide, trivial⟩

theorem ofKV_paramKV (p : CParam) : CParam.ofKV (paramKV p) = .ok p := by
  cases p <;> simp [CParam.ofKV, paramKV, asString]

theorem Derived.ofStr_toStr (d : Derived) : Derived.ofStr d.toStr = .ok d := by cases d <;> decide

theorem Derived.ofStr_some {s : Str} {d : Derived} (h : Derived.ofStr s = .ok d) : s = d.toStr := by
  unfold Derived.ofStr at h
  repeat' split at h
  all_goals first | (injection h with h; subst h; assumption) | cases h

theorem toStr_at (d : Derived) : ∃ t, d.toStr = '@' :: t := by cases d <;> exact ⟨_, rfl⟩

theorem ofBare_nameText {n : CName} (h : ∀ f, n = .field f → f.head? ≠ some '@') :
    CName.ofBare (.str (nameText n)) = .ok n := by
  cases n with
  | field f =>
    cases f with
    | nil => rfl
    | cons c t =>
      have hc : c ≠ '@' := by simpa using h _ rfl
      simp only [nameText, CName.ofBare]
      split
      · rename_i heq; injection heq with h1 _; exact absurd h1 hc
      · rfl
  | derived d =>
    obtain ⟨t, ht⟩ := toStr_at d
    have := Derived.ofStr_toStr d
    simp only [nameText, CName.ofBare]
    rw [ht] at this ⊢
    simp [this]

theorem labels_nodup {l : List CParam} (h : (l.map paramLabel).Nodup) : l.Nodup := by
  induction l with
  | nil => simp
  | cons a t ih =>
    rw [List.map_cons, List.nodup_cons] at h
    exact List.nodup_cons.2 ⟨fun ha => h.1 (List.mem_map_of_mem ha), ih h.2⟩

theorem check_rules {i : CId} (h : IdRules i) : CId.check i = .ok i := by
  unfold CId.check
  rw [if_neg, if_neg]
  · simp only [Bool.and_eq_true, not_and, Bool.not_eq_true', List.any_eq_true]
    rintro ⟨p, hp, hf⟩
    have : ∃ f, i.name = .field f := h.fieldOnly (by
      cases p with
      | sf => exact Or.inl hp
      | bs => exact Or.inr (Or.inl hp)
      | tr => exact Or.inr (Or.inr (Or.inl hp))
      | key k => exact Or.inr (Or.inr (Or.inr ⟨k, hp⟩))
      | req => cases hf
      | name => cases hf)
    obtain ⟨f, hf⟩ := this
    rw [hf]; simp [CName.isField]
  · simp only [Bool.and_eq_true, not_and, List.any_eq_true, bne_iff_ne, ne_eq, not_not]
    rintro ⟨p, hp, hn⟩
    cases p with
    | name n => exact h.name n hp
    | _ => cases hn

theorem ofItem_idItem {i : CId} (h : IdRules i) : CId.ofItem (idItem i) = .ok i := by
  unfold CId.ofItem idItem
  rw [ofBare_nameText h.noAt]
  have hc : cparamsOf (i.params.map paramKV) = .ok i.params := by
    unfold cparamsOf
    rw [Res.collect_map]
    rw [Res.collect_ok_of (g := id) (fun p _ => by exact ofKV_paramKV p)]
    simp [isOfList_of_nodup (labels_nodup h.distinct)]
  simp only [Res.bind_ok, hc]
  exact check_rules h

theorem serParam_ends (kv : Str × Bare) (h : kv.2 = .bool true ∧ kv.1 ≠ [] ∨ ∃ s, kv.2 = .str s) :
    ∃ u c, serParam kv = u ++ [c] ∧ (c = '"' ∨ c ∈ kv.1) := by
  obtain ⟨k, v⟩ := kv
  rcases h with ⟨h, hk⟩ | ⟨s, h⟩
  · simp only at h hk; subst h
    rcases List.eq_nil_or_concat k with rfl | ⟨u, c, rfl⟩
    · exact absurd rfl hk
    · exact ⟨';' :: u, c, by simp [serParam], Or.inr (by simp)⟩
  · simp only at h; subst h
    exact ⟨';' :: (k ++ '=' :: '"' :: escStr s), '"', by simp [serParam, serBare], Or.inl rfl⟩

theorem disp_shape (i : CId) : ∃ u, i.disp = '"' :: u := by
  unfold CId.disp; cases i.name <;> exact ⟨_, rfl⟩

theorem cparam_disp_last (p : CParam) : ∃ u c, p.disp = u ++ [c] ∧ isWs c = false := by
  cases p with
  | sf => exact ⟨['s'], 'f', rfl, by decide⟩
  | bs => exact ⟨['b'], 's', rfl, by decide⟩
  | tr => exact ⟨['t'], 'r', rfl, by decide⟩
  | req => exact ⟨['r', 'e'], 'q', rfl, by decide⟩
  | key s => exact ⟨c! "key=\"" ++ s, '"', rfl, by decide⟩
  | name s => exact ⟨c! "name=\"" ++ s, '"', rfl, by decide⟩

theorem disp_last (i : CId) : ∀ c, i.disp.getLast? = some c → isWs c = false := by
  intro c hc
  unfold CId.disp at hc
  rw [cparamsDisp_eq] at hc
  rcases List.eq_nil_or_concat i.params with h | ⟨l, p, h⟩
  · rw [h] at hc
    have : ∃ u, i.name.disp = u ++ ['"'] := by
      cases i.name with
      | field s => exact ⟨'"' :: s, rfl⟩
      | derived d => exact ⟨'"' :: d.toStr, rfl⟩
    obtain ⟨u, hu⟩ := this
    rw [hu] at hc; simp at hc; subst hc; decide
  · obtain ⟨u, d, hd, hw⟩ := cparam_disp_last p
    rw [h] at hc
    simp [hd] at hc
    have : c = d := by
      rw [← List.cons_append, List.getLast?_append] at hc
      simpa using hc.symm
    rw [this]; exact hw

theorem trim_disp (i : CId) : trim i.disp = i.disp := by
  apply trim_of _ (disp_last i)
  obtain ⟨u, hu⟩ := disp_shape i
  rw [hu]; intro c hc; simp at hc; subst hc; decide

/-- Parsing the text of a safe id gives the id. -/
theorem ofStr_disp {i : CId} (h : SafeId i) : CId.ofStr i.disp = .ok i := by
  unfold CId.ofStr
  simp only
  rw [trim_disp, if_neg (by
    obtain ⟨u, hu⟩ := disp_shape i
    rw [hu]; simp), disp_eq_ser h, parseItemTop_ser (idItem_legal h)]
  simp only [Res.ofOption_some, Res.bind_ok]
  exact ofItem_idItem h.toIdRules

/-! ### What an accepted id looks like -/

theorem ofKV_ok {kv : Str × Bare} {p : CParam} (h : CParam.ofKV kv = .ok p) :
    kv.1 = paramLabel p ∧ (∀ s, p = .key s ∨ p = .name s → kv.2 = .str s) := by
  have str : ∀ {b : Bare} {s : Str}, Res.ofOption SigErr.invalidComponentParam (asString b) = .ok s → b = .str s := by
    intro b s hs
    have hs := Res.ofOption_eq_ok.1 hs
    cases b <;> simp [asString] at hs
    rw [hs]
  unfold CParam.ofKV at h
  split at h
  · injection h with h; subst h; exact ⟨by assumption, by simp⟩
  split at h
  · injection h with h; subst h; exact ⟨by assumption, by simp⟩
  split at h
  · injection h with h; subst h; exact ⟨by assumption, by simp⟩
  split at h
  · injection h with h; subst h; exact ⟨by assumption, by simp⟩
  split at h
  · obtain ⟨s, hs, h⟩ := Res.bind_eq_ok.1 h
    injection h with h; subst h
    exact ⟨by assumption, by intro t ht; simp at ht; rw [← ht]; exact str hs⟩
  split at h
  · obtain ⟨s, hs, h⟩ := Res.bind_eq_ok.1 h
    injection h with h; subst h
    exact ⟨by assumption, by intro t ht; simp at ht; rw [← ht]; exact str hs⟩
  · cases h

theorem cparamsOf_ok {p : Params} {l : List CParam} (h : cparamsOf p = .ok l) (hn : (p.map Prod.fst).Nodup) :
    List.Forall₂ (fun kv q => CParam.ofKV kv = .ok q) p l ∧ l.map paramLabel = p.map Prod.fst := by
  obtain ⟨l', hl', h'⟩ := Res.bind_eq_ok.1 h
  clear h
  rename' h' => h
  have h2 := Res.collect_ok_iff.1 hl'
  have h3 : l'.map paramLabel = p.map Prod.fst := by
    clear hl' hn h
    induction h2 with
    | nil => rfl
    | cons hx _ ih => rw [List.map_cons, List.map_cons, ih, (ofKV_ok hx).1]
  have h4 : l'.Nodup := labels_nodup (by rw [h3]; exact hn)
  injection h with h
  rw [isOfList_of_nodup h4] at h
  subst h
  exact ⟨h2, h3⟩

theorem check_ok {i j : CId} (h : CId.check i = .ok j) : i = j ∧
    (∀ n, CParam.name n ∈ i.params → i.name = .derived .queryParam) ∧
    ((CParam.sf ∈ i.params ∨ CParam.bs ∈ i.params ∨ CParam.tr ∈ i.params ∨ ∃ k, CParam.key k ∈ i.params) →
    ∃ f, i.name = .field f) := by
  unfold CId.check at h
  split at h
  · cases h
  rename_i h1
  split at h
  · cases h
  rename_i h2
  injection h with h
  refine ⟨h, ?_, ?_⟩
  · intro n hn
    simp only [Bool.and_eq_true, not_and, List.any_eq_true, bne_iff_ne, ne_eq, not_not] at h1
    exact h1 ⟨_, hn, rfl⟩
  · intro hf
    simp only [Bool.and_eq_true, not_and, Bool.not_eq_true', List.any_eq_true] at h2
    have : ∃ x ∈ i.params, x.isFieldOnly = true := by
      rcases hf with h | h | h | ⟨k, h⟩ <;> exact ⟨_, h, rfl⟩
    have := h2 this
    cases hn : i.name with
    | field f => exact ⟨f, rfl⟩
    | derived d => rw [hn] at this; exact absurd rfl this

theorem ofBare_ok {b : Bare} {n : CName} (h : CName.ofBare b = .ok n) :
    b = .str (nameText n) ∧ ∀ f, n = .field f → f.head? ≠ some '@' := by
  cases b with
  | str s =>
    simp only [CName.ofBare] at h
    split at h
    · obtain ⟨d, hd, h⟩ := Res.bind_eq_ok.1 h
      injection h with h; subst h
      exact ⟨by rw [Derived.ofStr_some hd]; rfl, by simp⟩
    · rename_i hs
      injection h with h; subst h
      refine ⟨rfl, ?_⟩
      intro f hf
      injection hf with hf; subst hf
      intro e
      cases s with
      | nil => cases e
      | cons c t => simp at e; subst e; exact hs t rfl
  | _ => simp [CName.ofBare] at h

/-- Ids made from a parsed item obey the rules. -/
theorem ofItem_rules {it : Item} {i : CId} (hn : (it.params.map Prod.fst).Nodup) (h : CId.ofItem it = .ok i) : IdRules i := by
  obtain ⟨n, h1, h⟩ := Res.bind_eq_ok.1 h
  obtain ⟨ps, h2, h⟩ := Res.bind_eq_ok.1 h
  obtain ⟨rfl, h3, h4⟩ := check_ok h
  have := cparamsOf_ok h2 hn
  exact ⟨by rw [this.2]; exact hn, h3, h4, (ofBare_ok h1).2⟩

theorem ofStr_item {s : Str} {i : CId} (h : CId.ofStr s = .ok i) : ∃ it, LegalItem it ∧ CId.ofItem it = .ok i := by
  obtain ⟨it, h1, h⟩ := Res.bind_eq_ok.1 h
  have h1 := Res.ofOption_eq_ok.1 h1
  refine ⟨it, ?_, h⟩
  split at h1 <;> exact parseItemTop_legal h1

theorem ofStr_rules {s : Str} {i : CId} (h : CId.ofStr s = .ok i) : IdRules i := by
  obtain ⟨it, hl, h⟩ := ofStr_item h
  exact ofItem_rules hl.2.1 h

/-- The texts inside an id made from a legal item are printable. -/
theorem ofItem_printable {it : Item} {i : CId} (hl : LegalItem it) (h : CId.ofItem it = .ok i) :
    (∀ c ∈ nameText i.name, Printable c) ∧
    ∀ s, CParam.key s ∈ i.params ∨ CParam.name s ∈ i.params → ∀ c ∈ s, Printable c := by
  obtain ⟨n, h1, h⟩ := Res.bind_eq_ok.1 h
  obtain ⟨ps, h2, h⟩ := Res.bind_eq_ok.1 h
  obtain ⟨rfl, _, _⟩ := check_ok h
  obtain ⟨h3, _⟩ := cparamsOf_ok h2 hl.2.1
  constructor
  · have := (ofBare_ok h1).1
    have hb := hl.1
    rw [this] at hb
    exact hb
  · have key : ∀ q ∈ ps, ∃ kv ∈ it.params, CParam.ofKV kv = .ok q := forall₂_mem_right h3
    intro s hs
    have : ∃ q ∈ ps, q = .key s ∨ q = .name s := by
      rcases hs with hs | hs
      · exact ⟨_, hs, Or.inl rfl⟩
      · exact ⟨_, hs, Or.inr rfl⟩
    obtain ⟨q, hq, e⟩ := this
    obtain ⟨kv, hkv, hof⟩ := key q hq
    have := (ofKV_ok hof).2 s e
    have hb := (hl.2.2 kv hkv).2
    rw [this] at hb
    exact hb

/-! ### Equality of ids -/

theorem eqv_iff {a b : CId} (ha : a.params.Nodup) : a.eqv b = true ↔ SameId a b := by
  unfold CId.eqv SameId
  simp only [Bool.and_eq_true, beq_iff_eq, List.all_eq_true, List.contains_iff_mem]
  constructor
  · rintro ⟨⟨h1, h2⟩, h3⟩
    exact ⟨h1, (List.subperm_of_subset ha h3).perm_of_length_le (by omega)⟩
  · rintro ⟨h1, h2⟩
    exact ⟨⟨h1, h2.length_eq⟩, fun p hp => h2.mem_iff.1 hp⟩

theorem hasUnique_iff {l : List CId} (h : ∀ i ∈ l, i.params.Nodup) :
    hasUnique l = true ↔ l.Pairwise (fun a b => ¬ SameId a b) := by
  induction l with
  | nil => simp [hasUnique]
  | cons a t ih =>
    have ih := ih (fun i hi => h i (by simp [hi]))
    simp only [hasUnique, Bool.and_eq_true, Bool.not_eq_true', ih, List.pairwise_cons]
    constructor
    · rintro ⟨h1, h2⟩
      refine ⟨fun b hb hs => ?_, h2⟩
      have := List.any_eq_false.1 h1 b hb
      exact this ((eqv_iff (h a (by simp))).2 hs)
    · rintro ⟨h1, h2⟩
      refine ⟨?_, h2⟩
      rw [List.any_eq_false]
      intro b hb he
      exact h1 b hb ((eqv_iff (h a (by simp))).1 he)

theorem SameId.refl (a : CId) : SameId a a := ⟨rfl, List.Perm.refl _⟩
theorem SameId.symm {a b : CId} (h : SameId a b) : SameId b a := ⟨h.1.symm, h.2.symm⟩
theorem SameId.trans {a b c : CId} (h : SameId a b) (h' : SameId b c) : SameId a c := ⟨h.1.trans h'.1, h.2.trans h'.2⟩

end Verif
