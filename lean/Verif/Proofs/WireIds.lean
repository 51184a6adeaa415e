import Verif.Spec.Wire
import Verif.Proofs.Ids
import Verif.Proofs.Canon
import Verif.Proofs.SfvCanonical
import Verif.Proofs.SfvGrammarTop
/-! Reading component identifiers, against `Spec/Wire.lean`. -/
namespace Verif
open Sfv Spec Grammar

/-! ### Text -/

theorem blank_iff {c : Char} : Wire.Blank c ↔ isWs c = true := by
  unfold Wire.Blank isWs
  simp only [List.mem_cons, List.not_mem_nil, or_false, Bool.or_eq_true, Bool.and_eq_true, decide_eq_true_eq, beq_iff_eq]
  omega

theorem trim_shape (s : Str) : Wire.Trimmed s (trim s) := by
  have h1 : s = s.takeWhile isWs ++ s.dropWhile isWs := List.takeWhile_append_dropWhile.symm
  have h2 : s.dropWhile isWs = trim s ++ ((s.dropWhile isWs).reverse.takeWhile isWs).reverse := by
    unfold trim trimEnd
    rw [← List.reverse_append, List.takeWhile_append_dropWhile, List.reverse_reverse]
  refine ⟨s.takeWhile isWs, ((s.dropWhile isWs).reverse.takeWhile isWs).reverse, ?_, ?_, ?_, ?_, ?_⟩
  · rw [List.append_assoc, ← h2]; exact h1
  · intro c hc; exact blank_iff.2 (mem_takeWhile_true hc)
  · intro c hc; exact blank_iff.2 (mem_takeWhile_true (List.mem_reverse.1 hc))
  · intro c hc hb
    have hb := blank_iff.1 hb
    have : (s.dropWhile isWs).head? = some c := by
      rw [h2]
      cases ht : trim s with
      | nil => rw [ht] at hc; cases hc
      | cons a t => rw [ht] at hc; simpa using hc
    have := dropWhile_head_false this
    rw [hb] at this; cases this
  · intro c hc hb
    have hb := blank_iff.1 hb
    unfold trim trimEnd at hc
    rw [List.getLast?_reverse] at hc
    have := dropWhile_head_false hc
    rw [hb] at this; cases this
where
  mem_takeWhile_true {s : Str} {c : Char} (h : c ∈ s.takeWhile isWs) : isWs c = true := by
    induction s with
    | nil => cases h
    | cons a t ih =>
      rw [List.takeWhile_cons] at h
      split at h
      · rcases List.mem_cons.1 h with rfl | h
        · assumption
        · exact ih h
      · cases h
  dropWhile_head_false {s : Str} {c : Char} (h : (s.dropWhile isWs).head? = some c) : isWs c = false := by
    induction s with
    | nil => cases h
    | cons a t ih =>
      rw [List.dropWhile_cons] at h
      split at h
      · exact ih h
      · rename_i hn
        simp at h; subst h; simpa using hn

theorem trimmed_iff {s v : Str} : Wire.Trimmed s v ↔ v = trim s := by
  constructor
  · rintro ⟨a, b, rfl, ha, hb, h1, h2⟩
    have ha : ∀ c ∈ a, isWs c = true := fun c hc => blank_iff.1 (ha c hc)
    have hb : ∀ c ∈ b, isWs c = true := fun c hc => blank_iff.1 (hb c hc)
    have h1 : ∀ c, v.head? = some c → isWs c = false := fun c hc => by simpa using mt blank_iff.2 (h1 c hc)
    have h2 : ∀ c, v.getLast? = some c → isWs c = false := fun c hc => by simpa using mt blank_iff.2 (h2 c hc)
    unfold trim
    rw [List.append_assoc, dropWhile_all ha]
    cases v with
    | nil =>
      rw [List.nil_append, ← List.append_nil b, dropWhile_all hb]
      rfl
    | cons x t =>
      rw [dropWhile_stop (by intro c hc; exact h1 c hc)]
      unfold trimEnd
      rw [List.reverse_append, dropWhile_all (by intro c hc; exact hb c (List.mem_reverse.1 hc)),
        dropWhile_stop (by intro c hc; rw [List.head?_reverse] at hc; exact h2 c hc), List.reverse_reverse]
  · rintro rfl; exact trim_shape s
where
  dropWhile_all {a r : Str} (h : ∀ c ∈ a, isWs c = true) : (a ++ r).dropWhile isWs = r.dropWhile isWs := by
    induction a with
    | nil => rfl
    | cons x a ih =>
      rw [List.cons_append, List.dropWhile_cons, if_pos (h x (by simp))]
      exact ih (fun c hc => h c (by simp [hc]))

theorem lineText_iff {l : Bytes} {t : Str} : Wire.LineText l t ↔ hvToStr l = some t := by
  unfold Wire.LineText hvToStr
  have hv : ∀ b : UInt8, hvVisible b = true ↔ b.toNat = 9 ∨ (32 ≤ b.toNat ∧ b.toNat ≤ 126) := by
    intro b; unfold hvVisible
    simp only [Bool.or_eq_true, Bool.and_eq_true, decide_eq_true_eq, beq_iff_eq]
    omega
  have toNat : ∀ b : UInt8, (Char.ofNat b.toNat).toNat = b.toNat := by
    intro b
    have := b.toNat_lt
    simp only [Nat.reducePow] at this
    rw [Char.ofNat, dif_pos (Or.inl (by omega))]
    simp [Char.ofNatAux, Char.toNat]
  constructor
  · rintro ⟨h1, h2⟩
    rw [if_pos (List.all_eq_true.2 (fun b hb => (hv b).2 (h1 b hb)))]
    congr 1
    have inj : Function.Injective Char.toNat := fun a b h => Char.ext (UInt32.toNat_inj.1 h)
    apply List.map_injective_iff.2 inj
    rw [h2, List.map_map]
    apply List.map_congr_left
    intro b _; exact toNat b
  · intro h
    split at h
    · rename_i hall
      injection h with h; subst h
      refine ⟨fun b hb => (hv b).1 (List.all_eq_true.1 hall b hb), ?_⟩
      rw [List.map_map]
      apply List.map_congr_left
      intro b _; exact toNat b
    · cases h

theorem linesOf_eq (h : Headers) (n : Str) : Wire.linesOf h n = fieldLines h n := rfl

theorem linesText_iff {h : Headers} {n : Str} {ts : List Str} : Wire.LinesText h n ts ↔ LineTexts (fieldLines h n) ts := by
  unfold Wire.LinesText LineTexts
  rw [linesOf_eq]
  exact ⟨fun h => h.imp (fun _ _ => lineText_iff.1), fun h => h.imp (fun _ _ => lineText_iff.2)⟩

/-! ### Identifiers -/

theorem derivedText_eq (d : Derived) : (derivedText d).toList = d.toStr := by cases d <;> rfl

theorem paramOf_iff {kv : Str × Bare} {p : CParam} : Wire.ParamOf kv p ↔ CParam.ofKV kv = .ok p := by
  constructor
  · intro h; cases h <;> rfl
  · obtain ⟨k, v⟩ := kv
    intro h
    obtain ⟨h1, h2⟩ := ofKV_ok h
    simp only at h1 h2
    subst h1
    cases p with
    | sf => exact .sf
    | bs => exact .bs
    | tr => exact .tr
    | req => exact .req
    | key s => rw [h2 s (Or.inl rfl)]; exact .key
    | name s => rw [h2 s (Or.inr rfl)]; exact .name

theorem nameOf_iff {n : Str} {c : CName} : Wire.NameOf n c ↔ CName.ofBare (.str n) = .ok c := by
  constructor
  · intro h
    cases h with
    | field hf =>
      have := ofBare_nameText (n := .field n) (by intro f hh; injection hh with hh; subst hh; exact hf)
      exact this
    | derived => rw [derivedText_eq]; exact ofBare_nameText (n := .derived _) (by simp)
  · intro h
    obtain ⟨h1, h2⟩ := ofBare_ok h
    injection h1 with h1
    subst h1
    cases c with
    | field f => exact .field (h2 f rfl)
    | derived d => have := Wire.NameOf.derived (d := d); rw [derivedText_eq] at this; exact this

theorem forall₂_paramOf {ps : Params} {l : List CParam} (hn : (ps.map Prod.fst).Nodup) :
    List.Forall₂ Wire.ParamOf ps l ↔ cparamsOf ps = .ok l := by
  constructor
  · intro h
    have h' : List.Forall₂ (fun kv q => CParam.ofKV kv = .ok q) ps l := h.imp (fun _ _ hx => paramOf_iff.1 hx)
    have h3 : l.map paramLabel = ps.map Prod.fst := by
      clear hn h
      induction h' with
      | nil => rfl
      | cons hx _ ih => rw [List.map_cons, List.map_cons, ih, (ofKV_ok hx).1]
    unfold cparamsOf
    rw [Res.collect_ok_iff.2 h', Res.bind_ok, isOfList_of_nodup (labels_nodup (by rw [h3]; exact hn))]
  · intro h; exact (cparamsOf_ok h hn).1.imp (fun _ _ hx => paramOf_iff.2 hx)

theorem idOf_iff {it : Item} {i : CId} (hn : (it.params.map Prod.fst).Nodup) : Wire.IdOf it i ↔ CId.ofItem it = .ok i := by
  unfold CId.ofItem
  constructor
  · rintro ⟨n, h1, h2, h3, h4⟩
    rw [h1, nameOf_iff.1 h2, Res.bind_ok, (forall₂_paramOf hn).1 h3, Res.bind_ok]
    unfold CId.check
    rw [if_neg, if_neg]
    · simp only [Bool.and_eq_true, not_and, Bool.not_eq_true', List.any_eq_true]
      rintro ⟨p, hp, hf⟩
      have := h4 p hp
      cases p with
      | req => cases hf
      | name => cases hf
      | _ => obtain ⟨f, hf⟩ := this; rw [hf]; simp [CName.isField]
    · simp only [Bool.and_eq_true, not_and, List.any_eq_true, bne_iff_ne, ne_eq, not_not]
      rintro ⟨p, hp, hf⟩
      have := h4 p hp
      cases p with
      | name => exact this
      | _ => cases hf
  · intro h
    obtain ⟨n, h1, h⟩ := Res.bind_eq_ok.1 h
    obtain ⟨ps, h2, h⟩ := Res.bind_eq_ok.1 h
    obtain ⟨rfl, h3, h4⟩ := check_ok h
    have hb := (ofBare_ok h1).1
    refine ⟨nameText n, hb, ?_, (forall₂_paramOf hn).2 h2, ?_⟩
    · rw [hb] at h1; exact nameOf_iff.2 h1
    · intro p hp
      simp only at h3 h4 hp
      cases p with
      | sf => exact h4 (Or.inl hp)
      | bs => exact h4 (Or.inr (Or.inl hp))
      | tr => exact h4 (Or.inr (Or.inr (Or.inl hp)))
      | key s => exact h4 (Or.inr (Or.inr (Or.inr ⟨s, hp⟩)))
      | req => trivial
      | name s => exact h3 s hp

theorem idText_iff {s : Str} {i : CId} : Wire.IdText s i ↔ CId.ofStr s = .ok i := by
  unfold CId.ofStr
  simp only
  constructor
  · rintro ⟨v, it, hv, h, hi⟩
    rw [trimmed_iff] at hv; subst hv
    rcases h with ⟨h1, h2⟩ | ⟨h1, h2, h3⟩
    · rw [if_neg (by simp [h1]), (parseItemTop_iff _ _).2 h2]
      exact (idOf_iff (parseItemTop_legal ((parseItemTop_iff _ _).2 h2)).2.1).1 hi
    · have h3 := (parseItemTop_iff _ _).2 h3
      rw [if_pos ⟨h1, h2⟩, show '"' :: (trim s ++ ['"']) = quoted (trim s) from by simp [quoted], h3]
      exact (idOf_iff (parseItemTop_legal h3).2.1).1 hi
  · intro h
    obtain ⟨it, h1, h⟩ := Res.bind_eq_ok.1 h
    have h1 := Res.ofOption_eq_ok.1 h1
    refine ⟨trim s, it, trim_shape s, ?_, ?_⟩
    · split at h1
      · rename_i hc
        exact Or.inr ⟨hc.1, hc.2, (parseItemTop_iff _ _).1 (by rw [show quoted (trim s) = '"' :: (trim s ++ ['"']) from by simp [quoted]]; exact h1)⟩
      · rename_i hc
        refine Or.inl ⟨?_, (parseItemTop_iff _ _).1 h1⟩
        by_contra hq
        have : trim s = [] := by by_contra hne; exact hc ⟨hne, hq⟩
        rw [this] at h1; cases h1
    · refine (idOf_iff ?_).2 h
      split at h1 <;> exact (parseItemTop_legal h1).2.1

/-! ### Items of Signature-Input -/

/-- Not a space, a quote or a backslash. -/
def PlainChar (c : Char) : Prop := c ≠ ' ' ∧ c ≠ '"' ∧ c ≠ '\\'

theorem plain_of_tok {c : Char} (h : isTokChar c = true) : PlainChar c := by
  refine ⟨?_, ?_, ?_⟩ <;> (rintro rfl; exact absurd h (by decide))

theorem plain_of_dig {c : Char} (h : isDig c = true) : PlainChar c := by
  refine ⟨?_, ?_, ?_⟩ <;> (rintro rfl; exact absurd h (by decide))

theorem plain_serInt (n : Int) : ∀ c ∈ serInt n, PlainChar c := by
  cases n with
  | ofNat n => exact fun c hc => plain_of_dig (natStr_isDig n c hc)
  | negSucc n =>
    intro c hc
    simp only [serInt, List.mem_cons] at hc
    rcases hc with rfl | hc
    · exact ⟨by decide, by decide, by decide⟩
    · exact plain_of_dig (natStr_isDig _ c hc)

theorem plain_encode (b : Bytes) : ∀ c ∈ Base64.encode b, PlainChar c := by
  obtain ⟨vs, k, hv, ht, _⟩ := (Base64.decode_lenient_iff _ b).1 (Base64.decode_encode false b)
  intro c hc
  rw [ht] at hc
  rcases List.mem_append.1 hc with hc | hc
  · obtain ⟨v, hm, rfl⟩ := List.mem_map.1 hc
    have : ∀ v < 64, alphabet.getD v '?' ≠ ' ' ∧ alphabet.getD v '?' ≠ '"' ∧ alphabet.getD v '?' ≠ '\\' := by decide
    exact this v (hv v hm)
  · rw [List.eq_of_mem_replicate hc]; exact ⟨by decide, by decide, by decide⟩

theorem plain_serBare {b : Bare} (h : LegalBare b) (hq : '"' ∉ serBare b) : ∀ c ∈ serBare b, PlainChar c := by
  have lit : ∀ c ∈ c! "-.:?01@", PlainChar c := by unfold PlainChar; decide
  intro c hc
  cases b with
  | int n => exact plain_serInt n c hc
  | dec n =>
    simp only [serBare, serDec, List.mem_append, List.mem_singleton] at hc
    rcases hc with ((hc | hc) | rfl) | hc
    · split at hc
      · simp at hc; subst hc; exact lit _ (by decide)
      · simp at hc
    · exact plain_of_dig (natStr_isDig _ c hc)
    · exact lit _ (by decide)
    · exact plain_of_dig ((serFrac_spec (f := n.natAbs % 1000) (by omega)).1 c hc)
  | str s => exact absurd (by simp [serBare]) hq
  | tok s => exact plain_of_tok (h.2 c hc)
  | bytes b =>
    simp only [serBare, List.mem_cons, List.mem_append, List.not_mem_nil, or_false] at hc
    rcases hc with rfl | hc | rfl
    · exact lit _ (by decide)
    · exact plain_encode b c hc
    · exact lit _ (by decide)
  | bool b => cases b <;> simp [serBare] at hc <;> rcases hc with rfl | rfl <;> exact lit _ (by decide)
  | date n =>
    simp only [serBare, List.mem_cons] at hc
    rcases hc with rfl | hc
    · exact lit _ (by decide)
    · exact plain_serInt n c hc
  | disp b => exact absurd (by simp [serBare]) hq

theorem plain_serParam {kv : Str × Bare} (hk : LegalKey kv.1) (h : LegalBare kv.2) (hq : '"' ∉ serParam kv) : ∀ c ∈ serParam kv, PlainChar c := by
  obtain ⟨k, v⟩ := kv
  intro c hc
  simp only [serParam, List.mem_cons, List.mem_append] at hc hq hk h
  rcases hc with rfl | hc | hc
  · exact ⟨by decide, by decide, by decide⟩
  · exact plain_of_tok ((legalKey_tok hk).2 c hc)
  · split at hc
    · simp at hc
    · rename_i hv
      simp only [hv, if_false, List.mem_cons] at hq
      simp only [List.mem_cons] at hc
      rcases hc with rfl | hc
      · exact ⟨by decide, by decide, by decide⟩
      · exact plain_serBare h (fun e => hq (Or.inr (Or.inr (Or.inr e)))) c hc

theorem plain_serItem {it : Item} (h : LegalItem it) (hq : '"' ∉ serItem it) : ∀ c ∈ serItem it, PlainChar c := by
  simp only [serItem, List.mem_append, not_or] at hq
  intro c hc
  simp only [serItem, List.mem_append] at hc
  rcases hc with hc | hc
  · exact plain_serBare h.1 hq.1 c hc
  · unfold serParams at hc hq
    obtain ⟨kv, hkv, hc⟩ := List.mem_flatMap.1 hc
    exact plain_serParam (h.2.2 kv hkv).1 (h.2.2 kv hkv).2 (fun e => hq.2 (List.mem_flatMap.2 ⟨kv, hkv, e⟩)) c hc

theorem serBare_last {b : Bare} (h : LegalBare b) : ∀ c, (serBare b).getLast? = some c → c ≠ ' ' := by
  intro c hc
  by_cases hq : '"' ∈ serBare b
  · cases b with
    | str s => rw [serBare, ← List.cons_append, List.getLast?_append] at hc; simp at hc; subst hc; decide
    | disp s => rw [serBare, ← List.cons_append, ← List.cons_append, List.getLast?_append] at hc; simp at hc; subst hc; decide
    | int n => exact absurd rfl (plain_serInt n _ hq).2.1
    | date n =>
      simp only [serBare, List.mem_cons] at hq
      rcases hq with hq | hq
      · cases hq
      · exact absurd rfl (plain_serInt n _ hq).2.1
    | tok s => exact absurd rfl (plain_of_tok (h.2 _ hq)).2.1
    | bool b => cases b <;> simp [serBare] at hq
    | bytes b =>
      simp only [serBare, List.mem_cons, List.mem_append, List.not_mem_nil, or_false] at hq
      rcases hq with hq | hq | hq
      · cases hq
      · exact absurd rfl (plain_encode b _ hq).2.1
      · cases hq
    | dec n =>
      simp only [serBare, serDec, List.mem_append, List.mem_singleton] at hq
      rcases hq with ((hq | hq) | hq) | hq
      · split at hq <;> simp at hq
      · exact absurd rfl (plain_of_dig (natStr_isDig _ _ hq)).2.1
      · cases hq
      · exact absurd rfl (plain_of_dig ((serFrac_spec (f := n.natAbs % 1000) (by omega)).1 _ hq)).2.1
  · exact (plain_serBare h hq c (List.mem_of_getLast? hc)).1

theorem serItem_last {it : Item} (h : LegalItem it) : ∀ c, (serItem it).getLast? = some c → c ≠ ' ' := by
  have par : ∀ ps : Params, (∀ kv ∈ ps, LegalKey kv.1 ∧ LegalBare kv.2) → ∀ c, (serParams ps).getLast? = some c → c ≠ ' ' := by
    intro ps
    induction ps using List.reverseRecOn with
    | nil => intro _ c hc; cases hc
    | append_singleton ps kv _ =>
      intro hl c hc
      obtain ⟨hk, hv⟩ := hl kv (by simp)
      obtain ⟨k, v⟩ := kv
      simp only [serParams, List.flatMap_append, List.flatMap_cons, List.flatMap_nil, List.append_nil] at hc
      rw [List.getLast?_append] at hc
      have hne : serParam (k, v) ≠ [] := by simp [serParam]
      obtain ⟨d, hd⟩ : ∃ d, (serParam (k, v)).getLast? = some d := ⟨_, List.getLast?_eq_some_getLast hne⟩
      rw [hd] at hc
      simp at hc; subst hc
      simp only [serParam] at hd
      split at hd
      · rw [List.append_nil] at hd
        cases k with
        | nil => obtain ⟨⟨x, hx, _⟩, _⟩ := hk; cases hx
        | cons a t =>
          have hm : d ∈ a :: t := by
            rw [List.getLast?_cons_cons] at hd; exact List.mem_of_getLast? hd
          exact (plain_of_tok ((legalKey_tok hk).2 d hm)).1
      · rw [show ';' :: (k ++ '=' :: serBare v) = (';' :: k ++ ['=']) ++ serBare v from by simp, List.getLast?_append] at hd
        cases hs : (serBare v).getLast? with
        | none =>
          rw [hs, Option.none_or, List.getLast?_append] at hd
          simp at hd; subst hd; decide
        | some x => rw [hs] at hd; simp at hd; subst hd; exact serBare_last hv x hs
  intro c hc
  unfold serItem at hc
  rw [List.getLast?_append] at hc
  cases hs : (serParams it.params).getLast? with
  | none => rw [hs] at hc; exact serBare_last h.1 c (by simpa using hc)
  | some x => rw [hs] at hc; simp at hc; subst hc; exact par _ h.2.2 x hs

theorem trim_serItem {it : Item} (h : LegalItem it) : trim (serItem it) = serItem it := by
  have pr : ∀ c, Printable c → c ≠ ' ' → isWs c = false := by
    intro c ⟨h1, h2⟩ h3
    have h4 : c.toNat ≠ 0x20 := fun e => h3 (Char.ext (UInt32.toNat_inj.1 e))
    unfold isWs
    simp
    omega
  apply trim_of
  · intro c hc
    obtain ⟨d, t, hd, hn, _⟩ := serItem_head h
    rw [hd] at hc; simp at hc; subst hc
    exact pr _ (serItem_printable h _ (by rw [hd]; simp)) hn
  · intro c hc
    exact pr _ (serItem_printable h _ (List.mem_of_getLast? hc)) (serItem_last h c hc)

theorem ofStr_serItem_str {it : Item} (h : LegalItem it) (hs : '"' ∈ serItem it) : CId.ofStr (serItem it) = CId.ofItem it := by
  unfold CId.ofStr
  simp only
  rw [trim_serItem h, if_neg (by simp [hs]), parseItemTop_ser h]
  rfl

theorem ofStr_serItem_other {it : Item} (h : LegalItem it) (hs : '"' ∉ serItem it) :
    CId.ofStr (serItem it) = CId.ofItem ⟨.str (serItem it), []⟩ := by
  have hne : serItem it ≠ [] := by obtain ⟨d, t, hd, _⟩ := serItem_head h; rw [hd]; simp
  have hsafe : SafeText (serItem it) := fun c hc => ⟨serItem_printable h c hc, (plain_serItem h hs c hc).2⟩
  have hl : LegalItem ⟨.str (serItem it), []⟩ := ⟨serItem_printable h, by simp [LegalParams]⟩
  have := parseItemTop_ser hl
  unfold CId.ofStr
  simp only
  rw [trim_serItem h, if_pos ⟨hne, hs⟩]
  generalize serItem it = t at this hsafe ⊢
  rw [show serItem ⟨.str t, []⟩ = '"' :: (t ++ ['"']) from by
    simp [serItem, serBare, serParams, escStr_safe hsafe]] at this
  rw [this]; rfl

theorem coveredId_iff {it : Item} {i : CId} (h : LegalItem it) : Wire.CoveredId it i ↔ CId.ofStr (serItem it) = .ok i := by
  by_cases hs : '"' ∈ serItem it
  · rw [ofStr_serItem_str h hs, ← idOf_iff h.2.1]
    constructor
    · rintro (h' | ⟨_, t, ht, hq, _⟩)
      · exact h'
      · rw [(canonItem_iff.1 ht).2] at hq; exact absurd hs hq
    · exact Or.inl
  · have hnot : ∀ n, it.bare ≠ .str n := by intro n hn; apply hs; simp [serItem, hn, serBare]
    rw [ofStr_serItem_other h hs, ← idOf_iff (by simp)]
    constructor
    · rintro (⟨n, hn, _⟩ | ⟨_, t, ht, _, hat, rfl⟩)
      · exact absurd hn (hnot n)
      · rw [(canonItem_iff.1 ht).2] at hat ⊢
        exact ⟨_, rfl, .field hat, .nil, by simp⟩
    · rintro ⟨n, hn, h2, h3, _⟩
      refine Or.inr ⟨hnot, serItem it, canonItem_iff.2 ⟨h, rfl⟩, hs, ?_⟩
      injection hn with hn; subst hn
      obtain ⟨nm, ps⟩ := i
      simp only at h2 h3
      cases h3
      generalize ht : serItem it = t at h2 ⊢
      cases h2 with
      | field hf => exact ⟨hf, rfl⟩
      | derived =>
        exfalso
        have hp := parseItemTop_ser h
        rw [ht] at hp
        rename_i d _
        have hno : parseItemTop (derivedText d).toList = none := by cases d <;> decide +kernel
        rw [hno] at hp; cases hp

end Verif
