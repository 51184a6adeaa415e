import Verif.Proofs.WireParams
import Mathlib.Data.List.Perm.Subperm
import Mathlib.Algebra.Order.Group.Nat
import Mathlib.Algebra.Order.BigOperators.Group.List
/-!
The weight of a text: the number of its characters other than `"`, `=` and space. No text of a structured field is lighter than the
canonical text of the value it denotes.
-/
namespace Verif
open Sfv Spec Grammar

/-- Characters other than `"`, `=` and space. -/
def wt (s : Str) : Nat := s.countP (fun c => c != '"' && c != '=' && c != ' ')

/-- Characters that are escaped in strings. -/
def specials (s : Str) : Nat := s.countP (fun c => c == '"' || c == '\\')

@[simp] theorem wt_nil : wt [] = 0 := rfl
@[simp] theorem wt_append (a b : Str) : wt (a ++ b) = wt a + wt b := List.countP_append
@[simp] theorem wt_quote (s : Str) : wt ('"' :: s) = wt s := by simp [wt]
@[simp] theorem wt_equal (s : Str) : wt ('=' :: s) = wt s := by simp [wt]
@[simp] theorem wt_space (s : Str) : wt (' ' :: s) = wt s := by simp [wt]
theorem wt_cons {c : Char} (h : c ≠ '"' ∧ c ≠ '=' ∧ c ≠ ' ') (s : Str) : wt (c :: s) = wt s + 1 := by simp [wt, h]
theorem wt_cons_le (c : Char) (s : Str) : wt (c :: s) ≤ wt s + 1 := by
  unfold wt; rw [List.countP_cons]; split <;> omega
theorem wt_le_cons (c : Char) (s : Str) : wt s ≤ wt (c :: s) := by
  unfold wt; rw [List.countP_cons]; split <;> omega
theorem wt_le (s : Str) : wt s ≤ s.length := List.countP_le_length

theorem specials_zero {s : Str} : specials s = 0 ↔ ∀ c ∈ s, c ≠ '"' ∧ c ≠ '\\' := by
  simp [specials, List.countP_eq_zero]

theorem wt_full {s : Str} (h : ∀ c ∈ s, c ≠ '"' ∧ c ≠ '=' ∧ c ≠ ' ') : wt s = s.length := by
  unfold wt; rw [List.countP_eq_length]; intro c hc; simp [h c hc]

theorem wt_digits {s : Str} (h : ∀ c ∈ s, Digit c) : wt s = s.length :=
  wt_full (fun c hc => by
    obtain ⟨h1, h2⟩ := h c hc
    exact ⟨by rintro rfl; revert h1; decide, by rintro rfl; revert h2; decide, by rintro rfl; revert h1; decide⟩)

theorem wt_natStr (n : Nat) : wt (natStr n) = (natStr n).length := wt_digits (natStr_digits n)

/-! ### Bare items -/

theorem wt_escStr (s : Str) : wt (escStr s) = wt s + specials s := by
  induction s with
  | nil => rfl
  | cons c t ih =>
    by_cases h1 : c = '"'
    · subst h1; simp [escStr, wt_cons, ih, specials]; omega
    by_cases h2 : c = '\\'
    · subst h2; simp [escStr, wt_cons, ih, specials]; omega
    · rw [escStr, if_neg (by simp [h1, h2])]
      have : specials (c :: t) = specials t := by simp [specials, h1, h2]
      rw [this]
      show wt ([c] ++ _) = wt ([c] ++ _) + _
      rw [wt_append, wt_append, ih]; omega

theorem stringBody_esc {s t : Str} (h : StringBody s t) : t = escStr s := by
  induction h with
  | nil => rfl
  | plain _ h1 h2 _ ih => rw [escStr, if_neg (by simp [h1, h2]), ih]
  | escaped h _ ih => rw [escStr, if_pos h, ih]

theorem natStr_min {ds : Str} (hl : 1 ≤ ds.length) {n : Nat} (hn : n < 10 ^ ds.length) :
    (natStr n).length ≤ ds.length := by
  obtain ⟨k, hk⟩ : ∃ k, ds.length = k + 1 := ⟨ds.length - 1, by omega⟩
  rw [hk] at hn ⊢
  exact natStr_length hn

theorem wt_int {lo hi : Nat} {neg : Bool} {ds : Str} (h : Digits (lo + 1) hi ds) :
    wt (serInt (signed neg (numeral ds))) ≤ wt (sign neg ++ ds) := by
  have h1 : numeral ds < 10 ^ ds.length := by rw [numeral_eq]; exact digitsVal_lt h.1
  have h2 : wt (natStr (numeral ds)) ≤ wt ds := by
    rw [wt_natStr, wt_digits h.1]; exact natStr_min (by have := h.2.1; omega) h1
  rw [wt_append]
  cases neg with
  | false => simpa [signed, sign, serInt] using h2
  | true =>
    simp only [signed, sign, if_true]
    cases hn : numeral ds with
    | zero => rw [hn] at h2; simp [serInt]; omega
    | succ k =>
      rw [hn] at h2
      have : (-((k + 1 : Nat) : Int)) = Int.negSucc k := rfl
      rw [this]
      simp only [serInt]
      rw [wt_cons (by decide), wt_cons (by decide)]
      simp; omega

theorem wt_serFrac (f : Nat) : wt (serFrac f) ≤ (serFrac f).length := wt_le _

theorem serFrac_min {fs : Str} (h : Digits 1 3 fs) :
    (serFrac (digitsVal fs * 10 ^ (3 - fs.length))).length ≤ fs.length := by
  obtain ⟨_, h1, h2⟩ := h
  generalize digitsVal fs = n
  have h3 : fs.length = 1 ∨ fs.length = 2 ∨ fs.length = 3 := by omega
  unfold serFrac
  rcases h3 with h3 | h3 | h3 <;> rw [h3]
  · rw [if_neg (by omega), if_neg (by omega)]; simp
  · rw [if_neg (by omega)]; split <;> simp
  · split
    · simp
    · split <;> simp

theorem wt_dec {neg : Bool} {ds fs : Str} (hd : Digits 1 12 ds) (hf : Digits 1 3 fs) :
    wt (serDec (signed neg (numeral (ds ++ fs ++ List.replicate (3 - fs.length) '0')))) ≤ wt (sign neg ++ ds ++ '.' :: fs) := by
  have hv : numeral (ds ++ fs ++ List.replicate (3 - fs.length) '0') = digitsVal ds * 1000 + digitsVal fs * 10 ^ (3 - fs.length) := by
    have hp : (10 : Nat) ^ fs.length * 10 ^ (3 - fs.length) = 1000 := by
      rw [← pow_add, show fs.length + (3 - fs.length) = 3 from by have := hf.2.2; omega]; rfl
    rw [numeral_eq, digitsVal_append, digitsVal_append, digitsVal_zeros, List.length_replicate, add_mul, mul_assoc, hp]; omega
  have hlt : digitsVal fs * 10 ^ (3 - fs.length) < 1000 := by
    have h1 := digitsVal_lt hf.1
    have h3 : fs.length = 1 ∨ fs.length = 2 ∨ fs.length = 3 := by have := hf.2; omega
    rcases h3 with h3 | h3 | h3 <;> rw [h3] at h1 ⊢ <;> omega
  rw [hv]
  generalize hg : digitsVal fs * 10 ^ (3 - fs.length) = g at hlt
  have e1 : (signed neg (digitsVal ds * 1000 + g)).natAbs / 1000 = digitsVal ds := by
    cases neg <;> simp [signed] <;> omega
  have e2 : (signed neg (digitsVal ds * 1000 + g)).natAbs % 1000 = g := by
    cases neg <;> simp [signed] <;> omega
  unfold serDec
  rw [e1, e2]
  have h2 : wt (natStr (digitsVal ds)) ≤ wt ds := by
    rw [wt_natStr, wt_digits hd.1]; exact natStr_min hd.2.1 (digitsVal_lt hd.1)
  have h3 : wt (serFrac g) ≤ wt fs := by
    rw [wt_digits hf.1, ← hg]; exact (wt_le _).trans (serFrac_min hf)
  have h4 : wt (if signed neg (digitsVal ds * 1000 + g) < 0 then ['-'] else []) ≤ wt (sign neg) := by
    cases neg with
    | false => rw [if_neg (by simp [signed]; omega)]; simp
    | true => simp only [sign, if_true]; split <;> simp
  simp only [wt_append]
  rw [wt_cons (by decide) fs, wt_cons (c := '.') (by decide) []]
  simp only [wt_nil]; omega

theorem wt_encode (b : Bytes) : wt (Base64.encode b) ≤ (4 * b.length + 2) / 3 := by
  induction b using Base64.encode.induct with
  | case1 => simp [Base64.encode]
  | case2 a =>
    simp only [Base64.encode]
    refine (wt_cons_le _ _).trans ?_
    have := wt_cons_le (Base64.encChar (a.toNat % 4 * 16)) ['=', '=']
    simp at this ⊢; omega
  | case3 a b =>
    simp only [Base64.encode]
    have h1 := wt_le (Base64.encode [a, b])
    simp only [Base64.encode] at h1
    have h2 := fun c d e => (wt_cons_le c (d :: e :: ['='])).trans (Nat.add_le_add_right ((wt_cons_le d (e :: ['='])).trans
      (Nat.add_le_add_right (wt_cons_le e ['=']) 1)) 1)
    refine (h2 _ _ _).trans ?_
    simp
  | case4 a b c t ih =>
    simp only [Base64.encode]
    have h2 := fun c d e f t => (wt_cons_le c (d :: e :: f :: t)).trans (Nat.add_le_add_right ((wt_cons_le d (e :: f :: t)).trans
      (Nat.add_le_add_right ((wt_cons_le e (f :: t)).trans (Nat.add_le_add_right (wt_cons_le f t) 1)) 1)) 1)
    refine (h2 _ _ _ _ _).trans ?_
    simp only [List.length_cons]; omega

theorem alphabet_full : ∀ v < 64, alphabet.getD v '?' ≠ '"' ∧ alphabet.getD v '?' ≠ '=' ∧ alphabet.getD v '?' ≠ ' ' := by decide

theorem wt_bytes {b : Bytes} {t : Str} (h : Base64Text b t) : wt (Base64.encode b) ≤ wt t := by
  obtain ⟨vs, k, h1, rfl, h2, h3, h4, _⟩ := h
  have h5 : wt (vs.map (fun v => alphabet.getD v '?')) = vs.length := by
    rw [wt_full, List.length_map]
    intro c hc
    obtain ⟨v, hv, rfl⟩ := List.mem_map.1 hc
    exact alphabet_full v (h1 v hv)
  rw [wt_append, h5]
  have := wt_encode b
  omega

theorem wt_disp {b : Bytes} {t : Str} (h : DisplayBody b t) : wt (escDisp b) ≤ wt t := by
  induction h with
  | nil => simp [escDisp]
  | @plain c b t hp h1 h2 _ ih =>
    have hc : (UInt8.ofNat c.toNat).toNat = c.toNat := by
      have := hp.2; rw [UInt8.toNat_ofNat_of_lt']; show c.toNat < 256; omega
    have e : escDisp (UInt8.ofNat c.toNat :: b) = c :: escDisp b := by
      simp only [escDisp]
      rw [hc, if_neg]
      · rw [Char.ofNat_toNat]
      · rintro (h | h | h | h)
        · exact h2 (Char.ext (UInt32.toNat_inj.1 h))
        · exact h1 (Char.ext (UInt32.toNat_inj.1 h))
        · have := hp.1; omega
        · have := hp.2; omega
    rw [e]
    show wt ([c] ++ _) ≤ wt ([c] ++ _)
    rw [wt_append, wt_append]; omega
  | @percent h l x y b t hh hl _ ih =>
    have hx : h ∈ hexDigits := List.mem_of_getElem? hh
    have hy : l ∈ hexDigits := List.mem_of_getElem? hl
    have hd : ∀ c ∈ hexDigits, c ≠ '"' ∧ c ≠ '=' ∧ c ≠ ' ' := by decide
    rw [wt_cons (by decide), wt_cons (hd h hx), wt_cons (hd l hy)]
    simp only [escDisp]
    split
    · have h2 := fun d e t => (wt_cons_le '%' (d :: e :: t)).trans (Nat.add_le_add_right ((wt_cons_le d (e :: t)).trans
        (Nat.add_le_add_right (wt_cons_le e t) 1)) 1)
      refine (h2 _ _ _).trans ?_
      omega
    · exact (wt_cons_le _ _).trans (by omega)

theorem wt_bare {b : Bare} {t : Str} (h : BareText b t) : wt (serBare b) ≤ wt t := by
  cases h with
  | int h => exact wt_int h
  | dec h1 h2 => exact wt_dec h1 h2
  | str h => rw [stringBody_esc h]; simp [serBare]
  | tok => exact le_refl _
  | bytes h =>
    have := wt_bytes h
    simp only [serBare, List.cons_append]
    rw [wt_cons (by decide), wt_cons (by decide)]
    simp; omega
  | yes => exact le_refl _
  | no => exact le_refl _
  | @date neg _ h =>
    have := wt_int (neg := neg) h
    simp only [serBare, List.cons_append]
    rw [wt_cons (by decide), wt_cons (by decide)]
    omega
  | disp h _ =>
    have := wt_disp h
    simp only [serBare, List.cons_append]
    rw [wt_cons (c := '%') (by decide), wt_cons (c := '%') (by decide)]
    simp; omega

/-! ### Parameters -/

/-- The weight of a list of parameters, written canonically one after the other. -/
def pwt (l : List (Str × Bare)) : Nat := (l.map (fun kv => wt (serParam kv))).sum

theorem wt_serParams (l : List (Str × Bare)) : wt (serParams l) = pwt l := by
  induction l with
  | nil => rfl
  | cons a t ih =>
    show wt (serParam a ++ serParams t) = _
    rw [wt_append, ih]; simp [pwt]

theorem wt_params {raw : List (Str × Bare)} {p : Str} (h : ParamsText raw p) : pwt raw ≤ wt p := by
  induction h with
  | nil => simp [pwt]
  | @flag n k ps t hk _ ih =>
    simp only [pwt, List.map_cons, List.sum_cons, serParam, if_true, List.append_nil, List.cons_append] at ih ⊢
    rw [wt_cons (by decide), wt_cons (by decide)]
    simp; omega
  | @value n k v b ps t hk hb _ ih =>
    have hb := wt_bare hb
    simp only [pwt, List.map_cons, List.sum_cons, serParam, List.cons_append, List.append_assoc] at ih ⊢
    rw [wt_cons (by decide), wt_cons (by decide)]
    have : wt (if v = .bool true then [] else '=' :: serBare v) ≤ wt (serBare v) := by split <;> simp
    simp only [wt_append, wt_equal]; omega

theorem pwt_mono {a b : List (Str × Bare)} (hn : a.Nodup) (h : ∀ x ∈ a, x ∈ b) : pwt a ≤ pwt b := by
  obtain ⟨c, h1, h2⟩ := List.Nodup.subperm hn h
  have h3 : pwt c = pwt a := (h1.map _).sum_eq
  rw [← h3]
  exact (h2.map _).sum_le_sum (fun _ _ => Nat.zero_le _)

theorem lookup_mem' {α : Type} {m : List (Str × α)} {k : Str} {v : α} (h : m.lookup k = some v) : (k, v) ∈ m := by
  induction m with
  | nil => cases h
  | cons a t ih =>
    obtain ⟨k', v'⟩ := a
    rw [List.lookup_cons] at h
    split at h
    · rename_i hk
      have := eq_of_beq hk
      injection h with h; subst h this; simp
    · exact List.mem_cons_of_mem _ (ih h)

theorem lookup_of_mem {α : Type} {m : List (Str × α)} {k : Str} {v : α} (hn : (m.map Prod.fst).Nodup) (h : (k, v) ∈ m) :
    m.lookup k = some v := by
  induction m with
  | nil => cases h
  | cons a t ih =>
    obtain ⟨k', v'⟩ := a
    rw [List.map_cons, List.nodup_cons] at hn
    rw [List.lookup_cons]
    rcases List.mem_cons.1 h with h1 | h1
    · injection h1 with h1 h2; subst h1 h2; simp
    · have : (k == k') = false := by
        apply beq_false_of_ne
        rintro rfl
        exact hn.1 (List.mem_map.2 ⟨(k, v), h1, rfl⟩)
      rw [this]; exact ih hn.2 h1

theorem mapOf_nodup {α : Type} {l m : List (Str × α)} (h : MapOf l m) : (m.map Prod.fst).Nodup := by
  rw [h.1]; exact firsts_nodup _

theorem mapOf_sub {α : Type} {l m : List (Str × α)} (h : MapOf l m) : ∀ x ∈ m, x ∈ l := by
  rintro ⟨k, v⟩ hx
  have := lookup_of_mem (mapOf_nodup h) hx
  rw [h.2] at this
  exact List.mem_reverse.1 (lookup_mem' this)

theorem wt_map {raw : List (Str × Bare)} {ps : Params} {p : Str} (h : ParamsText raw p) (hm : MapOf raw ps) :
    wt (serParams ps) ≤ wt p := by
  rw [wt_serParams]
  exact (pwt_mono ((List.Pairwise.of_map Prod.fst (fun a b hab e => hab (by rw [e])) (mapOf_nodup hm))) (mapOf_sub hm)).trans (wt_params h)

/-! ### Items and entries -/

theorem wt_item {i : Item} {t : Str} (h : ItemText i t) : wt (serItem i) ≤ wt t := by
  obtain ⟨raw, b, p, h1, h2, h3, rfl⟩ := h
  have := wt_bare h1
  have := wt_map h2 h3
  simp only [serItem, wt_append]; omega

theorem wt_items {is : List Item} {t : Str} (h : ItemsText is t) : wt (join [' '] (is.map serItem)) ≤ wt t := by
  induction h with
  | nil => simp
  | one h => have := wt_item h; simp; omega
  | @cons n i j is t u h _ ih =>
    have := wt_item h
    rw [List.map_cons, join_cons _ _ (by simp)]
    simp only [wt_append, List.append_assoc]
    simp only [wt_space, wt_nil]; omega

theorem wt_inner {l : InnerList} {t : Str} (h : EntryText (.inner l) t) : wt (serInner l) ≤ wt t := by
  cases h with
  | inner h1 h2 h3 =>
    have := wt_items h1
    have := wt_map h2 h3
    simp only [serInner, List.cons_append]
    rw [wt_cons (by decide), wt_cons (by decide)]
    simp only [wt_append]
    rw [wt_cons (by decide), wt_cons (by decide)]
    omega

theorem wt_entry {e : Entry} {t : Str} (h : EntryText e t) : wt (serEntry e) ≤ wt t := by
  cases e with
  | item i => cases h with | item h => exact wt_item h
  | inner l => exact wt_inner h

theorem wt_member {x : Str × Entry} {t : Str} (h : MemberText x t) : wt (serMember x) ≤ wt t := by
  cases h with
  | @value k e t hk h =>
    have := wt_entry h
    by_cases he : ∃ p, e = .item ⟨.bool true, p⟩
    · obtain ⟨p, rfl⟩ := he
      rw [serMember_true]
      simp only [serEntry, serItem, wt_append, wt_equal] at this ⊢; omega
    · rw [serMember_other _ (fun p hp => he ⟨p, hp⟩)]
      simp only [wt_append, wt_equal]; omega
  | flag hk h hm =>
    rw [serMember_true]
    have := wt_map h hm
    simp only [wt_append]; omega

/-- The weight of a list of members, written canonically one after the other. -/
def mwt (l : List (Str × Entry)) : Nat := (l.map (fun x => wt (serMember x))).sum

theorem wt_members {l : List (Str × Entry)} {t : Str} (h : SepText MemberText l t) : mwt l + (l.length - 1) ≤ wt t := by
  induction h with
  | one h => have := wt_member h; simp [mwt]; omega
  | @cons x xs t u a b h _ _ h2 ih =>
    have := wt_member h
    have hx : xs ≠ [] := by cases h2 <;> simp
    have := List.length_pos_iff.2 hx
    simp only [wt_append, List.append_assoc, List.cons_append]
    rw [wt_cons (by decide)]
    simp only [mwt, List.map_cons, List.sum_cons, List.length_cons, wt_append] at ih ⊢; omega

theorem mwt_mono {a b : List (Str × Entry)} (hn : a.Nodup) (h : ∀ x ∈ a, x ∈ b) : mwt a ≤ mwt b ∧ a.length ≤ b.length := by
  obtain ⟨c, h1, h2⟩ := List.Nodup.subperm hn h
  have h3 : mwt c = mwt a := (h1.map _).sum_eq
  rw [← h3, ← h1.length_eq]
  exact ⟨(h2.map _).sum_le_sum (fun _ _ => Nat.zero_le _), h2.length_le⟩

theorem wt_dict {d : Dict} {s : Str} (h : DictText d s) : mwt d + (d.length - 1) ≤ wt s := by
  obtain ⟨raw, h1, h2⟩ := h
  obtain ⟨h3, h4⟩ := mwt_mono (List.Pairwise.of_map Prod.fst (fun a b hab e => hab (by rw [e])) (mapOf_nodup h2)) (mapOf_sub h2)
  rcases h1 with ⟨rfl, n, rfl⟩ | ⟨n, t, a, ht, _, rfl⟩
  · simp [mwt] at h3 h4 ⊢; subst h4; simp
  · have := wt_members ht
    simp only [wt_append]; omega

end Verif
