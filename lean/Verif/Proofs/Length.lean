import Verif.Proofs.Weight
/-!
Lengths: the canonical text of a structured field is at most twice as long as any text of the same value.
-/
namespace Verif
open Sfv Spec Grammar

theorem len_int {lo hi : Nat} {neg : Bool} {ds : Str} (h : Digits (lo + 1) hi ds) :
    (serInt (signed neg (numeral ds))).length ≤ (sign neg ++ ds).length := by
  have h1 : numeral ds < 10 ^ ds.length := by rw [numeral_eq]; exact digitsVal_lt h.1
  have h2 := natStr_min (by have := h.2.1; omega) h1
  rw [List.length_append]
  cases neg with
  | false => simpa [signed, sign, serInt] using h2
  | true =>
    simp only [signed, sign, if_true]
    cases hn : numeral ds with
    | zero => rw [hn] at h2; simp [serInt]; omega
    | succ k =>
      rw [hn] at h2
      have : (-((k + 1 : Nat) : Int)) = Int.negSucc k := rfl
      rw [this]
      simp [serInt]; omega

theorem len_dec {neg : Bool} {ds fs : Str} (hd : Digits 1 12 ds) (hf : Digits 1 3 fs) :
    (serDec (signed neg (numeral (ds ++ fs ++ List.replicate (3 - fs.length) '0')))).length ≤ (sign neg ++ ds ++ '.' :: fs).length := by
  have hv : numeral (ds ++ fs ++ List.replicate (3 - fs.length) '0') = digitsVal ds * 1000 + digitsVal fs * 10 ^ (3 - fs.length) := by
    have hp : (10 : Nat) ^ fs.length * 10 ^ (3 - fs.length) = 1000 := by
      rw [← pow_add, show fs.length + (3 - fs.length) = 3 from by have := hf.2.2; omega]; rfl
    rw [numeral_eq, digitsVal_append, digitsVal_append, digitsVal_zeros, List.length_replicate, add_mul, mul_assoc, hp]; omega
  have hlt : digitsVal fs * 10 ^ (3 - fs.length) < 1000 := by
    have h1 := digitsVal_lt hf.1
    have h3 : fs.length = 1 ∨ fs.length = 2 ∨ fs.length = 3 := by have := hf.2; omega
    rcases h3 with h3 | h3 | h3 <;> rw [h3] at h1 ⊢ <;> omega
  rw [hv]
  generalize hg : digitsVal fs * 10 ^ (3 - fs.length) = g at hlt
  have e1 : (signed neg (digitsVal ds * 1000 + g)).natAbs / 1000 = digitsVal ds := by
    cases neg <;> simp [signed] <;> omega
  have e2 : (signed neg (digitsVal ds * 1000 + g)).natAbs % 1000 = g := by
    cases neg <;> simp [signed] <;> omega
  unfold serDec
  rw [e1, e2]
  have h2 := natStr_min hd.2.1 (digitsVal_lt hd.1)
  have h3 : (serFrac g).length ≤ fs.length := by rw [← hg]; exact serFrac_min hf
  have h4 : (if signed neg (digitsVal ds * 1000 + g) < 0 then ['-'] else []).length ≤ (sign neg).length := by
    cases neg with
    | false => rw [if_neg (by simp [signed]; omega)]; simp
    | true => simp only [sign, if_true]; split <;> simp
  simp only [List.length_append, List.length_cons, List.length_nil] at h4 ⊢
  omega

theorem len_encode (b : Bytes) : (Base64.encode b).length = (b.length + 2) / 3 * 4 := by
  induction b using Base64.encode.induct with
  | case1 => rfl
  | case2 a => simp [Base64.encode]
  | case3 a b => simp [Base64.encode]
  | case4 a b c t ih => simp only [Base64.encode, List.length_cons, ih]; omega

theorem len_bytes {b : Bytes} {t : Str} (h : Base64Text b t) : (Base64.encode b).length ≤ t.length + 2 := by
  obtain ⟨vs, k, _, rfl, h2, _, h4, _⟩ := h
  rw [len_encode, List.length_append, List.length_map]
  omega

theorem len_disp {b : Bytes} {t : Str} (h : DisplayBody b t) : (escDisp b).length ≤ t.length := by
  induction h with
  | nil => simp [escDisp]
  | @plain c b t hp h1 h2 _ ih =>
    have hc : (UInt8.ofNat c.toNat).toNat = c.toNat := by
      have := hp.2; rw [UInt8.toNat_ofNat_of_lt']; show c.toNat < 256; omega
    have e : escDisp (UInt8.ofNat c.toNat :: b) = c :: escDisp b := by
      simp only [escDisp]
      rw [hc, if_neg]
      · rw [Char.ofNat_toNat]
      · rintro (h | h | h | h)
        · exact h2 (Char.ext (UInt32.toNat_inj.1 h))
        · exact h1 (Char.ext (UInt32.toNat_inj.1 h))
        · have := hp.1; omega
        · have := hp.2; omega
    rw [e]
    simp; omega
  | percent hh hl _ ih =>
    simp only [escDisp]
    split <;> simp <;> omega

theorem len_bare {b : Bare} {t : Str} (h : BareText b t) : (serBare b).length ≤ 2 * t.length := by
  cases h with
  | @int neg _ h => have := len_int (neg := neg) h; simp only [serBare]; omega
  | @dec neg _ _ h1 h2 => have := len_dec (neg := neg) h1 h2; simp only [serBare]; omega
  | str h => rw [stringBody_esc h]; simp [serBare]
  | tok => simp [serBare]; omega
  | bytes h => have := len_bytes h; simp [serBare]; omega
  | yes => simp [serBare]
  | no => simp [serBare]
  | @date neg _ h => have := len_int (neg := neg) h; simp [serBare] at this ⊢; omega
  | disp h _ => have := len_disp h; simp [serBare]; omega

/-- The length of a list of parameters, written canonically. -/
def plen (l : List (Str × Bare)) : Nat := (l.map (fun kv => (serParam kv).length)).sum

theorem len_serParams (l : List (Str × Bare)) : (serParams l).length = plen l := by
  induction l with
  | nil => rfl
  | cons a t ih =>
    show (serParam a ++ serParams t).length = _
    rw [List.length_append, ih]; simp [plen]

theorem len_params {raw : List (Str × Bare)} {p : Str} (h : ParamsText raw p) : plen raw ≤ 2 * p.length := by
  induction h with
  | nil => simp [plen]
  | flag _ _ ih => simp [plen, serParam, sp] at ih ⊢; omega
  | @value n k v b ps t _ hb _ ih =>
    have hb := len_bare hb
    have : (if v = .bool true then [] else '=' :: serBare v).length ≤ (serBare v).length + 1 := by split <;> simp
    simp [plen, serParam, sp] at ih this ⊢; omega

theorem plen_mono {a b : List (Str × Bare)} (hn : a.Nodup) (h : ∀ x ∈ a, x ∈ b) : plen a ≤ plen b := by
  obtain ⟨c, h1, h2⟩ := List.Nodup.subperm hn h
  have h3 : plen c = plen a := (h1.map _).sum_eq
  rw [← h3]
  exact (h2.map _).sum_le_sum (fun _ _ => Nat.zero_le _)

theorem mapOf_pairs_nodup {α : Type} {l m : List (Str × α)} (h : MapOf l m) : m.Nodup :=
  List.Pairwise.of_map Prod.fst (fun _ _ hab e => hab (by rw [e])) (mapOf_nodup h)

theorem len_map {raw : List (Str × Bare)} {ps : Params} {p : Str} (h : ParamsText raw p) (hm : MapOf raw ps) :
    (serParams ps).length ≤ 2 * p.length := by
  rw [len_serParams]
  exact (plen_mono (mapOf_pairs_nodup hm) (mapOf_sub hm)).trans (len_params h)

theorem len_item {i : Item} {t : Str} (h : ItemText i t) : (serItem i).length ≤ 2 * t.length := by
  obtain ⟨raw, b, p, h1, h2, h3, rfl⟩ := h
  have := len_bare h1
  have := len_map h2 h3
  simp only [serItem, List.length_append]; omega

theorem len_items {is : List Item} {t : Str} (h : ItemsText is t) : (join [' '] (is.map serItem)).length ≤ 2 * t.length := by
  induction h with
  | nil => simp
  | one h => have := len_item h; simp; omega
  | @cons n i j is t u h _ ih =>
    have := len_item h
    rw [List.map_cons, join_cons _ _ (by simp)]
    simp only [List.length_append, List.length_cons, List.length_nil] at ih ⊢; omega

theorem len_entry {e : Entry} {t : Str} (h : EntryText e t) : (serEntry e).length ≤ 2 * t.length := by
  cases h with
  | item h => exact len_item h
  | inner h1 h2 h3 =>
    have := len_items h1
    have := len_map h2 h3
    simp [serEntry, serInner] at *; omega

theorem len_member {x : Str × Entry} {t : Str} (h : MemberText x t) : (serMember x).length ≤ 2 * t.length := by
  cases h with
  | @value k e t hk h =>
    have := len_entry h
    by_cases he : ∃ p, e = .item ⟨.bool true, p⟩
    · obtain ⟨p, rfl⟩ := he
      rw [serMember_true]
      simp [serEntry, serItem] at this ⊢; omega
    · rw [serMember_other _ (fun p hp => he ⟨p, hp⟩)]
      simp; omega
  | flag hk h hm =>
    rw [serMember_true]
    have := len_map h hm
    simp; omega

/-- The length of the members of a list or dictionary, written canonically, with two characters after each but the last. -/
def total {α : Type} (f : α → Str) (l : List α) : Nat := (l.map (fun x => (f x).length)).sum + 2 * (l.length - 1)

theorem len_join {α : Type} (f : α → Str) (l : List α) : (join [',', ' '] (l.map f)).length = total f l := by
  induction l with
  | nil => rfl
  | cons a t ih =>
    by_cases ht : t = []
    · subst ht; simp [total]
    · have := List.length_pos_iff.2 ht
      rw [List.map_cons, join_cons _ _ (by simp [ht]), List.length_append, List.length_append, ih]
      simp [total]; omega

theorem len_sep {α : Type} {T : α → Str → Prop} {f : α → Str} (hT : ∀ x t, T x t → (f x).length ≤ 2 * t.length) {l : List α} {t : Str}
    (h : SepText T l t) : total f l ≤ 2 * t.length := by
  induction h with
  | one h => have := hT _ _ h; simp [total]; omega
  | @cons x xs t u a b h _ _ h2 ih =>
    have := hT _ _ h
    have hx : xs ≠ [] := by cases h2 <;> simp
    have := List.length_pos_iff.2 hx
    simp [total] at ih ⊢; omega

theorem len_field {α : Type} {T : α → Str → Prop} {f : α → Str} (hT : ∀ x t, T x t → (f x).length ≤ 2 * t.length) {l : List α} {s : Str}
    (h : FieldText T l s) : total f l ≤ 2 * s.length := by
  rcases h with ⟨rfl, n, rfl⟩ | ⟨n, t, a, ht, _, rfl⟩
  · simp [total]
  · have := len_sep hT ht
    simp only [List.length_append]; omega

theorem len_list {l : SList} {s : Str} (h : ListText l s) : total serEntry l ≤ 2 * s.length := len_field (T := EntryText) (fun _ _ => len_entry) h

theorem len_dict {d : Dict} {s : Str} (h : DictText d s) : total serMember d ≤ 2 * s.length := by
  obtain ⟨raw, h1, h2⟩ := h
  have h3 := len_field (f := serMember) (fun _ _ => len_member) h1
  obtain ⟨c, h4, h5⟩ := List.Nodup.subperm (mapOf_pairs_nodup h2) (mapOf_sub h2)
  have h6 := h4.length_eq
  have h7 := h5.length_le
  have h8 : (c.map (fun x => (serMember x).length)).sum = (d.map (fun x => (serMember x).length)).sum := (h4.map _).sum_eq
  have h9 : (c.map (fun x => (serMember x).length)).sum ≤ (raw.map (fun x => (serMember x).length)).sum :=
    (h5.map _).sum_le_sum (fun _ _ => Nat.zero_le _)
  unfold total at h3 ⊢
  omega

end Verif
