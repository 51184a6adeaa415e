import Verif.Proofs.SfvLegal
import Verif.Proofs.Base64Lenient
import Mathlib.Data.List.Induction
/-! The structured field parser reads exactly the grammar of `Spec/Grammar.lean`. -/
namespace Verif.Sfv
open Spec Grammar

/-! ### Numbers -/

theorem numeral_eq (ds : Str) : numeral ds = digitsVal ds := by
  induction ds using List.reverseRecOn with
  | nil => rfl
  | append_singleton t c ih =>
    unfold numeral digitsVal at *
    rw [List.reverse_append, List.foldl_append]
    simp only [List.reverse_cons, List.reverse_nil, List.nil_append, List.map_append, List.map_cons, List.map_nil,
      List.foldl_cons, List.foldl_nil]
    rw [List.singleton_append, Nat.ofDigits_cons, ih]
    omega

theorem digitsVal_append (a b : Str) : digitsVal (a ++ b) = digitsVal a * 10 ^ b.length + digitsVal b := by
  induction b using List.reverseRecOn with
  | nil => simp [digitsVal]
  | append_singleton t c ih =>
    rw [← List.append_assoc]
    have e : ∀ x : Str, digitsVal (x ++ [c]) = digitsVal x * 10 + (c.toNat - 48) := by
      intro x; simp [digitsVal, List.foldl_append]
    rw [e, e, ih]
    simp only [List.length_append, List.length_cons, List.length_nil, Nat.zero_add, Nat.pow_succ]
    rw [Nat.add_mul, Nat.mul_assoc]; omega

theorem digitsVal_zeros (n : Nat) : digitsVal (List.replicate n '0') = 0 := by
  induction n with
  | zero => rfl
  | succ n ih =>
    rw [List.replicate_succ', digitsVal_append, ih]; rfl

theorem thousandths {ds fs : Str} (h : fs.length ≤ 3) :
    numeral (ds ++ fs ++ List.replicate (3 - fs.length) '0') = digitsVal ds * 1000 + digitsVal fs * 10 ^ (3 - fs.length) := by
  rw [numeral_eq, digitsVal_append, digitsVal_append, digitsVal_zeros, List.length_replicate, Nat.add_mul, Nat.mul_assoc,
    ← Nat.pow_add]
  have : fs.length + (3 - fs.length) = 3 := by omega
  rw [this]; simp

theorem digits_isDig {lo hi : Nat} {ds : Str} (h : Digits lo hi ds) : ∀ c ∈ ds, isDig c = true :=
  fun c hc => isDig_iff.2 (h.1 c hc)

theorem digits_ne {lo hi : Nat} {ds : Str} (h : Digits (lo + 1) hi ds) : ds ≠ [] := by
  intro e; subst e; have := h.2.1; simp at this

/-- What a number looks like. -/
inductive NumText : Bare → Str → Prop where
  | int {neg ds} : Digits 1 15 ds → NumText (.int (signed neg (numeral ds))) (sign neg ++ ds)
  | dec {neg ds fs} : Digits 1 12 ds → Digits 1 3 fs →
      NumText (.dec (signed neg (numeral (ds ++ fs ++ List.replicate (3 - fs.length) '0')))) (sign neg ++ ds ++ '.' :: fs)

theorem NumText.bare {b : Bare} {t : Str} (h : NumText b t) : BareText b t := by
  cases h with
  | int h => exact .int h
  | dec h h' => exact .dec h h'

theorem parseNum_of {b : Bare} {t r : Str} (h : NumText b t) (hr : Stop r) : parseNum (t ++ r) = some (b, r) := by
  cases h with
  | @int neg ds h =>
    have hu := fun n => parseUNum_int (neg := n) (digits_isDig h) (digits_ne h) h.2.2 hr
    cases neg with
    | true =>
      show parseNum ('-' :: (ds ++ r)) = _
      rw [parseNum_minus, hu, numeral_eq]; simp [signed]
    | false =>
      show parseNum (ds ++ r) = _
      rw [parseNum_nonneg (digits_isDig h) (digits_ne h), hu, numeral_eq]; simp [signed]
  | @dec neg ds fs h h' =>
    have hu := fun n => parseUNum_dec (neg := n) (digits_isDig h) (digits_ne h) h.2.2 (digits_isDig h') (digits_ne h') h'.2.2 hr
    rw [thousandths h'.2.2]
    cases neg with
    | true =>
      have e : sign true ++ ds ++ '.' :: fs ++ r = '-' :: (ds ++ '.' :: (fs ++ r)) := by simp [sign]
      rw [e, parseNum_minus, hu]; simp [signed]
    | false =>
      have e : sign false ++ ds ++ '.' :: fs ++ r = ds ++ '.' :: (fs ++ r) := by simp [sign]
      rw [e, parseNum_nonneg (digits_isDig h) (digits_ne h), hu]; simp [signed]

theorem parseUNum_text {neg : Bool} {s r : Str} {b : Bare} (h : parseUNum neg s = some (b, r)) :
    (∃ ds, Digits 1 15 ds ∧ b = .int (signed neg (numeral ds)) ∧ s = ds ++ r) ∨
    (∃ ds fs, Digits 1 12 ds ∧ Digits 1 3 fs ∧
      b = .dec (signed neg (numeral (ds ++ fs ++ List.replicate (3 - fs.length) '0'))) ∧ s = ds ++ '.' :: fs ++ r) := by
  unfold parseUNum at h
  simp only at h
  have hall : ∀ (s : Str), ∀ c ∈ s.takeWhile isDig, Digit c := fun s c hc => isDig_iff.1 (takeWhile_all c hc)
  have hpos : ∀ l : Str, l ≠ [] → 1 ≤ l.length := fun l hl => by
    cases l with
    | nil => exact absurd rfl hl
    | cons _ _ => simp
  split at h
  · cases h
  rename_i hne
  split at h
  · rename_i r' heq
    split at h
    · cases h
    rename_i hc
    simp only [not_or, Nat.not_lt] at hc
    injection h with h; injection h with h1 h2; subst h1 h2
    right
    refine ⟨s.takeWhile isDig, r'.takeWhile isDig, ⟨hall s, hpos _ hne, hc.1⟩, ⟨hall r', hpos _ hc.2.1, hc.2.2⟩, ?_, ?_⟩
    · rw [thousandths hc.2.2]; simp [signed]
    · have : s = s.takeWhile isDig ++ s.dropWhile isDig := by simp
      rw [heq] at this
      simpa using this
  · split at h
    · cases h
    rename_i hc
    injection h with h; injection h with h1 h2; subst h1 h2
    left
    refine ⟨s.takeWhile isDig, ⟨hall s, hpos _ hne, by omega⟩, ?_, by simp⟩
    rw [numeral_eq]; simp [signed]

theorem parseNum_text {s r : Str} {b : Bare} (h : parseNum s = some (b, r)) : ∃ t, NumText b t ∧ s = t ++ r := by
  unfold parseNum at h
  split at h
  · rename_i t
    rcases parseUNum_text h with ⟨ds, h1, rfl, rfl⟩ | ⟨ds, fs, h1, h2, rfl, rfl⟩
    · exact ⟨_, NumText.int (neg := true) h1, by simp [sign]⟩
    · exact ⟨_, NumText.dec (neg := true) h1 h2, by simp [sign]⟩
  · rcases parseUNum_text h with ⟨ds, h1, rfl, rfl⟩ | ⟨ds, fs, h1, h2, rfl, rfl⟩
    · exact ⟨_, NumText.int (neg := false) h1, by simp [sign]⟩
    · exact ⟨_, NumText.dec (neg := false) h1 h2, by simp [sign]⟩

theorem numText_head {b : Bare} {t : Str} (h : NumText b t) : ∃ c u, t = c :: u ∧ (c = '-' ∨ isDig c = true) := by
  have key : ∀ (neg : Bool) (ds v : Str), Digits 1 15 ds → ∃ c u, sign neg ++ ds ++ v = c :: u ∧ (c = '-' ∨ isDig c = true) := by
    intro neg ds v hd
    cases neg with
    | true => exact ⟨'-', ds ++ v, by simp [sign], Or.inl rfl⟩
    | false =>
      cases ds with
      | nil => exact absurd rfl (digits_ne hd)
      | cons c u => exact ⟨c, u ++ v, by simp [sign], Or.inr (digits_isDig hd c (by simp))⟩
  cases h with
  | @int neg ds h => simpa using key neg ds [] h
  | @dec neg ds fs h h' => exact key neg ds _ ⟨h.1, h.2.1, by have := h.2.2; omega⟩

/-! ### Strings -/

theorem parseStrBody_of {s t : Str} (h : StringBody s t) (r : Str) : parseStrBody (t ++ '"' :: r) = some (s, r) := by
  induction h with
  | nil => rw [parseStrBody.eq_def]; simp
  | @plain c s t hp h1 h2 _ ih =>
    rw [List.cons_append, parseStrBody.eq_def]
    simp only
    rw [if_neg h1, if_neg h2, if_pos (isVisible_iff.2 hp), ih]
  | @escaped c s t hc _ ih =>
    rw [List.cons_append, List.cons_append, parseStrBody.eq_def]
    simp only
    rw [if_neg (by decide), if_pos trivial, if_pos hc, ih]

theorem parseStrBody_text : ∀ (u s r : Str), parseStrBody u = some (s, r) → ∃ t, StringBody s t ∧ u = t ++ '"' :: r
  | [], s, r, h => by simp [parseStrBody] at h
  | c :: u, s, r, h => by
    rw [parseStrBody.eq_def] at h
    simp only at h
    split at h
    · rename_i hc
      injection h with h; injection h with h1 h2; subst h1 h2 hc
      exact ⟨[], .nil, rfl⟩
    rename_i hq
    split at h
    · rename_i hc; subst hc
      match u, h with
      | [], h => simp at h
      | d :: t', h =>
        simp only at h
        split at h
        · rename_i hd
          split at h
          · rename_i x1 r1 hb
            injection h with h; injection h with h1 h2; subst h1 h2
            obtain ⟨t, ht, e⟩ := parseStrBody_text _ _ _ hb
            exact ⟨_, .escaped hd ht, by rw [e]; rfl⟩
          · cases h
        · cases h
    rename_i hb
    split at h
    · rename_i hv
      split at h
      · rename_i b1 r1 hp
        injection h with h; injection h with h1 h2; subst h1 h2
        obtain ⟨t, ht, e⟩ := parseStrBody_text _ _ _ hp
        exact ⟨_, .plain (isVisible_iff.1 hv) hq hb ht, by rw [e]; rfl⟩
      · cases h
    · cases h

/-! ### Display strings -/

theorem hexVal_iff {c : Char} {x : Nat} : hexVal c = some x ↔ hexDigits[x]? = some c := by
  have h1 : ∀ n < 128, ∀ x ∈ (hexVal (Char.ofNat n)).toList, hexDigits[x]? = some (Char.ofNat n) := by decide
  have h2 : ∀ x < 16, ∀ c ∈ (hexDigits[x]?).toList, hexVal c = some x := by decide
  constructor
  · intro h
    have hn : c.toNat < 128 := by
      unfold hexVal at h
      split at h
      · rename_i hd
        have := (isDig_iff.1 hd).2
        have : c.toNat ≤ 57 := this
        omega
      · split at h
        · rename_i hd
          have : c.toNat ≤ 102 := hd.2
          omega
        · cases h
    have := h1 c.toNat hn x (by rw [Char.ofNat_toNat, h]; simp)
    rwa [Char.ofNat_toNat] at this
  · intro h
    have hx : x < 16 := by
      have := List.getElem?_eq_some_iff.1 h
      exact this.1
    exact h2 x hx c (by rw [h]; simp)

theorem parseDispBody_of {b : Bytes} {t : Str} (h : DisplayBody b t) (r : Str) :
    parseDispBody (t ++ '"' :: r) = some (b, r) := by
  induction h with
  | nil => rw [parseDispBody.eq_def]; simp
  | @plain c s t hp h1 h2 _ ih =>
    rw [List.cons_append, parseDispBody.eq_def]
    simp only
    rw [if_neg h1, if_neg h2, if_pos (isVisible_iff.2 hp), ih]
  | @percent hc lc x y s t hx hy _ ih =>
    rw [List.cons_append, List.cons_append, List.cons_append, parseDispBody.eq_def]
    simp only
    rw [if_neg (by decide), if_pos trivial, hexVal_iff.2 hx, hexVal_iff.2 hy, ih]
    simp only
    rw [Nat.mul_comm]

theorem parseDispBody_text : ∀ (u : Str) (b : Bytes) (r : Str), parseDispBody u = some (b, r) →
    ∃ t, DisplayBody b t ∧ u = t ++ '"' :: r
  | [], s, r, h => by simp [parseDispBody] at h
  | c :: u, s, r, h => by
    rw [parseDispBody.eq_def] at h
    simp only at h
    split at h
    · rename_i hc
      injection h with h; injection h with h1 h2; subst h1 h2 hc
      exact ⟨[], .nil, rfl⟩
    rename_i hq
    split at h
    · rename_i hc; subst hc
      match u, h with
      | [], h => simp at h
      | [_], h => simp at h
      | hc :: lc :: t', h =>
        simp only at h
        split at h
        · rename_i x y b1 r1 hx hy hb
          injection h with h; injection h with h1 h2; subst h1 h2
          obtain ⟨t, ht, e⟩ := parseDispBody_text _ _ _ hb
          have hp := DisplayBody.percent (hexVal_iff.1 hx) (hexVal_iff.1 hy) ht
          rw [Nat.mul_comm] at hp
          exact ⟨_, hp, by rw [e]; rfl⟩
        · cases h
    rename_i hb
    split at h
    · rename_i hv
      split at h
      · rename_i b1 r1 hp
        injection h with h; injection h with h1 h2; subst h1 h2
        obtain ⟨t, ht, e⟩ := parseDispBody_text _ _ _ hp
        exact ⟨_, .plain (isVisible_iff.1 hv) hq hb ht, by rw [e]; rfl⟩
      · cases h
    · cases h

theorem validUtf8_iff (b : Bytes) : validUtf8 b = true ↔ ∃ s : Str, b = utf8 s := by
  unfold validUtf8
  rw [ByteArray.isSome_utf8Decode?_iff]
  constructor
  · rintro ⟨m, h⟩
    refine ⟨m, ?_⟩
    rw [utf8_eq_encode, ← h]
  · rintro ⟨s, h⟩
    rw [utf8_eq_encode] at h
    refine ⟨s, ?_⟩
    rw [h]

/-! ### Byte sequences -/

theorem base64Text_no_colon {b : Bytes} {t : Str} (h : Base64Text b t) : ':' ∉ t := by
  obtain ⟨vs, k, h1, rfl, _⟩ := h
  rw [Base64.enc_map h1]
  intro hm
  rcases List.mem_append.1 hm with hm | hm
  · obtain ⟨v, hv, e⟩ := List.mem_map.1 hm
    exact Base64.encChar_ne_colon v (h1 v hv) e
  · have := List.eq_of_mem_replicate hm
    revert this; decide

theorem parseBytesBody_of {b : Bytes} {t : Str} (h : Base64Text b t) (r : Str) :
    parseBytesBody (t ++ ':' :: r) = some (b, r) := by
  unfold parseBytesBody
  rw [splitOnce_append _ (base64Text_no_colon h)]
  simp only
  rw [(Base64.decode_lenient_iff t b).2 h]

theorem parseBytesBody_text {u r : Str} {b : Bytes} (h : parseBytesBody u = some (b, r)) :
    ∃ t, Base64Text b t ∧ u = t ++ ':' :: r := by
  unfold parseBytesBody at h
  split at h
  · cases h
  rename_i a r' hs
  split at h
  · rename_i b' hd
    injection h with h; injection h with h1 h2; subst h1 h2
    exact ⟨a, (Base64.decode_lenient_iff a b').1 hd, (splitOnce_some hs).1⟩
  · cases h

/-! ### Bare items -/

theorem tokenText_iff {s : Str} : TokenText s ↔ LegalTok s := by
  have hch : ∀ d : Char, (Alpha d ∨ Digit d ∨ d ∈ c! "!#$%&'*+-.^_`|~:/") ↔ isTokChar d = true := by
    intro d
    simp only [isTokChar, isTchar, isAlph, Alpha, Bool.or_eq_true, Bool.and_eq_true, decide_eq_true_eq, beq_iff_eq, isDig_iff,
      List.mem_cons, List.not_mem_nil, or_false, or_assoc]
  constructor
  · rintro ⟨c, t, rfl, hc, ht⟩
    refine ⟨⟨c, rfl, ?_⟩, ?_⟩
    · unfold Alpha at hc; tauto
    · intro d hd
      rcases List.mem_cons.1 hd with rfl | hd
      · refine (hch d).1 ?_
        rcases hc with h | rfl
        · exact Or.inl h
        · right; right; decide
      · exact (hch d).1 (ht d hd)
  · rintro ⟨⟨c, hc, hs⟩, ha⟩
    cases s with
    | nil => simp at hc
    | cons d t =>
      simp at hc; subst hc
      exact ⟨d, t, rfl, by unfold Alpha; tauto, fun x hx => (hch x).2 (ha x (by simp [hx]))⟩

theorem parseBare_of {b : Bare} {t r : Str} (h : BareText b t) (hr : Stop r) : parseBare (t ++ r) = some (b, r) := by
  have num : ∀ {b t}, NumText b t → parseBare (t ++ r) = some (b, r) := by
    intro b t h
    obtain ⟨c, u, e, hc⟩ := numText_head h
    have := parseNum_of h hr
    rw [e] at this ⊢
    rw [List.cons_append] at this ⊢
    rw [parseBare_num hc, this]
  cases h with
  | int h => exact num (.int h)
  | dec h h' => exact num (.dec h h')
  | @str s t h =>
    have e : '"' :: t ++ ['"'] ++ r = '"' :: (t ++ '"' :: r) := by simp
    rw [e, parseBare.eq_def]
    simp only
    rw [if_neg (by decide), if_pos trivial, parseStrBody_of h]
  | tok h => exact parseBare_ser (b := .tok t) (tokenText_iff.1 h) hr
  | @bytes b t h =>
    have e : ':' :: t ++ [':'] ++ r = ':' :: (t ++ ':' :: r) := by simp
    rw [e, parseBare.eq_def]
    simp only
    rw [if_neg (by decide), if_neg (by decide), if_pos trivial, parseBytesBody_of h]
  | yes => exact parseBare_ser (b := .bool true) trivial hr
  | no => exact parseBare_ser (b := .bool false) trivial hr
  | @date neg ds h =>
    have e : '@' :: sign neg ++ ds ++ r = '@' :: (sign neg ++ ds ++ r) := by simp
    rw [e, parseBare.eq_def]
    simp only
    rw [if_neg (by decide), if_neg (by decide), if_neg (by decide), if_neg (by decide), if_pos trivial,
      parseNum_of (.int h) hr]
  | @disp b t h hu =>
    have e : '%' :: '"' :: t ++ ['"'] ++ r = '%' :: '"' :: (t ++ '"' :: r) := by simp
    rw [e, parseBare.eq_def]
    simp only
    rw [if_neg (by decide), if_neg (by decide), if_neg (by decide), if_neg (by decide), if_neg (by decide), if_pos trivial,
      parseDispBody_of h]
    simp only
    rw [if_pos ((validUtf8_iff b).2 hu)]

theorem parseBare_text {s r : Str} {b : Bare} (h : parseBare s = some (b, r)) : ∃ t, BareText b t ∧ s = t ++ r := by
  have hlegal := parseBare_legal h
  cases s with
  | nil => simp [parseBare] at h
  | cons c s =>
    rw [parseBare.eq_def] at h
    simp only at h
    split at h
    · obtain ⟨t, ht, e⟩ := parseNum_text h
      exact ⟨t, ht.bare, e⟩
    split at h
    · rename_i hc; subst hc
      split at h
      · rename_i x1 r1 hs
        injection h with h; injection h with h1 h2; subst h1 h2
        obtain ⟨t, ht, e⟩ := parseStrBody_text _ _ _ hs
        exact ⟨_, .str ht, by rw [e]; simp⟩
      · cases h
    split at h
    · rename_i hc; subst hc
      split at h
      · rename_i x1 r1 hs
        injection h with h; injection h with h1 h2; subst h1 h2
        obtain ⟨t, ht, e⟩ := parseBytesBody_text hs
        exact ⟨_, .bytes ht, by rw [e]; simp⟩
      · cases h
    split at h
    · rename_i hc; subst hc
      split at h
      · injection h with h; injection h with h1 h2; subst h1 h2; exact ⟨_, .yes, rfl⟩
      · injection h with h; injection h with h1 h2; subst h1 h2; exact ⟨_, .no, rfl⟩
      · cases h
    split at h
    · rename_i hc; subst hc
      split at h
      · rename_i n r1 hn
        injection h with h; injection h with h1 h2; subst h1 h2
        obtain ⟨t, ht, e⟩ := parseNum_text hn
        cases ht with
        | int hd => exact ⟨_, .date hd, by rw [e]; simp⟩
      · cases h
    split at h
    · rename_i hc; subst hc
      split at h
      · split at h
        · rename_i b1 r1 hb
          split at h
          · rename_i hu
            injection h with h; injection h with h1 h2; subst h1 h2
            obtain ⟨t, ht, e⟩ := parseDispBody_text _ _ _ hb
            exact ⟨_, .disp ht ((validUtf8_iff _).1 hu), by rw [e]; simp⟩
          · cases h
        · cases h
      · cases h
    split at h
    · injection h with h; injection h with h1 h2; subst h1 h2
      exact ⟨_, .tok (tokenText_iff.2 hlegal), by simp⟩
    · cases h

/-- No bare item starts with white space or a delimiter. -/
theorem bareText_head {b : Bare} {t : Str} (h : BareText b t) :
    ∃ c u, t = c :: u ∧ c ≠ ' ' ∧ c ≠ '\t' ∧ c ≠ '(' ∧ c ≠ ')' ∧ c ≠ ',' ∧ c ≠ ';' := by
  have num : ∀ {b t}, NumText b t → ∃ c u, t = c :: u ∧ c ≠ ' ' ∧ c ≠ '\t' ∧ c ≠ '(' ∧ c ≠ ')' ∧ c ≠ ',' ∧ c ≠ ';' := by
    intro b t h
    obtain ⟨c, u, e, hc⟩ := numText_head h
    refine ⟨c, u, e, ?_⟩
    rcases hc with rfl | hc
    · decide
    · refine ⟨?_, ?_, ?_, ?_, ?_, ?_⟩ <;> (intro e; subst e; revert hc; decide)
  cases h with
  | int h => exact num (.int h)
  | dec h h' => exact num (.dec h h')
  | str h => exact ⟨_, _, rfl, by decide⟩
  | tok h =>
    obtain ⟨c, u, e, hc, _⟩ := h
    obtain ⟨_, _, _, _, _, _, _, _, h1, h2, h3, h4, h5, h6⟩ := tokStart_facts (c := c) (by unfold Alpha at hc; tauto)
    exact ⟨c, u, e, h1, h2, h3, h4, h5, h6⟩
  | bytes h => exact ⟨_, _, rfl, by decide⟩
  | yes => exact ⟨_, _, rfl, by decide⟩
  | no => exact ⟨_, _, rfl, by decide⟩
  | date h => exact ⟨_, _, rfl, by decide⟩
  | disp h => exact ⟨_, _, rfl, by decide⟩

end Verif.Sfv
