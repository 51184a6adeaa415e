import Verif.Proofs.SfvGrammarTop
import Verif.Proofs.Base64Spec
import Verif.Spec.Canonical
/-! The serializer writes exactly the canonical texts of `Spec/Canonical.lean`. -/
namespace Verif.Sfv
open Spec Grammar

/-! ### Numbers -/

theorem digit_of {c : Char} (h : Digit c) : ∃ d < 10, c = digitChar d := by
  have h1 : 48 ≤ c.toNat := h.1
  have h2 : c.toNat ≤ 57 := h.2
  refine ⟨c.toNat - 48, by omega, ?_⟩
  unfold digitChar
  rw [show 48 + (c.toNat - 48) = c.toNat by omega, Char.ofNat_toNat]

theorem digitsVal_snoc (t : Str) (c : Char) : digitsVal (t ++ [c]) = digitsVal t * 10 + (c.toNat - 48) := by
  simp [digitsVal, List.foldl_append]

theorem digitsVal_pos {c : Char} {t : Str} (hc : Digit c) (h0 : c ≠ '0') : 0 < digitsVal (c :: t) := by
  have e : digitsVal (c :: t) = digitsVal [c] * 10 ^ t.length + digitsVal t := digitsVal_append [c] t
  have h1 : 48 ≤ c.toNat := hc.1
  have h2 : c.toNat ≠ 48 := by
    intro h
    apply h0
    have := Char.ofNat_toNat c
    rw [h] at this; exact this.symm
  have h3 : 0 < digitsVal [c] := by simp [digitsVal]; omega
  rw [e]
  have := Nat.mul_pos h3 (Nat.pow_pos (n := t.length) (show 0 < 10 by decide))
  omega

/-- Numbers without needless zeros are determined by their value. -/
theorem digits_unique : ∀ {a b : Str}, (∀ c ∈ a, Digit c) → (∀ c ∈ b, Digit c) → a ≠ [] → b ≠ [] → NoLead a → NoLead b →
    digitsVal a = digitsVal b → a = b := by
  have pos : ∀ {t : Str} {c : Char}, (∀ x ∈ t, Digit x) → t ≠ [] → NoLead (t ++ [c]) → 0 < digitsVal t := by
    intro t c ht hne hl
    cases t with
    | nil => exact absurd rfl hne
    | cons d t =>
      refine digitsVal_pos (ht d (by simp)) ?_
      rcases hl with h | h
      · have := congrArg List.length h; simp at this
      · simpa using h
  intro a
  induction a using List.reverseRecOn with
  | nil => intro b _ _ h; exact absurd rfl h
  | append_singleton s c ih =>
    intro b ha hb _ hbne hla hlb e
    obtain ⟨t, d, rfl⟩ : ∃ t d, b = t ++ [d] := by
      induction b using List.reverseRecOn with
      | nil => exact absurd rfl hbne
      | append_singleton t d _ => exact ⟨t, d, rfl⟩
    rw [digitsVal_snoc, digitsVal_snoc] at e
    obtain ⟨x, hx, rfl⟩ := digit_of (ha c (by simp))
    obtain ⟨y, hy, rfl⟩ := digit_of (hb d (by simp))
    rw [digitChar_toNat hx, digitChar_toNat hy] at e
    have exy : x = y := by omega
    subst exy
    have e' : digitsVal s = digitsVal t := by omega
    have has : ∀ x ∈ s, Digit x := fun x h => ha x (by simp [h])
    have hbt : ∀ x ∈ t, Digit x := fun x h => hb x (by simp [h])
    by_cases hs : s = []
    · by_cases ht : t = []
      · rw [hs, ht]
      · have := pos hbt ht hlb
        rw [hs] at e'; simp [digitsVal] at e'
        unfold digitsVal at this; omega
    · by_cases ht : t = []
      · have := pos has hs hla
        rw [ht] at e'; simp [digitsVal] at e'
        unfold digitsVal at this; omega
      · have lead : ∀ {u : Str} {c : Char}, u ≠ [] → NoLead (u ++ [c]) → NoLead u := by
          intro u c hu h
          cases u with
          | nil => exact absurd rfl hu
          | cons z u =>
            rcases h with h | h
            · have := congrArg List.length h; simp at this
            · right; simpa using h
        rw [ih has hbt hs ht (lead hs hla) (lead ht hlb) e']

theorem natStrAux_lead : ∀ f n, n < f → (n = 0 ∧ natStrAux f n = ['0']) ∨ (natStrAux f n).head? ≠ some '0'
  | 0, _, h => by omega
  | f + 1, n, h => by
    unfold natStrAux
    split
    · rename_i hn
      by_cases h0 : n = 0
      · subst h0; left; exact ⟨rfl, rfl⟩
      · right
        simp only [List.head?_cons, ne_eq, Option.some.injEq]
        intro e
        have := congrArg Char.toNat e
        rw [digitChar_toNat hn] at this
        have h48 : ('0' : Char).toNat = 48 := rfl
        omega
    · rename_i hn
      right
      rcases natStrAux_lead f (n / 10) (by omega) with ⟨h0, _⟩ | h1
      · omega
      · have hne := (natStrAux_spec f (n / 10) (by omega)).2.2
        cases hx : natStrAux f (n / 10) with
        | nil => exact absurd hx hne
        | cons c t => rw [hx] at h1; simpa using h1

theorem natStr_noLead (n : Nat) : NoLead (natStr n) := by
  rcases natStrAux_lead (n + 1) n (by omega) with ⟨_, h⟩ | h
  · exact Or.inl h
  · exact Or.inr h

theorem natStr_of_digits {ds : Str} (h : ∀ c ∈ ds, Digit c) (hne : ds ≠ []) (hl : NoLead ds) : natStr (digitsVal ds) = ds :=
  digits_unique (natStr_digits _) h (natStr_ne_nil _) hne (natStr_noLead _) hl (digitsVal_natStr _)

theorem serInt_signed {neg : Bool} {ds : Str} (hd : Digits 1 15 ds) (hl : NoLead ds) (hz : numeral ds = 0 → neg = false) :
    serInt (signed neg (numeral ds)) = sign neg ++ ds := by
  have hne : ds ≠ [] := digits_ne hd
  rw [numeral_eq] at hz ⊢
  cases neg with
  | false =>
    simp only [signed, sign]
    show natStr (digitsVal ds) = ds
    exact natStr_of_digits hd.1 hne hl
  | true =>
    have hp : digitsVal ds ≠ 0 := fun h => by simpa using hz h
    obtain ⟨m, hm⟩ := Nat.exists_eq_succ_of_ne_zero hp
    have : serInt (signed true (digitsVal ds)) = '-' :: natStr (digitsVal ds) := by
      rw [hm]; rfl
    rw [this, natStr_of_digits hd.1 hne hl]; rfl

/-- The canonical text of a number with at most fifteen digits. -/
theorem serInt_canon {n : Int} (hn : n.natAbs < 10 ^ 15) :
    ∃ neg ds, Digits 1 15 ds ∧ NoLead ds ∧ (numeral ds = 0 → neg = false) ∧ n = signed neg (numeral ds) ∧
      serInt n = sign neg ++ ds := by
  have hd : ∀ m, m < 10 ^ 15 → Digits 1 15 (natStr m) := by
    intro m hm
    refine ⟨natStr_digits m, ?_, natStr_length (k := 14) hm⟩
    cases h : natStr m with
    | nil => exact absurd h (natStr_ne_nil m)
    | cons _ _ => simp
  cases n with
  | ofNat m =>
    refine ⟨false, natStr m, hd m (by simpa using hn), natStr_noLead m, fun _ => rfl, ?_, rfl⟩
    rw [numeral_eq, digitsVal_natStr]; rfl
  | negSucc m =>
    refine ⟨true, natStr (m + 1), hd (m + 1) (by simpa using hn), natStr_noLead _, fun h => ?_, ?_, rfl⟩
    · rw [numeral_eq, digitsVal_natStr] at h; omega
    · rw [numeral_eq, digitsVal_natStr]; rfl

theorem serFrac_unique {fs : Str} (h : Digits 1 3 fs) (ht : NoTrail fs) :
    serFrac (digitsVal fs * 10 ^ (3 - fs.length)) = fs := by
  obtain ⟨hd, h1, h3⟩ := h
  match fs, hd, h1, h3, ht with
  | [], _, h1, _, _ => simp at h1
  | [a], hd, _, _, _ =>
    obtain ⟨x, hx, rfl⟩ := digit_of (hd a (by simp))
    have : ∀ x < 10, serFrac (digitsVal [digitChar x] * 10 ^ 2) = [digitChar x] := by decide
    exact this x hx
  | [a, b], hd, _, _, ht =>
    obtain ⟨x, hx, rfl⟩ := digit_of (hd a (by simp))
    obtain ⟨y, hy, rfl⟩ := digit_of (hd b (by simp))
    have : ∀ x < 10, ∀ y < 10, digitChar y ≠ '0' → serFrac (digitsVal [digitChar x, digitChar y] * 10 ^ 1) = [digitChar x, digitChar y] := by
      decide +kernel
    refine this x hx y hy ?_
    rcases ht with h | h
    · simp at h
    · simpa using h
  | [a, b, c], hd, _, _, ht =>
    obtain ⟨x, hx, rfl⟩ := digit_of (hd a (by simp))
    obtain ⟨y, hy, rfl⟩ := digit_of (hd b (by simp))
    obtain ⟨z, hz, rfl⟩ := digit_of (hd c (by simp))
    have : ∀ x < 10, ∀ y < 10, ∀ z < 10, digitChar z ≠ '0' →
        serFrac (digitsVal [digitChar x, digitChar y, digitChar z] * 10 ^ 0) = [digitChar x, digitChar y, digitChar z] := by
      decide +kernel
    refine this x hx y hy z hz ?_
    rcases ht with h | h
    · simp at h
    · simpa using h
  | _ :: _ :: _ :: _ :: _, _, _, h3, _ => simp at h3

theorem serFrac_noTrail : ∀ f < 1000, NoTrail (serFrac f) := by
  have : ∀ f < 1000, (serFrac f).length = 1 ∨ (serFrac f).getLast? ≠ some '0' := by decide +kernel
  exact this

theorem frac_lt {fs : Str} (h : Digits 1 3 fs) : digitsVal fs * 10 ^ (3 - fs.length) < 1000 := by
  have h1 := digitsVal_lt h.1
  have h2 : 10 ^ fs.length * 10 ^ (3 - fs.length) = 1000 := by
    rw [← Nat.pow_add]
    have := h.2.2
    rw [show fs.length + (3 - fs.length) = 3 by omega]
  rw [← h2]
  exact Nat.mul_lt_mul_of_pos_right h1 (Nat.pow_pos (by decide))

theorem serDec_signed {neg : Bool} {ds fs : Str} (hd : Digits 1 12 ds) (hl : NoLead ds) (hf : Digits 1 3 fs) (ht : NoTrail fs)
    (hz : numeral (ds ++ fs) = 0 → neg = false) :
    serDec (signed neg (numeral (ds ++ fs ++ List.replicate (3 - fs.length) '0'))) = sign neg ++ ds ++ '.' :: fs := by
  rw [thousandths hf.2.2]
  have hlt := frac_lt hf
  have hu := serFrac_unique hf ht
  have hn := natStr_of_digits hd.1 (digits_ne hd) hl
  have hz' : digitsVal ds * 1000 + digitsVal fs * 10 ^ (3 - fs.length) = 0 → neg = false := by
    intro h
    apply hz
    rw [numeral_eq, digitsVal_append]
    have a1 : digitsVal ds = 0 := by omega
    have a2 : digitsVal fs * 10 ^ (3 - fs.length) = 0 := by omega
    have a3 : digitsVal fs = 0 := by
      rcases Nat.mul_eq_zero.1 a2 with h | h
      · exact h
      · exact absurd h (Nat.ne_of_gt (Nat.pow_pos (by decide)))
    rw [a1, a3]; simp
  generalize digitsVal fs * 10 ^ (3 - fs.length) = F at *
  generalize digitsVal ds = D at *
  unfold serDec
  have e1 : (signed neg (D * 1000 + F)).natAbs = D * 1000 + F := by
    cases neg <;> simp [signed] <;> omega
  have e2 : (D * 1000 + F) / 1000 = D := by omega
  have e3 : (D * 1000 + F) % 1000 = F := by omega
  rw [e1, e2, e3, hn, hu]
  have e4 : (if signed neg (D * 1000 + F) < 0 then ['-'] else []) = sign neg := by
    cases neg with
    | false => simp [signed, sign]; omega
    | true =>
      have hp : D * 1000 + F ≠ 0 := fun h => by simpa using hz' h
      simp [signed, sign]; omega
  rw [e4]; simp

theorem serDec_canon {n : Int} (hn : n.natAbs < 10 ^ 15) :
    ∃ neg ds fs, Digits 1 12 ds ∧ NoLead ds ∧ Digits 1 3 fs ∧ NoTrail fs ∧ (numeral (ds ++ fs) = 0 → neg = false) ∧
      n = signed neg (numeral (ds ++ fs ++ List.replicate (3 - fs.length) '0')) ∧ serDec n = sign neg ++ ds ++ '.' :: fs := by
  obtain ⟨f1, f2, f3, f4⟩ := serFrac_spec (f := n.natAbs % 1000) (Nat.mod_lt _ (by decide))
  have hfd : Digits 1 3 (serFrac (n.natAbs % 1000)) := by
    refine ⟨fun c hc => isDig_iff.1 (f1 c hc), ?_, f3⟩
    cases h : serFrac (n.natAbs % 1000) with
    | nil => exact absurd h f2
    | cons _ _ => simp
  have hdd : Digits 1 12 (natStr (n.natAbs / 1000)) := by
    refine ⟨natStr_digits _, ?_, natStr_length (k := 11) (by omega)⟩
    cases h : natStr (n.natAbs / 1000) with
    | nil => exact absurd h (natStr_ne_nil _)
    | cons _ _ => simp
  have hv : numeral (natStr (n.natAbs / 1000) ++ serFrac (n.natAbs % 1000) ++
      List.replicate (3 - (serFrac (n.natAbs % 1000)).length) '0') = n.natAbs := by
    rw [thousandths f3, digitsVal_natStr, f4]; omega
  have e4 : serDec n = sign (decide (n < 0)) ++ natStr (n.natAbs / 1000) ++ '.' :: serFrac (n.natAbs % 1000) := by
    unfold serDec sign
    by_cases h : n < 0 <;> simp [h]
  refine ⟨decide (n < 0), natStr (n.natAbs / 1000), serFrac (n.natAbs % 1000), hdd, natStr_noLead _, hfd,
    serFrac_noTrail _ (Nat.mod_lt _ (by decide)), ?_, ?_, e4⟩
  · intro h
    rw [numeral_eq, digitsVal_append, digitsVal_natStr] at h
    have hp : 0 < 10 ^ (serFrac (n.natAbs % 1000)).length := Nat.pow_pos (by decide)
    have a1 : n.natAbs / 1000 = 0 := by
      rcases Nat.eq_zero_or_pos (n.natAbs / 1000) with h0 | h0
      · exact h0
      · have := Nat.mul_pos h0 hp; omega
    have a2 : digitsVal (serFrac (n.natAbs % 1000)) = 0 := by omega
    rw [a2] at f4
    have : n.natAbs = 0 := by omega
    simp; omega
  · rw [hv]
    by_cases h : n < 0
    · unfold signed; rw [if_pos (by simpa using h)]; omega
    · unfold signed; rw [if_neg (by simpa using h)]; omega

/-! ### Strings -/

theorem stringBody_ser {s t : Str} : StringBody s t ↔ (∀ c ∈ s, Printable c) ∧ t = escStr s := by
  constructor
  · intro h
    induction h with
    | nil => exact ⟨by simp, rfl⟩
    | plain hp h1 h2 _ ih =>
      refine ⟨?_, by rw [ih.2]; simp [escStr, h1, h2]⟩
      intro c hc
      rcases List.mem_cons.1 hc with rfl | hc
      · exact hp
      · exact ih.1 c hc
    | escaped hc' _ ih =>
      refine ⟨?_, by rw [ih.2]; simp [escStr, hc']⟩
      intro c hc
      rcases List.mem_cons.1 hc with rfl | hc
      · rcases hc' with rfl | rfl <;> decide
      · exact ih.1 c hc
  · rintro ⟨hp, rfl⟩
    induction s with
    | nil => exact .nil
    | cons c s ih =>
      have ih := ih (fun c hc => hp c (by simp [hc]))
      unfold escStr
      split
      · rename_i h; exact .escaped h ih
      · rename_i h
        simp only [not_or] at h
        exact .plain (hp c (by simp)) h.1 h.2 ih

theorem hexDigits_hexChar : ∀ n < 16, hexDigits[n]? = some (hexChar n) := by decide

theorem hexDigits_lt {x : Nat} {c : Char} (h : hexDigits[x]? = some c) : x < 16 := (List.getElem?_eq_some_iff.1 h).1

theorem canonDisplay_ser {b : Bytes} {t : Str} : CanonDisplay b t ↔ t = escDisp b := by
  constructor
  · intro h
    induction h with
    | nil => rfl
    | @plain c b t hp h1 h2 _ ih =>
      have hn : (UInt8.ofNat c.toNat).toNat = c.toNat := Base64.u8n (by have := hp.2; omega)
      unfold escDisp
      simp only
      rw [hn, if_neg, Char.ofNat_toNat, ih]
      have hne : ∀ d : Char, c ≠ d → c.toNat ≠ d.toNat := by
        intro d h e
        apply h
        rw [← Char.ofNat_toNat c, e, Char.ofNat_toNat]
      have a1 := hne _ h1
      have a2 := hne _ h2
      have b1 : ('"' : Char).toNat = 0x22 := rfl
      have b2 : ('%' : Char).toNat = 0x25 := rfl
      have := hp.1
      have := hp.2
      omega
    | @percent h l x y b t hx hy hc _ ih =>
      have x16 := hexDigits_lt hx
      have y16 := hexDigits_lt hy
      have hn : (UInt8.ofNat (16 * x + y)).toNat = 16 * x + y := Base64.u8n (by omega)
      unfold escDisp
      simp only
      rw [hn, if_pos (by omega), show (16 * x + y) / 16 = x by omega, show (16 * x + y) % 16 = y by omega, ih]
      have ex := (hexDigits_hexChar x x16).symm.trans hx
      have ey := (hexDigits_hexChar y y16).symm.trans hy
      injection ex with ex
      injection ey with ey
      rw [ex, ey]
  · rintro rfl
    induction b with
    | nil => exact .nil
    | cons a b ih =>
      have ha := a.toNat_lt
      simp only [Nat.reducePow] at ha
      unfold escDisp
      simp only
      split
      · rename_i h
        have e : 16 * (a.toNat / 16) + a.toNat % 16 = a.toNat := by omega
        have hp := CanonDisplay.percent (x := a.toNat / 16) (y := a.toNat % 16) (hexDigits_hexChar _ (by omega))
          (hexDigits_hexChar _ (by omega)) (by rw [e]; omega) ih
        rw [e, UInt8.ofNat_toNat] at hp
        exact hp
      · rename_i h
        simp only [not_or] at h
        have hn := visible_ofNat a.toNat (by omega) (by omega)
        have hp := CanonDisplay.plain (c := Char.ofNat a.toNat) (by unfold Printable; rw [hn]; exact ⟨by omega, by omega⟩)
          (by intro e; rw [e] at hn; exact h.2.1 hn.symm) (by intro e; rw [e] at hn; exact h.1 hn.symm) ih
        rw [hn, UInt8.ofNat_toNat] at hp
        exact hp

/-! ### Bare items -/

theorem natAbs_signed (neg : Bool) (n : Nat) : (signed neg n).natAbs = n := by cases neg <;> simp [signed]

theorem numeral_lt {hi : Nat} {ds : Str} (h : Digits 1 hi ds) : numeral ds < 10 ^ hi := by
  rw [numeral_eq]
  exact Nat.lt_of_lt_of_le (digitsVal_lt h.1) (Nat.pow_le_pow_right (by decide) h.2.2)

theorem canonBare_iff {b : Bare} {t : Str} : CanonBare b t ↔ LegalBare b ∧ t = serBare b := by
  constructor
  · intro h
    cases h with
    | @int neg ds h1 h2 h3 => exact ⟨by simp only [LegalBare, natAbs_signed]; exact numeral_lt h1, (serInt_signed h1 h2 h3).symm⟩
    | @dec neg ds fs h1 h2 h3 h4 h5 =>
      refine ⟨?_, (serDec_signed h1 h2 h3 h4 h5).symm⟩
      simp only [LegalBare, natAbs_signed]
      rw [thousandths h3.2.2]
      have a := frac_lt h3
      have b := numeral_lt h1
      rw [numeral_eq] at b
      omega
    | str h => exact ⟨(stringBody_ser.1 h).1, by rw [(stringBody_ser.1 h).2]; rfl⟩
    | tok h => exact ⟨tokenText_iff.1 h, rfl⟩
    | bytes => exact ⟨trivial, by rw [← Base64.encode_eq_spec]; rfl⟩
    | yes => exact ⟨trivial, rfl⟩
    | no => exact ⟨trivial, rfl⟩
    | @date neg ds h1 h2 h3 =>
      refine ⟨by simp only [LegalBare, natAbs_signed]; exact numeral_lt h1, ?_⟩
      show '@' :: sign neg ++ ds = '@' :: serInt _
      rw [serInt_signed h1 h2 h3]; rfl
    | disp h hu => exact ⟨(validUtf8_iff _).2 hu, by rw [canonDisplay_ser.1 h]; rfl⟩
  · rintro ⟨hl, rfl⟩
    cases b with
    | int n =>
      obtain ⟨neg, ds, h1, h2, h3, h4, h5⟩ := serInt_canon hl
      show CanonBare _ (serInt n)
      rw [h5, h4]; exact .int h1 h2 h3
    | dec n =>
      obtain ⟨neg, ds, fs, h1, h2, h3, h4, h5, h6, h7⟩ := serDec_canon hl
      show CanonBare _ (serDec n)
      rw [h7, h6]; exact .dec h1 h2 h3 h4 h5
    | str s => exact .str (stringBody_ser.2 ⟨hl, rfl⟩)
    | tok s => exact .tok (tokenText_iff.2 hl)
    | bytes b =>
      show CanonBare _ (':' :: (Base64.encode b ++ [':']))
      rw [Base64.encode_eq_spec]; exact .bytes
    | bool b => cases b; exacts [.no, .yes]
    | date n =>
      obtain ⟨neg, ds, h1, h2, h3, h4, h5⟩ := serInt_canon hl
      show CanonBare _ ('@' :: serInt n)
      rw [h5, h4]; exact .date h1 h2 h3
    | disp b => exact .disp (canonDisplay_ser.2 rfl) ((validUtf8_iff _).1 hl)

/-! ### Parameters, items, members -/

theorem canonParams_iff {p : Params} {t : Str} : CanonParams p t ↔ (∀ kv ∈ p, LegalKey kv.1 ∧ LegalBare kv.2) ∧ t = serParams p := by
  constructor
  · intro h
    induction h with
    | nil => exact ⟨by simp, rfl⟩
    | @flag k ps t hk _ ih =>
      refine ⟨?_, by rw [ih.2]; simp [serParams, serParam]⟩
      intro kv hkv
      rcases List.mem_cons.1 hkv with rfl | hkv
      · exact ⟨hk, trivial⟩
      · exact ih.1 kv hkv
    | @value k v b ps t hk hv hb _ ih =>
      obtain ⟨hb1, hb2⟩ := canonBare_iff.1 hb
      refine ⟨?_, by rw [ih.2, hb2]; simp [serParams, serParam, hv]⟩
      intro kv hkv
      rcases List.mem_cons.1 hkv with rfl | hkv
      · exact ⟨hk, hb1⟩
      · exact ih.1 kv hkv
  · rintro ⟨hl, rfl⟩
    induction p with
    | nil => exact .nil
    | cons x p ih =>
      obtain ⟨k, v⟩ := x
      have ih := ih (fun kv hkv => hl kv (by simp [hkv]))
      obtain ⟨hk, hv⟩ := hl (k, v) (by simp)
      by_cases h : v = .bool true
      · subst h
        have : serParams ((k, .bool true) :: p) = ';' :: k ++ serParams p := by simp [serParams, serParam]
        rw [this]; exact .flag hk ih
      · have : serParams ((k, v) :: p) = ';' :: k ++ '=' :: serBare v ++ serParams p := by simp [serParams, serParam, h]
        rw [this]; exact .value hk h (canonBare_iff.2 ⟨hv, rfl⟩) ih

theorem canonItem_iff {i : Item} {t : Str} : CanonItem i t ↔ LegalItem i ∧ t = serItem i := by
  constructor
  · rintro ⟨b, p, h1, h2, h3, rfl⟩
    obtain ⟨a1, rfl⟩ := canonBare_iff.1 h1
    obtain ⟨a2, rfl⟩ := canonParams_iff.1 h2
    exact ⟨⟨a1, h3, a2⟩, rfl⟩
  · rintro ⟨⟨a1, h3, a2⟩, rfl⟩
    exact ⟨_, _, canonBare_iff.2 ⟨a1, rfl⟩, canonParams_iff.2 ⟨a2, rfl⟩, h3, rfl⟩

theorem canonItems_iff {is : List Item} {t : Str} :
    CanonItems is t ↔ (∀ i ∈ is, LegalItem i) ∧ t = join [' '] (is.map serItem) := by
  constructor
  · intro h
    induction h with
    | nil => exact ⟨by simp, rfl⟩
    | one hi =>
      obtain ⟨a, rfl⟩ := canonItem_iff.1 hi
      exact ⟨by simpa using a, rfl⟩
    | cons hi _ ih =>
      obtain ⟨a, rfl⟩ := canonItem_iff.1 hi
      refine ⟨?_, by rw [ih.2]; simp [join]⟩
      intro x hx
      rcases List.mem_cons.1 hx with rfl | hx
      · exact a
      · exact ih.1 x hx
  · rintro ⟨hl, rfl⟩
    induction is with
    | nil => exact .nil
    | cons i is ih =>
      have ih := ih (fun x hx => hl x (by simp [hx]))
      have hi := canonItem_iff.2 ⟨hl i (by simp), rfl⟩
      cases is with
      | nil => exact .one hi
      | cons j is =>
        have : join [' '] ((i :: j :: is).map serItem) = serItem i ++ ' ' :: join [' '] ((j :: is).map serItem) := by simp [join]
        rw [this]; exact .cons hi ih

theorem canonEntry_iff {e : Entry} {t : Str} : CanonEntry e t ↔ LegalEntry e ∧ t = serEntry e := by
  constructor
  · intro h
    cases h with
    | item h => exact canonItem_iff.1 h
    | inner h1 h2 h3 =>
      obtain ⟨a1, rfl⟩ := canonItems_iff.1 h1
      obtain ⟨a2, rfl⟩ := canonParams_iff.1 h2
      exact ⟨⟨a1, h3, a2⟩, rfl⟩
  · rintro ⟨hl, rfl⟩
    cases e with
    | item i => exact .item (canonItem_iff.2 ⟨hl, rfl⟩)
    | inner l =>
      obtain ⟨is, ps⟩ := l
      exact .inner (canonItems_iff.2 ⟨hl.1, rfl⟩) (canonParams_iff.2 ⟨hl.2.2, rfl⟩) hl.2.1

theorem canonMember_iff {x : Str × Entry} {t : Str} : CanonMember x t ↔ (LegalKey x.1 ∧ LegalEntry x.2) ∧ t = serMember x := by
  constructor
  · intro h
    cases h with
    | value hk hne he =>
      obtain ⟨a, rfl⟩ := canonEntry_iff.1 he
      exact ⟨⟨hk, a⟩, (serMember_other _ hne).symm⟩
    | flag hk hp hd =>
      obtain ⟨a, rfl⟩ := canonParams_iff.1 hp
      exact ⟨⟨hk, trivial, hd, a⟩, rfl⟩
  · rintro ⟨⟨hk, he⟩, rfl⟩
    obtain ⟨k, e⟩ := x
    by_cases h : ∃ ps, e = .item ⟨.bool true, ps⟩
    · obtain ⟨ps, rfl⟩ := h
      exact .flag hk (canonParams_iff.2 ⟨he.2.2, rfl⟩) he.2.1
    · have hne : ∀ ps, e ≠ .item ⟨.bool true, ps⟩ := fun ps he => h ⟨ps, he⟩
      rw [serMember_other k hne]
      exact .value hk hne (canonEntry_iff.2 ⟨he, rfl⟩)

theorem canonSep_iff {α : Type} {T : α → Str → Prop} {L : α → Prop} {ser : α → Str} (hT : ∀ x t, T x t ↔ L x ∧ t = ser x)
    {l : List α} {t : Str} : CanonSep T l t ↔ l ≠ [] ∧ (∀ x ∈ l, L x) ∧ t = join [',', ' '] (l.map ser) := by
  constructor
  · intro h
    induction h with
    | one hx =>
      obtain ⟨a, rfl⟩ := (hT _ _).1 hx
      exact ⟨by simp, by simpa using a, rfl⟩
    | cons hx _ ih =>
      obtain ⟨a, rfl⟩ := (hT _ _).1 hx
      refine ⟨by simp, ?_, ?_⟩
      · intro y hy
        rcases List.mem_cons.1 hy with rfl | hy
        · exact a
        · exact ih.2.1 y hy
      · rw [List.map_cons, join_cons _ _ (by simpa using ih.1), ih.2.2]; simp
  · rintro ⟨hne, hl, rfl⟩
    induction l with
    | nil => exact absurd rfl hne
    | cons x l ih =>
      have hx := (hT x _).2 ⟨hl x (by simp), rfl⟩
      cases l with
      | nil => exact .one hx
      | cons y l =>
        have ih := ih (by simp) (fun z hz => hl z (by simp [hz]))
        rw [List.map_cons, join_cons _ _ (by simp)]
        have := CanonSep.cons hx ih
        simpa using this

theorem canonList_iff {l : SList} {t : Str} : CanonList l t ↔ LegalList l ∧ serList l = some t := by
  unfold CanonList
  rw [canonSep_iff (T := CanonEntry) (L := LegalEntry) (ser := serEntry) (fun _ _ => canonEntry_iff)]
  unfold serList LegalList
  by_cases h : l = []
  · simp [h]
  · simp only [h, ne_eq, not_false_eq_true, true_and, if_false, Option.some.injEq]
    exact and_congr Iff.rfl eq_comm

theorem canonDict_iff {d : Dict} {t : Str} : CanonDict d t ↔ LegalDict d ∧ serDict d = some t := by
  unfold CanonDict
  rw [canonSep_iff (T := CanonMember) (L := fun x => LegalKey x.1 ∧ LegalEntry x.2) (ser := serMember) (fun _ _ => canonMember_iff)]
  unfold serDict LegalDict Distinct
  by_cases h : d = []
  · simp [h]
  · simp only [h, ne_eq, not_false_eq_true, true_and, if_false, Option.some.injEq]
    rw [@eq_comm _ t]; tauto

end Verif.Sfv
