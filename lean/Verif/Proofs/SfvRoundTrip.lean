import Verif.Proofs.SfvScan
import Verif.Proofs.Base64
import Verif.Spec.Sfv
/-! The structured field parser inverts the serializer on legal values. -/
namespace Verif.Sfv
open Spec

/-- What may follow a bare item. -/
def Stop (r : Str) : Prop := ∀ c, r.head? = some c → c = ' ' ∨ c = '\t' ∨ c = ',' ∨ c = ';' ∨ c = ')'
/-- What may follow parameters. -/
def StopP (r : Str) : Prop := ∀ c, r.head? = some c → c = ' ' ∨ c = '\t' ∨ c = ',' ∨ c = ')'

theorem StopP.stop {r : Str} (h : StopP r) : Stop r := fun c hc => by
  rcases h c hc with h | h | h | h <;> simp [h]

theorem StopP.not_semi {r : Str} (h : StopP r) : r.head? ≠ some ';' := fun e => by
  rcases h _ e with h | h | h | h <;> cases h

theorem stop_nil : Stop [] := by intro c h; simp at h
theorem stopP_nil : StopP [] := by intro c h; simp at h
theorem stop_semi (t : Str) : Stop (';' :: t) := by intro c h; simp at h; simp [← h]
theorem stopP_comma (t : Str) : StopP (',' :: t) := by intro c h; simp at h; simp [← h]
theorem stopP_sp (t : Str) : StopP (' ' :: t) := by intro c h; simp at h; simp [← h]
theorem stopP_paren (t : Str) : StopP (')' :: t) := by intro c h; simp at h; simp [← h]

theorem Stop.not {r : Str} (h : Stop r) {p : Char → Bool} (hp : p ' ' = false ∧ p '\t' = false ∧ p ',' = false ∧ p ';' = false ∧ p ')' = false) :
    ∀ c, r.head? = some c → p c = false := fun c hc => by
  rcases h c hc with h | h | h | h | h <;> simp [h, hp]

theorem Stop.isDig {r : Str} (h : Stop r) : ∀ c, r.head? = some c → isDig c = false := h.not (by decide)
theorem Stop.isKeyChar {r : Str} (h : Stop r) : ∀ c, r.head? = some c → isKeyChar c = false := h.not (by decide)
theorem Stop.isTokChar {r : Str} (h : Stop r) : ∀ c, r.head? = some c → isTokChar c = false := h.not (by decide)

theorem isDig_iff {c : Char} : isDig c = true ↔ Digit c := by simp [isDig, Digit]
theorem isLcAlpha_iff {c : Char} : isLcAlpha c = true ↔ LowerAlpha c := by simp [isLcAlpha, LowerAlpha]
theorem isVisible_iff {c : Char} : isVisible c = true ↔ Printable c := by simp [isVisible, Printable]

theorem natStr_isDig (n : Nat) : ∀ c ∈ natStr n, isDig c = true := fun c hc => isDig_iff.2 (natStr_digits n c hc)

/-! ### Keys -/

theorem legalKey_cons {k : Str} (h : LegalKey k) : ∃ c t, k = c :: t ∧ isKeyStart c = true ∧ ∀ x ∈ t, isKeyChar x = true := by
  obtain ⟨⟨c, hc, hs⟩, ha⟩ := h
  cases k with
  | nil => simp at hc
  | cons d t =>
    simp at hc; subst hc
    refine ⟨d, t, rfl, ?_, ?_⟩
    · unfold isKeyStart
      rcases hs with hs | hs
      · simp [isLcAlpha_iff.2 hs]
      · simp [hs]
    · intro x hx
      have := ha x (by simp [hx])
      unfold isKeyChar
      rcases this with h | h | h | h | h | h
      · simp [isLcAlpha_iff.2 h]
      · simp [isDig_iff.2 h]
      all_goals simp [h]

theorem legalKey_of_cons {c : Char} {t : Str} (hc : isKeyStart c = true) (ht : ∀ x ∈ t, isKeyChar x = true) :
    LegalKey (c :: t) := by
  have hc' : LowerAlpha c ∨ c = '*' := by
    simp only [isKeyStart, Bool.or_eq_true, beq_iff_eq] at hc
    exact hc.imp isLcAlpha_iff.1 id
  refine ⟨⟨c, rfl, hc'⟩, ?_⟩
  intro x hx
  rcases List.mem_cons.1 hx with rfl | hx
  · rcases hc' with h | h
    · exact Or.inl h
    · simp [h]
  · have := ht x hx
    simp only [isKeyChar, Bool.or_eq_true, beq_iff_eq] at this
    rw [isLcAlpha_iff, isDig_iff] at this
    tauto

theorem parseKey_ser {k r : Str} (hk : LegalKey k) (hr : ∀ c, r.head? = some c → isKeyChar c = false) :
    parseKey (k ++ r) = some (k, r) := by
  obtain ⟨c, t, rfl, hc, ht⟩ := legalKey_cons hk
  simp only [List.cons_append, parseKey, if_pos hc]
  rw [takeWhile_append_stop ht hr, dropWhile_append_stop ht hr]

theorem parseKey_legal {s k r : Str} (h : parseKey s = some (k, r)) :
    LegalKey k ∧ s = k ++ r ∧ ∀ c, r.head? = some c → isKeyChar c = false := by
  cases s with
  | nil => simp [parseKey] at h
  | cons c t =>
    simp only [parseKey] at h
    split at h
    · rename_i hc
      injection h with h; injection h with h1 h2; subst h1 h2
      exact ⟨legalKey_of_cons hc takeWhile_all, by simp, dropWhile_head⟩
    · cases h

/-! ### Numbers -/

theorem parseUNum_int {neg : Bool} {ds r : Str} (hd : ∀ c ∈ ds, isDig c = true) (hne : ds ≠ []) (hl : ds.length ≤ 15)
    (hr : Stop r) :
    parseUNum neg (ds ++ r) = some (.int (if neg then -(digitsVal ds : Int) else digitsVal ds), r) := by
  unfold parseUNum
  simp only
  rw [takeWhile_append_stop hd hr.isDig, dropWhile_append_stop hd hr.isDig, if_neg hne]
  split
  · rename_i r' heq
    have := hr '.' (by simp)
    simp at this
  · rw [if_neg (by omega)]

theorem parseUNum_dec {neg : Bool} {ds fs r : Str} (hd : ∀ c ∈ ds, isDig c = true) (hne : ds ≠ []) (hl : ds.length ≤ 12)
    (hf : ∀ c ∈ fs, isDig c = true) (hfne : fs ≠ []) (hfl : fs.length ≤ 3) (hr : Stop r) :
    parseUNum neg (ds ++ '.' :: (fs ++ r)) =
      some (.dec (if neg then -((digitsVal ds * 1000 + digitsVal fs * 10 ^ (3 - fs.length) : Nat) : Int)
        else ((digitsVal ds * 1000 + digitsVal fs * 10 ^ (3 - fs.length) : Nat) : Int)), r) := by
  have hdot : ∀ c, ('.' :: (fs ++ r)).head? = some c → isDig c = false := by
    intro c hc; simp at hc; subst hc; rfl
  unfold parseUNum
  simp only
  rw [takeWhile_append_stop hd hdot, dropWhile_append_stop hd hdot, if_neg hne]
  simp only
  rw [takeWhile_append_stop hf hr.isDig, dropWhile_append_stop hf hr.isDig]
  rw [if_neg (by simp [hfne]; omega)]

theorem isDig_ne_minus {c : Char} (h : isDig c = true) : c ≠ '-' := by
  intro e; subst e; revert h; decide

theorem parseNum_nonneg {ds r : Str} (hd : ∀ c ∈ ds, isDig c = true) (hne : ds ≠ []) :
    parseNum (ds ++ r) = parseUNum false (ds ++ r) := by
  cases ds with
  | nil => exact absurd rfl hne
  | cons c t =>
    have := isDig_ne_minus (hd c (by simp))
    unfold parseNum
    split
    · rename_i heq; injection heq with heq _; exact absurd heq this
    · rfl

theorem parseNum_minus (s : Str) : parseNum ('-' :: s) = parseUNum true s := by unfold parseNum; rfl

theorem parseNum_serInt {n : Int} {r : Str} (hn : n.natAbs < 10 ^ 15) (hr : Stop r) :
    parseNum (serInt n ++ r) = some (.int n, r) := by
  cases n with
  | ofNat n =>
    have hn : n < 10 ^ 15 := hn
    simp only [serInt]
    rw [parseNum_nonneg (natStr_isDig n) (natStr_ne_nil n),
      parseUNum_int (natStr_isDig n) (natStr_ne_nil n) (natStr_length (k := 14) hn) hr, digitsVal_natStr]
    simp
  | negSucc n =>
    have hn : n + 1 < 10 ^ 15 := by simpa [Int.natAbs] using hn
    simp only [serInt, List.cons_append]
    rw [parseNum_minus, parseUNum_int (natStr_isDig _) (natStr_ne_nil _) (natStr_length (k := 14) hn) hr, digitsVal_natStr]
    simp [Int.negSucc_eq]

theorem serFrac_spec {f : Nat} (h : f < 1000) :
    (∀ c ∈ serFrac f, isDig c = true) ∧ serFrac f ≠ [] ∧ (serFrac f).length ≤ 3 ∧
      digitsVal (serFrac f) * 10 ^ (3 - (serFrac f).length) = f := by
  have h1 : f / 100 < 10 := by omega
  have h2 : f / 10 % 10 < 10 := by omega
  have h3 : f % 10 < 10 := by omega
  have d1 := isDig_iff.2 (digitChar_isDig h1)
  have d2 := isDig_iff.2 (digitChar_isDig h2)
  have d3 := isDig_iff.2 (digitChar_isDig h3)
  unfold serFrac
  split
  · refine ⟨?_, by simp, by simp, ?_⟩
    · intro c hc; simp at hc; rcases hc with rfl | rfl | rfl <;> assumption
    · simp [digitsVal, digitChar_toNat h1, digitChar_toNat h2, digitChar_toNat h3]; omega
  · split
    · refine ⟨?_, by simp, by simp, ?_⟩
      · intro c hc; simp at hc; rcases hc with rfl | rfl <;> assumption
      · simp [digitsVal, digitChar_toNat h1, digitChar_toNat h2]; omega
    · refine ⟨?_, by simp, by simp, ?_⟩
      · intro c hc; simp at hc; subst hc; assumption
      · simp [digitsVal, digitChar_toNat h1]; omega

theorem parseNum_serDec {n : Int} {r : Str} (hn : n.natAbs < 10 ^ 15) (hr : Stop r) :
    parseNum (serDec n ++ r) = some (.dec n, r) := by
  obtain ⟨f1, f2, f3, f4⟩ := serFrac_spec (f := n.natAbs % 1000) (by omega)
  have hl : (natStr (n.natAbs / 1000)).length ≤ 12 := natStr_length (k := 11) (by
    have : n.natAbs / 1000 < 10 ^ 12 := by omega
    exact this)
  have key : ∀ neg, parseUNum neg (natStr (n.natAbs / 1000) ++ '.' :: (serFrac (n.natAbs % 1000) ++ r)) =
      some (.dec (if neg then -(n.natAbs : Int) else n.natAbs), r) := by
    intro neg
    rw [parseUNum_dec (natStr_isDig _) (natStr_ne_nil _) hl f1 f2 f3 hr, f4, digitsVal_natStr,
      Nat.div_add_mod' n.natAbs 1000]
  unfold serDec
  by_cases h : n < 0
  · rw [if_pos h]
    simp only [List.append_assoc, List.cons_append, List.nil_append]
    rw [parseNum_minus, key true]
    simp; omega
  · rw [if_neg h]
    simp only [List.append_assoc, List.cons_append, List.nil_append]
    rw [parseNum_nonneg (natStr_isDig _) (natStr_ne_nil _), key false]
    simp; omega

/-! ### Strings -/

theorem parseStrBody_ser {s r : Str} (hs : ∀ c ∈ s, Printable c) :
    parseStrBody (escStr s ++ '"' :: r) = some (s, r) := by
  induction s with
  | nil => simp [escStr, parseStrBody.eq_def]
  | cons c t ih =>
    have ih := ih (fun x hx => hs x (by simp [hx]))
    have hc := hs c (by simp)
    unfold escStr
    split
    · rename_i h
      simp only [List.cons_append]
      rw [parseStrBody.eq_def]
      simp [h, ih]
    · rename_i h
      simp only [not_or] at h
      simp only [List.cons_append]
      rw [parseStrBody.eq_def]
      simp [h.1, h.2, isVisible_iff.2 hc, ih]

theorem parseBytesBody_ser (b : Bytes) (r : Str) : parseBytesBody (Base64.encode b ++ ':' :: r) = some (b, r) := by
  unfold parseBytesBody
  rw [splitOnce_append _ (Base64.encode_no_colon b)]
  simp [Base64.decode_encode]

theorem hexVal_hexChar : ∀ n < 16, hexVal (hexChar n) = some n := by decide

theorem visible_ofNat : ∀ n, 0x20 ≤ n → n ≤ 0x7e → (Char.ofNat n).toNat = n := by
  intro n h1 h2
  have : ∀ n < 127, (Char.ofNat n).toNat = n := by decide
  exact this n (by omega)

theorem parseDispBody_ser (b : Bytes) (r : Str) : parseDispBody (escDisp b ++ '"' :: r) = some (b, r) := by
  induction b with
  | nil => simp [escDisp, parseDispBody.eq_def]
  | cons x t ih =>
    have hx := x.toNat_lt
    simp only [Nat.reducePow] at hx
    unfold escDisp
    simp only
    split
    · simp only [List.cons_append]
      rw [parseDispBody.eq_def]
      simp only
      rw [if_neg (by decide), if_pos trivial, hexVal_hexChar _ (by omega), hexVal_hexChar _ (by omega), ih]
      simp only
      rw [Base64.u8_of (a := x) (by omega)]
    · rename_i h
      simp only [not_or] at h
      have hn := visible_ofNat x.toNat (by omega) (by omega)
      have n1 : Char.ofNat x.toNat ≠ '"' := by
        intro e; rw [e] at hn; exact h.2.1 hn.symm
      have n2 : Char.ofNat x.toNat ≠ '%' := by
        intro e; rw [e] at hn; exact h.1 hn.symm
      simp only [List.cons_append]
      rw [parseDispBody.eq_def]
      simp only
      rw [if_neg n1, if_neg n2, if_pos (isVisible_iff.2 ⟨by omega, by omega⟩), ih]
      simp only
      rw [hn, Base64.u8_of (a := x) rfl]

/-! ### Bare items -/

theorem tokStart_facts {c : Char} (h : ('a' ≤ c ∧ c ≤ 'z') ∨ ('A' ≤ c ∧ c ≤ 'Z') ∨ c = '*') :
    isTokStart c = true ∧ c ≠ '-' ∧ isDig c = false ∧ c ≠ '"' ∧ c ≠ ':' ∧ c ≠ '?' ∧ c ≠ '@' ∧ c ≠ '%' ∧ c ≠ ' ' ∧ c ≠ '\t' ∧
      c ≠ '(' ∧ c ≠ ')' ∧ c ≠ ',' ∧ c ≠ ';' := by
  have key : isTokStart c = true ∧ isDig c = false := by
    rcases h with h | h | h
    · have h1 : 97 ≤ c.toNat := h.1
      refine ⟨by simp [isTokStart, isAlph, h], ?_⟩
      cases hd : isDig c with
      | false => rfl
      | true =>
        have h2 : c.toNat ≤ 57 := (isDig_iff.1 hd).2
        omega
    · have h1 : 65 ≤ c.toNat := h.1
      refine ⟨by simp [isTokStart, isAlph, h], ?_⟩
      cases hd : isDig c with
      | false => rfl
      | true =>
        have h2 : c.toNat ≤ 57 := (isDig_iff.1 hd).2
        omega
    · subst h; decide
  refine ⟨key.1, ?_, key.2, ?_, ?_, ?_, ?_, ?_, ?_, ?_, ?_, ?_, ?_, ?_⟩ <;>
    (intro e; subst e; revert key; decide)

theorem isTokStart_iff {c : Char} : isTokStart c = true ↔ ('a' ≤ c ∧ c ≤ 'z') ∨ ('A' ≤ c ∧ c ≤ 'Z') ∨ c = '*' := by
  simp [isTokStart, isAlph]; tauto

theorem serInt_head (n : Int) : ∃ c t, serInt n = c :: t ∧ (c = '-' ∨ isDig c = true) := by
  cases n with
  | ofNat n =>
    cases h : natStr n with
    | nil => exact absurd h (natStr_ne_nil n)
    | cons c t => exact ⟨c, t, by simp [serInt, h], Or.inr (natStr_isDig n c (by simp [h]))⟩
  | negSucc n => exact ⟨'-', _, rfl, Or.inl rfl⟩

theorem serDec_head (n : Int) : ∃ c t, serDec n = c :: t ∧ (c = '-' ∨ isDig c = true) := by
  unfold serDec
  split
  · exact ⟨'-', _, rfl, Or.inl rfl⟩
  · cases h : natStr (n.natAbs / 1000) with
    | nil => exact absurd h (natStr_ne_nil _)
    | cons c t => exact ⟨c, t ++ ['.'] ++ serFrac (n.natAbs % 1000), by simp, Or.inr (natStr_isDig _ c (by rw [h]; simp))⟩

theorem parseBare_num {c : Char} {t : Str} (h : c = '-' ∨ isDig c = true) : parseBare (c :: t) = parseNum (c :: t) := by
  rw [parseBare.eq_def]
  simp only
  rw [if_pos h]

/-- The parser inverts the serializer on legal bare items. -/
theorem parseBare_ser {b : Bare} {r : Str} (hb : LegalBare b) (hr : Stop r) :
    parseBare (serBare b ++ r) = some (b, r) := by
  cases b with
  | int n =>
    obtain ⟨c, t, hc, hd⟩ := serInt_head n
    have := parseNum_serInt hb hr
    simp only [serBare]
    rw [hc, List.cons_append] at *
    rw [parseBare_num hd, this]
  | dec n =>
    obtain ⟨c, t, hc, hd⟩ := serDec_head n
    have := parseNum_serDec hb hr
    simp only [serBare]
    rw [hc, List.cons_append] at *
    rw [parseBare_num hd, this]
  | str s =>
    simp only [serBare, List.cons_append, List.append_assoc, List.nil_append]
    rw [parseBare.eq_def]
    simp only
    rw [if_neg (by decide), if_pos trivial, parseStrBody_ser hb]
  | tok s =>
    obtain ⟨⟨c, hc, hs⟩, ha⟩ := hb
    cases s with
    | nil => simp at hc
    | cons d t =>
      simp at hc; subst hc
      obtain ⟨f1, f2, f3, f4, f5, f6, f7, f8, _⟩ := tokStart_facts hs
      have ht : ∀ x ∈ t, isTokChar x = true := fun x hx => ha x (by simp [hx])
      simp only [serBare, List.cons_append]
      rw [parseBare.eq_def]
      simp only
      rw [if_neg (by simp [f2, f3]), if_neg f4, if_neg f5, if_neg f6, if_neg f7, if_neg f8, if_pos f1,
        takeWhile_append_stop ht hr.isTokChar, dropWhile_append_stop ht hr.isTokChar]
  | bytes b =>
    simp only [serBare, List.cons_append, List.append_assoc, List.nil_append]
    rw [parseBare.eq_def]
    simp only
    rw [if_neg (by decide), if_neg (by decide), if_pos trivial, parseBytesBody_ser]
  | bool b =>
    cases b <;> rfl
  | date n =>
    simp only [serBare, List.cons_append]
    rw [parseBare.eq_def]
    simp only
    rw [if_neg (by decide), if_neg (by decide), if_neg (by decide), if_neg (by decide), if_pos trivial, parseNum_serInt hb hr]
  | disp b =>
    simp only [serBare, List.cons_append, List.append_assoc, List.nil_append]
    rw [parseBare.eq_def]
    simp only
    rw [if_neg (by decide), if_neg (by decide), if_neg (by decide), if_neg (by decide), if_neg (by decide), if_pos trivial,
      parseDispBody_ser]
    simp only
    have hb : validUtf8 b = true := hb
    rw [if_pos hb]

/-- First character of a serialized bare item. -/
theorem serBare_head {b : Bare} (hb : LegalBare b) :
    ∃ c t, serBare b = c :: t ∧ c ≠ ' ' ∧ c ≠ '\t' ∧ c ≠ '(' ∧ c ≠ ')' ∧ c ≠ ',' ∧ c ≠ ';' := by
  have num : ∀ {c : Char}, (c = '-' ∨ isDig c = true) →
      c ≠ ' ' ∧ c ≠ '\t' ∧ c ≠ '(' ∧ c ≠ ')' ∧ c ≠ ',' ∧ c ≠ ';' := by
    intro c h
    refine ⟨?_, ?_, ?_, ?_, ?_, ?_⟩ <;> (intro e; subst e; revert h; decide)
  cases b with
  | int n => obtain ⟨c, t, hc, hd⟩ := serInt_head n; exact ⟨c, t, hc, num hd⟩
  | dec n => obtain ⟨c, t, hc, hd⟩ := serDec_head n; exact ⟨c, t, hc, num hd⟩
  | str s => exact ⟨'"', _, rfl, by decide⟩
  | tok s =>
    obtain ⟨⟨c, hc, hs⟩, ha⟩ := hb
    cases s with
    | nil => simp at hc
    | cons d t =>
      simp at hc; subst hc
      obtain ⟨_, _, _, _, _, _, _, _, f1, f2, f3, f4, f5, f6⟩ := tokStart_facts hs
      exact ⟨d, t, rfl, f1, f2, f3, f4, f5, f6⟩
  | bytes b => exact ⟨':', _, rfl, by decide⟩
  | bool b => cases b <;> exact ⟨'?', _, rfl, by decide⟩
  | date n => exact ⟨'@', _, rfl, by decide⟩
  | disp b => exact ⟨'%', _, rfl, by decide⟩

/-! ### Parameters -/

theorem stop_serParams (p : Params) {r : Str} (hr : StopP r) : Stop (serParams p ++ r) := by
  cases p with
  | nil => exact hr.stop
  | cons x t => exact stop_semi _

theorem legalKey_no_sp {k : Str} (h : LegalKey k) (r : Str) : (k ++ r).dropWhile isSp = k ++ r := by
  obtain ⟨c, t, rfl, hc, _⟩ := legalKey_cons h
  rw [List.cons_append, List.dropWhile_cons]
  split
  · rename_i h
    simp [isSp] at h; subst h; exact absurd hc (by decide)
  · rfl

theorem stepParam_ser {k : Str} {v : Bare} {r : Str} (hk : LegalKey k) (hv : LegalBare v) (hr : Stop r) :
    stepParam (k ++ (if v = .bool true then [] else '=' :: serBare v) ++ r) = some ((k, v), r) := by
  unfold stepParam
  rw [List.append_assoc, legalKey_no_sp hk]
  split
  case h_1 h =>
    by_cases hvt : v = .bool true
    · rw [if_pos hvt, List.nil_append, parseKey_ser hk hr.isKeyChar] at h; cases h
    · rw [if_neg hvt, parseKey_ser hk (by intro c hc; simp at hc; subst hc; rfl)] at h; cases h
  case h_2 k' r' h =>
    by_cases hvt : v = .bool true
    · rw [if_pos hvt, List.nil_append, parseKey_ser hk hr.isKeyChar] at h
      injection h with h; injection h with h1 h2
      subst h2
      have := hr '=' rfl
      simp at this
    · rw [if_neg hvt, parseKey_ser hk (by intro c hc; simp at hc; subst hc; rfl)] at h
      injection h with h; injection h with h1 h2
      simp at h2; subst h1 h2
      rw [parseBare_ser hv hr]
  case h_3 k' r' hne h =>
    by_cases hvt : v = .bool true
    · rw [if_pos hvt, List.nil_append, parseKey_ser hk hr.isKeyChar] at h
      injection h with h; injection h with h1 h2
      subst h1 h2 hvt; rfl
    · rw [if_neg hvt, parseKey_ser hk (by intro c hc; simp at hc; subst hc; rfl)] at h
      injection h with h; injection h with h1 h2
      exact absurd h2.symm (by rw [List.cons_append]; exact fun e => hne _ e)

theorem parseParamsA_ser (p : Params) : ∀ {acc : Params} {r : Str}, (∀ kv ∈ p, LegalKey kv.1 ∧ LegalBare kv.2) → StopP r →
    parseParamsA acc (serParams p ++ r) = some (imInsertAll acc p, r) := by
  induction p with
  | nil => intro acc r _ hr; exact parseParamsA_stop _ hr.not_semi
  | cons x t ih =>
    intro acc r hp hr
    obtain ⟨k, v⟩ := x
    have hx := hp (k, v) (by simp)
    have e : serParams ((k, v) :: t) ++ r = ';' :: ((k ++ (if v = .bool true then [] else '=' :: serBare v)) ++ (serParams t ++ r)) := by
      simp [serParams, serParam]
    rw [e, parseParamsA_semi, stepParam_ser hx.1 hx.2 (stop_serParams t hr)]
    simp only
    rw [ih (fun kv h => hp kv (by simp [h])) hr]
    rfl

theorem parseParams_ser {p : Params} {r : Str} (hp : LegalParams p) (hr : StopP r) :
    parseParams (serParams p ++ r) = some (p, r) := by
  rw [parseParams_eq, parseParamsA_ser p hp.2 hr, ← imOfList_eq, imOfList_of_nodup hp.1]

/-! ### Items, inner lists, members -/

theorem parseItem_ser {i : Item} {r : Str} (hi : LegalItem i) (hr : StopP r) :
    parseItem (serItem i ++ r) = some (i, r) := by
  unfold parseItem serItem
  rw [List.append_assoc, parseBare_ser hi.1 (stop_serParams _ hr)]
  simp only
  rw [parseParams_ser hi.2 hr]

theorem serItem_head {i : Item} (hi : LegalItem i) :
    ∃ c t, serItem i = c :: t ∧ c ≠ ' ' ∧ c ≠ '\t' ∧ c ≠ '(' ∧ c ≠ ')' ∧ c ≠ ',' ∧ c ≠ ';' := by
  obtain ⟨c, t, h, hc⟩ := serBare_head hi.1
  exact ⟨c, t ++ serParams i.params, by simp [serItem, h], hc⟩

theorem parseItems_ser (l : List Item) : ∀ {r : Str}, (∀ i ∈ l, LegalItem i) →
    parseItems (join [' '] (l.map serItem) ++ ')' :: r) = some (l, r) ∧
    (l ≠ [] → parseItems (' ' :: (join [' '] (l.map serItem) ++ ')' :: r)) = some (l, r)) := by
  induction l with
  | nil =>
    intro r _
    refine ⟨?_, fun h => absurd rfl h⟩
    rw [parseItems_eq]
    simp [isSp]
  | cons i t ih =>
    intro r h
    have hi := h i (by simp)
    have ih := ih (r := r) (fun j hj => h j (by simp [hj]))
    obtain ⟨c, u, hu, hc1, hc2, hc3, hc4, hc5, hc6⟩ := serItem_head hi
    -- the text after the first item
    have key : ∃ rest, join [' '] ((i :: t).map serItem) ++ ')' :: r = serItem i ++ rest ∧ StopP rest ∧
        (rest.head? = some ' ' ∨ rest.head? = some ')') ∧ parseItems rest = some (t, r) := by
      by_cases ht : t = []
      · subst ht
        exact ⟨')' :: r, by simp, stopP_paren r, Or.inr rfl, by simpa using ih.1⟩
      · refine ⟨' ' :: (join [' '] (t.map serItem) ++ ')' :: r), ?_, stopP_sp _, Or.inl rfl, ih.2 ht⟩
        rw [List.map_cons, join_cons _ _ (by simp [ht])]
        simp
    obtain ⟨rest, h1, h2, h3, h4⟩ := key
    have hp := parseItem_ser hi h2
    have go : ∀ s, s.dropWhile isSp = serItem i ++ rest → parseItems s = some (i :: t, r) := by
      intro s hs
      rw [parseItems_eq, hs]
      rw [hu, List.cons_append] at hp ⊢
      simp only
      rw [if_neg hc4, hp]
      simp only
      rw [if_pos h3, h4]
    have hd : (serItem i ++ rest).dropWhile isSp = serItem i ++ rest := by
      rw [hu, List.cons_append, List.dropWhile_cons, if_neg (by simp [isSp, hc1])]
    rw [h1]
    refine ⟨go _ hd, fun _ => go _ ?_⟩
    rw [List.dropWhile_cons, if_pos (by rfl), hd]

theorem parseEntry_ser {e : Entry} {r : Str} (he : LegalEntry e) (hr : StopP r) :
    parseEntry (serEntry e ++ r) = some (e, r) := by
  cases e with
  | item i =>
    obtain ⟨c, u, hu, _, _, hc, _⟩ := serItem_head he
    simp only [serEntry]
    rw [parseEntry_item (by rw [hu]; simp [hc]), parseItem_ser he hr]
  | inner l =>
    simp only [serEntry, serInner, List.cons_append, List.append_assoc]
    rw [parseEntry_paren, (parseItems_ser l.items he.1).1]
    simp only
    rw [parseParams_ser he.2 hr]

theorem serEntry_head {e : Entry} (he : LegalEntry e) :
    ∃ c t, serEntry e = c :: t ∧ c ≠ ' ' ∧ c ≠ '\t' := by
  cases e with
  | item i =>
    obtain ⟨c, u, hu, h1, h2, _⟩ := serItem_head he
    exact ⟨c, u, hu, h1, h2⟩
  | inner l => exact ⟨'(', _, rfl, by decide, by decide⟩

theorem stop_head_eq {r : Str} (h : Stop r) : r.head? ≠ some '=' := fun e => by
  have := h _ e; simp at this

theorem serMember_true (k : Str) (p : Params) : serMember (k, .item ⟨.bool true, p⟩) = k ++ serParams p := rfl

theorem serMember_other (k : Str) {e : Entry} (h : ∀ p, e ≠ .item ⟨.bool true, p⟩) :
    serMember (k, e) = k ++ '=' :: serEntry e := by
  unfold serMember
  split
  · rename_i heq; injection heq with _ heq; exact absurd heq (h _)
  · rename_i heq; injection heq with h1 h2; subst h1 h2; rfl

theorem parseMember_ser {k : Str} {e : Entry} {r : Str} (hk : LegalKey k) (he : LegalEntry e) (hr : StopP r) :
    parseMember (serMember (k, e) ++ r) = some ((k, e), r) := by
  by_cases ht : ∃ p, e = .item ⟨.bool true, p⟩
  · obtain ⟨p, rfl⟩ := ht
    rw [serMember_true]
    have hs := stop_serParams p hr
    rw [parseMember_eq, List.append_assoc, parseKey_ser hk hs.isKeyChar]
    simp only
    rw [if_neg (stop_head_eq hs), parseParams_ser he.2 hr]
  · rw [serMember_other k (fun p hp => ht ⟨p, hp⟩), parseMember_eq, List.append_assoc, List.cons_append,
      parseKey_ser hk (by intro c hc; simp at hc; subst hc; rfl)]
    simp only [List.head?_cons, if_true, List.tail_cons]
    rw [parseEntry_ser he hr]

theorem serMember_head {k : Str} (e : Entry) (hk : LegalKey k) :
    ∃ c t, serMember (k, e) = c :: t ∧ c ≠ ' ' ∧ c ≠ '\t' := by
  obtain ⟨c, t, rfl, hc, _⟩ := legalKey_cons hk
  have h1 : c ≠ ' ' := by intro e; subst e; revert hc; decide
  have h2 : c ≠ '\t' := by intro e; subst e; revert hc; decide
  by_cases ht : ∃ p, e = .item ⟨.bool true, p⟩
  · obtain ⟨p, rfl⟩ := ht
    rw [serMember_true]
    exact ⟨c, _, rfl, h1, h2⟩
  · rw [serMember_other _ (fun p hp => ht ⟨p, hp⟩)]
    exact ⟨c, _, rfl, h1, h2⟩

/-! ### Lists and dictionaries -/

theorem parseSep_ser {α : Type} {p : Str → Option (α × Str)} {ser : α → Str} (hp : Prog p) (l : List α)
    (hser : ∀ x ∈ l, ∀ r, StopP r → p (ser x ++ r) = some (x, r))
    (hhead : ∀ x ∈ l, ∃ c t, ser x = c :: t ∧ c ≠ ' ' ∧ c ≠ '\t') :
    parseSep p (join [',', ' '] (l.map ser)) = some l := by
  induction l with
  | nil => exact parseSep_nil
  | cons x t ih =>
    have ih := ih (fun y hy => hser y (by simp [hy])) (fun y hy => hhead y (by simp [hy]))
    obtain ⟨c, u, hu, hc1, hc2⟩ := hhead x (by simp)
    by_cases ht : t = []
    · subst ht
      simp only [List.map_cons, List.map_nil, join_one]
      rw [parseSep_eq hp (by rw [hu]; simp)]
      have := hser x (by simp) [] stopP_nil
      rw [List.append_nil] at this
      rw [this]
      rfl
    · rw [List.map_cons, join_cons _ _ (by simp [ht])]
      have hne : join [',', ' '] (t.map ser) ≠ [] ∧ ∀ y, (join [',', ' '] (t.map ser)).head? = some y → isOws y = false := by
        cases t with
        | nil => exact absurd rfl ht
        | cons y t' =>
          obtain ⟨d, v, hv, hd1, hd2⟩ := hhead y (by simp)
          have : ∃ w, join [',', ' '] ((y :: t').map ser) = d :: w := by
            by_cases h : t' = []
            · subst h; exact ⟨v, by simp [hv]⟩
            · rw [List.map_cons, join_cons _ _ (by simp [h]), hv]
              exact ⟨_, rfl⟩
          obtain ⟨w, hw⟩ := this
          rw [hw]
          refine ⟨by simp, ?_⟩
          intro z hz
          simp at hz; subst hz
          simp [isOws, hd1, hd2]
      rw [parseSep_eq hp (by rw [hu]; simp), List.append_assoc]
      simp only [List.cons_append, List.nil_append]
      rw [hser x (by simp) _ (stopP_comma _)]
      simp only
      rw [dropWhile_stop (comma_stop (by rfl) _)]
      simp only [if_true]
      rw [List.dropWhile_cons, if_pos (by rfl), dropWhile_stop hne.2]
      cases hj : join [',', ' '] (t.map ser) with
      | nil => exact absurd hj hne.1
      | cons d w =>
        simp only
        rw [← hj, ih]

theorem join_head_not_sp {l : List Str} (h : ∀ x ∈ l, ∃ c t, x = c :: t ∧ c ≠ ' ' ∧ c ≠ '\t') :
    ∀ c, (join [',', ' '] l).head? = some c → isSp c = false := by
  intro c hc
  cases l with
  | nil => simp at hc
  | cons x t =>
    obtain ⟨d, u, rfl, hd, _⟩ := h x (by simp)
    have : (join [',', ' '] ((d :: u) :: t)).head? = some d := by
      by_cases ht : t = []
      · subst ht; rfl
      · rw [join_cons _ _ ht]; rfl
    rw [this] at hc
    injection hc with hc; subst hc
    simp [isSp, hd]

/-- The parser inverts the serializer on legal lists. -/
theorem parseList_ser {l : SList} (hl : LegalList l) {s : Str} (h : serList l = some s) : parseList s = some l := by
  unfold serList at h
  split at h
  · cases h
  injection h with h; subst h
  unfold parseList
  rw [dropWhile_stop (join_head_not_sp (by
    intro x hx
    obtain ⟨e, he, rfl⟩ := List.mem_map.1 hx
    exact serEntry_head (hl e he)))]
  exact parseSep_ser parseEntry_prog l (fun e he r hr => parseEntry_ser (hl e he) hr) (fun e he => serEntry_head (hl e he))

/-- The parser inverts the serializer on legal dictionaries. -/
theorem parseDict_ser {d : Dict} (hd : LegalDict d) {s : Str} (h : serDict d = some s) : parseDict s = some d := by
  unfold serDict at h
  split at h
  · cases h
  injection h with h; subst h
  unfold parseDict
  rw [dropWhile_stop (join_head_not_sp (by
    intro x hx
    obtain ⟨e, he, rfl⟩ := List.mem_map.1 hx
    exact serMember_head _ (hd.2 e he).1))]
  rw [parseSep_ser parseMember_prog d (fun e he r hr => parseMember_ser (hd.2 e he).1 (hd.2 e he).2 hr)
    (fun e he => serMember_head _ (hd.2 e he).1)]
  simp only
  rw [imOfList_of_nodup hd.1]

/-- The parser inverts the serializer on legal items. -/
theorem parseItemTop_ser {i : Item} (hi : LegalItem i) : parseItemTop (serItem i) = some i := by
  unfold parseItemTop
  obtain ⟨c, u, hu, hc, _⟩ := serItem_head hi
  rw [dropWhile_stop (by rw [hu]; intro x hx; simp at hx; subst hx; simp [isSp, hc])]
  have := parseItem_ser hi stopP_nil
  rw [List.append_nil] at this
  rw [this]
  rfl

end Verif.Sfv
