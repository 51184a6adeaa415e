import Verif.Model.Der
import Verif.Proofs.Sha
import Verif.Proofs.Ecdsa
/-! Lemmas on DER: reading inverts writing, and only what was written is read. -/
namespace Verif.Der
open Sha2 Ec

theorem pow256 (k : Nat) : 256 ^ k = 2 ^ (8 * k) := by rw [show 256 = 2 ^ 8 by norm_num, ← pow_mul]

theorem log2_lt (n : Nat) : n < 256 ^ (Nat.log2 n / 8 + 1) := by
  rw [pow256]
  refine lt_of_lt_of_le Nat.lt_log2_self (Nat.pow_le_pow_right (by omega) (by omega))

theorem log2_ge {n : Nat} (h : n ≠ 0) : 256 ^ (Nat.log2 n / 8) ≤ n := by
  rw [pow256]
  exact le_trans (Nat.pow_le_pow_right (by omega) (by omega)) (Nat.log2_self_le h)

/-- The number of bytes is determined by the bounds. -/
theorem bytes_unique {n k : Nat} (h0 : 256 ^ k ≤ n) (h1 : n < 256 ^ (k + 1)) : Nat.log2 n / 8 = k := by
  have hn : n ≠ 0 := by have := Nat.pow_pos (n := k) (show 0 < 256 by omega); omega
  have a := log2_ge hn
  have b := log2_lt n
  have h2 : k < Nat.log2 n / 8 + 1 := (Nat.pow_lt_pow_iff_right (by omega)).1 (lt_of_le_of_lt h0 b)
  have h3 : Nat.log2 n / 8 < k + 1 := (Nat.pow_lt_pow_iff_right (by omega)).1 (lt_of_le_of_lt a h1)
  omega

theorem toNat_ofNat {n : Nat} (h : n < 256) : (UInt8.ofNat n).toNat = n := by
  simp [UInt8.toNat_ofNat', Nat.mod_eq_of_lt h]

theorem ofNat_toNat' (b : UInt8) : UInt8.ofNat b.toNat = b := by simp

theorem readLen_lenBytes {n : Nat} (h : n < 2 ^ 32) (r : Bytes) : readLen (lenBytes n ++ r) = some (n, r) := by
  unfold lenBytes
  by_cases h1 : n < 128
  · rw [if_pos h1, List.cons_append, readLen, toNat_ofNat (by omega), if_pos h1, List.nil_append]
  · rw [if_neg h1, List.cons_append, readLen]
    have hk : Nat.log2 n / 8 < 4 := by
      have := log2_ge (show n ≠ 0 by omega)
      rw [pow256] at this
      have := (Nat.pow_lt_pow_iff_right (show 1 < 2 by omega)).1 (lt_of_le_of_lt this h)
      omega
    have hlt := log2_lt n
    have hge := log2_ge (show n ≠ 0 by omega)
    generalize Nat.log2 n / 8 = k at *
    rw [toNat_ofNat (by omega), if_neg (by omega)]
    simp only
    rw [show 128 + (k + 1) - 128 = k + 1 by omega, List.take_left' (Verif.beBytes_length _ _),
      List.drop_left' (Verif.beBytes_length _ _), beNat_beBytes hlt, if_neg]
    rw [List.length_append, Verif.beBytes_length, Nat.add_sub_cancel]
    omega

theorem readLen_some {b r : Bytes} {n : Nat} (h : readLen b = some (n, r)) : b = lenBytes n ++ r := by
  cases b with
  | nil => cases h
  | cons x t =>
    rw [readLen] at h
    split at h
    · next hx =>
      cases h
      rw [lenBytes, if_pos hx, ofNat_toNat']; rfl
    · next hx =>
      simp only at h
      split at h
      · cases h
      · next hc =>
        simp only [Option.some.injEq, Prod.mk.injEq] at h
        obtain ⟨rfl, rfl⟩ := h
        have hx' := x.toNat_lt
        obtain ⟨k, hk⟩ : ∃ k, x.toNat = 128 + (k + 1) := ⟨x.toNat - 129, by omega⟩
        have hk' : x.toNat - 128 = k + 1 := by omega
        rw [hk'] at hc ⊢
        have hl : (t.take (k + 1)).length = k + 1 := by rw [List.length_take]; omega
        have hlt : beNat (t.take (k + 1)) < 256 ^ (k + 1) := by have := beNat_lt (t.take (k + 1)); rwa [hl] at this
        have hu := bytes_unique (n := beNat (t.take (k + 1))) (k := k) (by rw [Nat.add_sub_cancel] at hc; omega) hlt
        rw [lenBytes, if_neg (by omega), hu, ← hk, ofNat_toNat', List.cons_append]
        have := beBytes_beNat (t.take (k + 1))
        rw [hl] at this
        rw [this, List.take_append_drop]

theorem readLen_bound {b r : Bytes} {n : Nat} (h : readLen b = some (n, r)) : n < 2 ^ 32 := by
  cases b with
  | nil => cases h
  | cons x t =>
    rw [readLen] at h
    split at h
    · cases h; omega
    · simp only at h
      split at h
      · cases h
      · next hc =>
        simp only [Option.some.injEq, Prod.mk.injEq] at h
        obtain ⟨rfl, rfl⟩ := h
        have := beNat_lt (t.take (x.toNat - 128))
        have hl : (t.take (x.toNat - 128)).length ≤ 4 := by rw [List.length_take]; omega
        exact lt_of_lt_of_le this (le_trans (Nat.pow_le_pow_right (by omega) hl) (by norm_num))

variable {L : Lib}

/-- A length that can be read. -/
def Fits (L : Lib) (c : Bytes) : Prop := c.length ≤ L.maxLen ∧ c.length < 2 ^ 32

theorem readAny_iff {b c r : Bytes} {t : UInt8} : readAny L b = some (t, c, r) ↔ b = tlv t c ++ r ∧ Fits L c := by
  constructor
  · intro h
    cases b with
    | nil => cases h
    | cons x s =>
      rw [readAny] at h
      split at h
      · cases h
      · next n s' hl =>
        split at h
        · cases h
        · next hc =>
          cases h
          have hlen : (s'.take n).length = n := by rw [List.length_take]; omega
          refine ⟨?_, by rw [Fits, hlen]; exact ⟨by omega, readLen_bound hl⟩⟩
          rw [tlv, hlen, readLen_some hl, List.cons_append, List.cons_append, List.append_assoc, List.take_append_drop]
  · rintro ⟨rfl, h1, h2⟩
    rw [tlv, List.cons_append, List.cons_append, readAny, List.append_assoc, readLen_lenBytes h2]
    simp only
    rw [if_neg (by rw [List.length_append]; omega), List.take_left' rfl, List.drop_left' rfl]

theorem read_iff {b c r : Bytes} {t : UInt8} : read L t b = some (c, r) ↔ b = tlv t c ++ r ∧ Fits L c := by
  rw [← readAny_iff, read]
  split
  · next t' c' r' h =>
    rw [h]
    split
    · next ht => subst ht; simp
    · next ht => simp [ht]
  · next h => rw [h]; simp

theorem readAll_iff {b c : Bytes} {t : UInt8} : readAll L t b = some c ↔ b = tlv t c ∧ Fits L c := by
  have := read_iff (L := L) (b := b) (c := c) (r := []) (t := t)
  rw [List.append_nil] at this
  rw [← this, readAll]
  split
  · next h => rw [h]; simp
  · next h =>
    constructor
    · intro h'; cases h'
    · intro h'; exact absurd h' (h c)

theorem uintBytes_form (n : Nat) : ∃ k, uintBytes n = beBytes (k + 1) n ∧ n < 128 * 256 ^ k ∧ (k ≠ 0 → 128 * 256 ^ (k - 1) ≤ n) := by
  unfold uintBytes
  by_cases h : n = 0
  · subst h; exact ⟨0, rfl, by norm_num, by simp⟩
  · rw [if_neg h]
    refine ⟨(Nat.log2 n + 1) / 8, rfl, ?_, ?_⟩
    · rw [pow256, show 128 = 2 ^ 7 by norm_num, ← pow_add]
      exact lt_of_lt_of_le Nat.lt_log2_self (Nat.pow_le_pow_right (by omega) (by omega))
    · intro h0
      rw [pow256, show 128 = 2 ^ 7 by norm_num, ← pow_add]
      exact le_trans (Nat.pow_le_pow_right (by omega) (by omega)) (Nat.log2_self_le h)

theorem beNat_cons (a : UInt8) (t : Bytes) : beNat (a :: t) = a.toNat * 256 ^ t.length + beNat t := by
  rw [beNat_eq, beNat_eq]; exact Spec.Sha.beVal.eq_2 _ _

theorem uint_unique {n j k : Nat} (h1 : n < 128 * 256 ^ j) (h2 : j ≠ 0 → 128 * 256 ^ (j - 1) ≤ n) (h3 : n < 128 * 256 ^ k)
    (h4 : k ≠ 0 → 128 * 256 ^ (k - 1) ≤ n) : j = k := by
  have key : ∀ {j k : Nat}, n < 128 * 256 ^ j → (k ≠ 0 → 128 * 256 ^ (k - 1) ≤ n) → k ≤ j := by
    intro j k h1 h4
    by_contra hlt
    have := h4 (by omega)
    have h5 : 256 ^ (k - 1) < 256 ^ j := by omega
    have := (Nat.pow_lt_pow_iff_right (show 1 < 256 by omega)).1 h5
    omega
  have := key h1 h4
  have := key h3 h2
  omega

theorem decUint_iff {c : Bytes} {n : Nat} : decUint c = some n ↔ c = uintBytes n := by
  have fwd : ∀ {c : Bytes} {n : Nat}, decUint c = some n → c = uintBytes n := by
    intro c n h
    obtain ⟨k, hk, h1, h2⟩ := uintBytes_form n
    rw [hk]
    match c, h with
    | [a], h =>
      rw [decUint] at h
      split at h
      · next ha =>
        cases h
        have : k = 0 := uint_unique h1 h2 (k := 0) (by simpa using ha) (by simp)
        subst this
        simp [beBytes]
      · cases h
    | a :: b :: t, h =>
      rw [decUint] at h
      split at h
      · cases h
      · next hc =>
        cases h
        have hb := b.toNat_lt
        have ht := beNat_lt t
        have e : beNat (a :: b :: t) = a.toNat * 256 ^ (t.length + 1) + (b.toNat * 256 ^ t.length + beNat t) := by
          rw [beNat_cons, beNat_cons, List.length_cons]
        have hlt : beNat (a :: b :: t) < 128 * 256 ^ (t.length + 1) := by
          have h3 : beNat (b :: t) < 256 ^ (t.length + 1) := by simpa using beNat_lt (b :: t)
          rw [beNat_cons, List.length_cons]
          have := Nat.mul_le_mul_right (256 ^ (t.length + 1)) (show a.toNat + 1 ≤ 128 by omega)
          rw [Nat.add_mul] at this
          omega
        have hge : 128 * 256 ^ t.length ≤ beNat (a :: b :: t) := by
          rw [e]
          by_cases ha : a = 0
          · have := Nat.mul_le_mul_right (256 ^ t.length) (show 128 ≤ b.toNat by
              by_contra hb'; exact hc (Or.inr ⟨ha, by omega⟩))
            omega
          · have ha' : 1 ≤ a.toNat := by
              rcases Nat.eq_zero_or_pos a.toNat with h0 | h0
              · exact absurd (UInt8.toNat_inj.1 h0) ha
              · exact h0
            have := Nat.mul_le_mul_right (256 ^ (t.length + 1)) ha'
            have h5 : 256 ^ (t.length + 1) = 256 * 256 ^ t.length := by rw [pow_succ, Nat.mul_comm]
            omega
        have : k = t.length + 1 := uint_unique h1 h2 hlt (fun _ => by simpa using hge)
        subst this
        have := beBytes_beNat (a :: b :: t)
        rw [List.length_cons, List.length_cons] at this
        exact this.symm
  constructor
  · exact fwd
  · rintro rfl
    -- the encoding is accepted, and then it stands for itself
    obtain ⟨k, hk, h1, h2⟩ := uintBytes_form n
    have hlen : (uintBytes n).length = k + 1 := by rw [hk, Verif.beBytes_length]
    have hval : beNat (uintBytes n) = n := by
      rw [hk, beNat_beBytes]
      have := Nat.pow_pos (n := k) (show 0 < 256 by omega)
      rw [pow_succ]; omega
    match hu : uintBytes n with
    | [] => rw [hu] at hlen; simp at hlen
    | [a] =>
      rw [hu] at hlen hval
      have : k = 0 := by simpa using hlen.symm
      subst this
      have ha : beNat [a] = a.toNat := by simp [beNat]
      rw [ha] at hval
      rw [decUint, if_pos (by omega), hval]
    | a :: b :: t =>
      rw [hu] at hlen hval
      have hk' : k = t.length + 1 := by simpa using hlen.symm
      subst hk'
      rw [decUint, if_neg, hval]
      have h3 := beNat_lt (b :: t)
      have h4 := beNat_lt t
      have h5 := h2 (by omega)
      rw [Nat.add_sub_cancel] at h5
      rintro (ha | ⟨ha, hb⟩)
      · rw [beNat_cons, List.length_cons] at hval
        have := Nat.mul_le_mul_right (256 ^ (t.length + 1)) ha
        omega
      · subst ha
        rw [beNat_cons, beNat_cons] at hval
        have := Nat.mul_le_mul_right (256 ^ t.length) (show b.toNat + 1 ≤ 128 by omega)
        rw [Nat.add_mul] at this
        simp at hval
        omega

theorem readUint_iff {b r : Bytes} {n : Nat} :
    readUint L b = some (n, r) ↔ b = tlv 2 (uintBytes n) ++ r ∧ Fits L (uintBytes n) := by
  rw [← read_iff, readUint]
  split
  · next c r' h =>
    rw [h]
    simp only [Option.map_eq_some_iff, Prod.mk.injEq, Option.some.injEq]
    constructor
    · rintro ⟨m, hm, rfl, rfl⟩; exact ⟨decUint_iff.1 hm, rfl⟩
    · rintro ⟨rfl, rfl⟩; exact ⟨n, decUint_iff.2 rfl, rfl, rfl⟩
  · next h => rw [h]; simp

end Verif.Der
