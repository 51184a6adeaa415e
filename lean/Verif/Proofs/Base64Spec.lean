import Verif.Proofs.Base64
import Verif.Spec.Base64
/-! The encoder of the model is base64 as in the specification. -/
namespace Verif.Base64
open Spec

theorem encChar_alphabet : ∀ n < 64, encChar n = alphabet.getD n '?' := by decide

theorem bits8_len (a : UInt8) : ∃ x7 x6 x5 x4 x3 x2 x1 x0, bits8 a = [x7, x6, x5, x4, x3, x2, x1, x0] ∧
    bitsVal [x7, x6, x5, x4, x3, x2] = a.toNat / 4 ∧ bitsVal [x1, x0] = a.toNat % 4 ∧
    bitsVal [x7, x6, x5, x4] = a.toNat / 16 ∧ bitsVal [x3, x2, x1, x0] = a.toNat % 16 ∧
    bitsVal [x7, x6] = a.toNat / 64 ∧ bitsVal [x5, x4, x3, x2, x1, x0] = a.toNat % 64 := by
  have h := a.toNat_lt
  simp only [Nat.reducePow] at h
  refine ⟨_, _, _, _, _, _, _, _, rfl, ?_⟩
  generalize a.toNat = n at h
  simp only [bitsVal, List.foldl, Nat.testBit, Nat.shiftRight_eq_div_pow, Nat.one_and_eq_mod_two]
  have e : ∀ m : Nat, ((m % 2 != 0).toNat) = m % 2 := by
    intro m
    rcases Nat.mod_two_eq_zero_or_one m with h | h <;> simp [h]
  simp only [e, Nat.reducePow]
  omega

theorem bitsVal6 (a b c d e f : Bool) :
    bitsVal [a, b, c, d, e, f] = bitsVal [a, b] * 16 + bitsVal [c, d, e, f] ∧
    bitsVal [a, b, c, d, e, f] = bitsVal [a, b, c, d] * 4 + bitsVal [e, f] := by
  simp only [bitsVal, List.foldl]; omega

theorem encode_len4 : ∀ b : Bytes, (encode b).length % 4 = 0
  | [] => rfl
  | [_] => by simp [encode]
  | [_, _] => by simp [encode]
  | a :: b :: c :: t => by
    have := encode_len4 t
    simp only [encode, List.length_cons]; omega

theorem base64_three (a b c : UInt8) (t : Bytes) :
    base64Raw (a :: b :: c :: t) =
      encChar (a.toNat / 4) :: encChar (a.toNat % 4 * 16 + b.toNat / 16) :: encChar (b.toNat % 16 * 4 + c.toNat / 64) ::
        encChar (c.toNat % 64) :: base64Raw t := by
  have ha := a.toNat_lt; have hb := b.toNat_lt; have hc := c.toNat_lt
  simp only [Nat.reducePow] at ha hb hc
  obtain ⟨a7, a6, a5, a4, a3, a2, a1, a0, ea, a_1, a_2, a_3, a_4, a_5, a_6⟩ := bits8_len a
  obtain ⟨b7, b6, b5, b4, b3, b2, b1, b0, eb, b_1, b_2, b_3, b_4, b_5, b_6⟩ := bits8_len b
  obtain ⟨c7, c6, c5, c4, c3, c2, c1, c0, ec, c_1, c_2, c_3, c_4, c_5, c_6⟩ := bits8_len c
  unfold base64Raw
  simp only [List.flatMap_cons, ea, eb, ec, List.cons_append, List.nil_append, sixes, List.map_cons]
  rw [encChar_alphabet _ (by omega), encChar_alphabet _ (by omega), encChar_alphabet _ (by omega), encChar_alphabet _ (by omega)]
  rw [a_1, (bitsVal6 a1 a0 b7 b6 b5 b4).1, a_2, b_3, (bitsVal6 b3 b2 b1 b0 c7 c6).2, b_4, c_5, c_6]

theorem base64_cons (a b c : UInt8) (t : Bytes) :
    base64 (a :: b :: c :: t) =
      encChar (a.toNat / 4) :: encChar (a.toNat % 4 * 16 + b.toNat / 16) :: encChar (b.toNat % 16 * 4 + c.toNat / 64) ::
        encChar (c.toNat % 64) :: base64 t := by
  unfold base64
  rw [base64_three]
  simp only [List.length_cons, List.cons_append]
  rw [show ((base64Raw t).length + 1 + 1 + 1 + 1) % 4 = (base64Raw t).length % 4 by omega]

/-- The model's encoder is RFC 4648 base64. -/
theorem encode_eq_spec : ∀ b : Bytes, encode b = base64 b
  | [] => rfl
  | [a] => by
    have ha := a.toNat_lt
    simp only [Nat.reducePow] at ha
    obtain ⟨a7, a6, a5, a4, a3, a2, a1, a0, ea, a_1, a_2, a_3, a_4, a_5, a_6⟩ := bits8_len a
    have z : bitsVal [false, false, false, false] = 0 := rfl
    have hraw : base64Raw [a] = [encChar (a.toNat / 4), encChar (a.toNat % 4 * 16)] := by
      unfold base64Raw
      simp only [List.flatMap_cons, List.flatMap_nil, ea, List.append_nil, sixes, List.map_cons, List.map_nil]
      rw [encChar_alphabet _ (by omega), encChar_alphabet _ (by omega), a_1, (bitsVal6 a1 a0 _ _ _ _).1, a_2, z]
      simp
    unfold base64
    rw [hraw]; rfl
  | [a, b] => by
    have ha := a.toNat_lt; have hb := b.toNat_lt
    simp only [Nat.reducePow] at ha hb
    obtain ⟨a7, a6, a5, a4, a3, a2, a1, a0, ea, a_1, a_2, a_3, a_4, a_5, a_6⟩ := bits8_len a
    obtain ⟨b7, b6, b5, b4, b3, b2, b1, b0, eb, b_1, b_2, b_3, b_4, b_5, b_6⟩ := bits8_len b
    have z : bitsVal [false, false] = 0 := rfl
    have hraw : base64Raw [a, b] = [encChar (a.toNat / 4), encChar (a.toNat % 4 * 16 + b.toNat / 16), encChar (b.toNat % 16 * 4)] := by
      unfold base64Raw
      simp only [List.flatMap_cons, List.flatMap_nil, ea, eb, List.cons_append, List.nil_append, List.append_nil, sixes,
        List.map_cons, List.map_nil]
      rw [encChar_alphabet _ (by omega), encChar_alphabet _ (by omega), encChar_alphabet _ (by omega), a_1,
        (bitsVal6 a1 a0 b7 b6 b5 b4).1, a_2, b_3, (bitsVal6 b3 b2 b1 b0 _ _).2, b_4, z]
      simp
    unfold base64
    rw [hraw]
    simp only [encode]
    rw [show (a.toNat * 256 + b.toNat) / 1024 = a.toNat / 4 by omega,
      show (a.toNat * 256 + b.toNat) / 16 % 64 = a.toNat % 4 * 16 + b.toNat / 16 by omega,
      show (a.toNat * 256 + b.toNat) % 16 = b.toNat % 16 by omega]
    rfl
  | a :: b :: c :: t => by
    have ha := a.toNat_lt; have hb := b.toNat_lt; have hc := c.toNat_lt
    simp only [Nat.reducePow] at ha hb hc
    rw [base64_cons, ← encode_eq_spec t]
    simp only [encode]
    rw [show (a.toNat * 65536 + b.toNat * 256 + c.toNat) / 262144 = a.toNat / 4 by omega,
      show (a.toNat * 65536 + b.toNat * 256 + c.toNat) / 4096 % 64 = a.toNat % 4 * 16 + b.toNat / 16 by omega,
      show (a.toNat * 65536 + b.toNat * 256 + c.toNat) / 64 % 64 = b.toNat % 16 * 4 + c.toNat / 64 by omega,
      show (a.toNat * 65536 + b.toNat * 256 + c.toNat) % 64 = c.toNat % 64 by omega]

end Verif.Base64
