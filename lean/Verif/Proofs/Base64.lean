import Verif.Model.Base64
/-! Lemmas on base64: the decoders invert the encoder; the strict decoder accepts only canonical texts. -/
namespace Verif.Base64

theorem decChar_encChar : ∀ n < 64, decChar (encChar n) = some n := by decide

theorem encChar_ne_pad : ∀ n < 64, encChar n ≠ '=' := by decide

theorem encChar_ne_colon : ∀ n < 64, encChar n ≠ ':' := by decide

theorem decChar_some {c : Char} {n : Nat} (h : decChar c = some n) : n < 64 ∧ encChar n = c := by
  have hc : Char.ofNat c.toNat = c := Char.ofNat_toNat c
  unfold decChar at h
  simp only at h
  split at h
  · injection h with h; subst h
    refine ⟨by omega, ?_⟩
    unfold encChar
    rw [if_pos (by omega)]
    rw [show 65 + (c.toNat - 65) = c.toNat by omega, hc]
  split at h
  · injection h with h; subst h
    refine ⟨by omega, ?_⟩
    unfold encChar
    rw [if_neg (by omega), if_pos (by omega)]
    rw [show 97 + (c.toNat - 97 + 26 - 26) = c.toNat by omega, hc]
  split at h
  · injection h with h; subst h
    refine ⟨by omega, ?_⟩
    unfold encChar
    rw [if_neg (by omega), if_neg (by omega), if_pos (by omega)]
    rw [show 48 + (c.toNat - 48 + 52 - 52) = c.toNat by omega, hc]
  split at h
  · injection h with h; subst h; subst c; decide
  split at h
  · injection h with h; subst h; subst c; decide
  · cases h

theorem u8_of {k : Nat} {a : UInt8} (h : k = a.toNat) : UInt8.ofNat k = a := by
  subst h; exact UInt8.ofNat_toNat

theorem dec4_enc (a b c : UInt8) :
    let n := a.toNat * 65536 + b.toNat * 256 + c.toNat
    dec4 (encChar (n / 262144)) (encChar (n / 4096 % 64)) (encChar (n / 64 % 64)) (encChar (n % 64)) =
      some [a, b, c] := by
  intro n
  have ha := a.toNat_lt; have hb := b.toNat_lt; have hc := c.toNat_lt
  simp only [Nat.reducePow] at ha hb hc
  unfold dec4
  rw [decChar_encChar _ (by omega), decChar_encChar _ (by omega), decChar_encChar _ (by omega),
    decChar_encChar _ (by omega)]
  simp only
  rw [u8_of (a := a) (by omega), u8_of (a := b) (by omega), u8_of (a := c) (by omega)]

theorem dec3_enc (strict : Bool) (a b : UInt8) :
    let n := a.toNat * 256 + b.toNat
    dec3 strict (encChar (n / 1024)) (encChar (n / 16 % 64)) (encChar (n % 16 * 4)) = some [a, b] := by
  intro n
  have ha := a.toNat_lt; have hb := b.toNat_lt
  simp only [Nat.reducePow] at ha hb
  unfold dec3
  rw [decChar_encChar _ (by omega), decChar_encChar _ (by omega), decChar_encChar _ (by omega)]
  simp only
  rw [if_neg (by omega), u8_of (a := a) (by omega), u8_of (a := b) (by omega)]

theorem dec2_enc (strict : Bool) (a : UInt8) :
    dec2 strict (encChar (a.toNat / 4)) (encChar (a.toNat % 4 * 16)) = some [a] := by
  have ha := a.toNat_lt
  simp only [Nat.reducePow] at ha
  unfold dec2
  rw [decChar_encChar _ (by omega), decChar_encChar _ (by omega)]
  simp only
  rw [if_neg (by omega), u8_of (a := a) (by omega)]

theorem decode_step (strict : Bool) (a b c d : Char) (t : Str) (ht : t ≠ []) :
    decode strict (a :: b :: c :: d :: t) =
      match dec4 a b c d, decode strict t with
      | some x, some y => some (x ++ y)
      | _, _ => none := by
  cases t with
  | nil => exact absurd rfl ht
  | cons e t =>
    rw [decode]
    cases dec4 a b c d <;> cases decode strict (e :: t) <;> rfl

theorem decode_four (strict : Bool) (a b c d : Char) :
    decode strict [a, b, c, d] = decLast strict [a, b, c, d] := by
  rw [decode]; intros; simp_all

theorem encode_eq_nil {b : Bytes} : encode b = [] ↔ b = [] := by
  constructor
  · intro h
    match b with
    | [] => rfl
    | [_] => simp [encode] at h
    | [_, _] => simp [encode] at h
    | _ :: _ :: _ :: _ => simp [encode] at h
  · rintro rfl; rfl

theorem decode_nil (strict : Bool) : decode strict [] = some [] := by
  rw [decode]; rfl; intros; simp_all

/-- Both decoders invert the encoder. -/
theorem decode_encode (strict : Bool) : ∀ b : Bytes, decode strict (encode b) = some b
  | [] => by rw [show encode [] = [] from rfl, decode_nil]
  | [a] => by
    have ha := a.toNat_lt
    simp only [Nat.reducePow] at ha
    unfold encode
    simp only
    rw [decode_four, decLast, if_pos rfl, if_pos rfl, dec2_enc]
  | [a, b] => by
    have ha := a.toNat_lt; have hb := b.toNat_lt
    simp only [Nat.reducePow] at ha hb
    unfold encode
    simp only
    rw [decode_four, decLast, if_pos rfl, if_neg (encChar_ne_pad _ (by omega)), dec3_enc]
  | a :: b :: c :: t => by
    have ha := a.toNat_lt; have hb := b.toNat_lt; have hc := c.toNat_lt
    simp only [Nat.reducePow] at ha hb hc
    unfold encode
    simp only
    have ih := decode_encode strict t
    cases ht : encode t with
    | nil =>
      have : t = [] := encode_eq_nil.1 ht
      subst this
      rw [decode_four, decLast, if_neg (encChar_ne_pad _ (by omega)), dec4_enc]
    | cons x xs =>
      rw [decode_step _ _ _ _ _ _ (by simp), dec4_enc, ← ht, ih]
      simp

theorem u8n {k : Nat} (h : k < 256) : (UInt8.ofNat k).toNat = k := by
  simp [UInt8.toNat_ofNat', Nat.mod_eq_of_lt h]

theorem dec4_some {a b c d : Char} {x : Bytes} (h : dec4 a b c d = some x) :
    ∃ p q r, x = [p, q, r] ∧ ∀ t, encode (p :: q :: r :: t) = a :: b :: c :: d :: encode t := by
  unfold dec4 at h
  split at h
  case h_2 => cases h
  rename_i x1 y1 z1 w1 hx hy hz hw
  injection h with h; subst h
  obtain ⟨hx1, hx2⟩ := decChar_some hx
  obtain ⟨hy1, hy2⟩ := decChar_some hy
  obtain ⟨hz1, hz2⟩ := decChar_some hz
  obtain ⟨hw1, hw2⟩ := decChar_some hw
  refine ⟨_, _, _, rfl, fun t => ?_⟩
  rw [encode]
  rw [u8n (by omega), u8n (by omega), u8n (by omega)]
  rw [← hx2, ← hy2, ← hz2, ← hw2]
  congr 2
  · omega
  · congr 1; omega
  · congr 2
    · omega
    · congr 2; omega

theorem dec3_some {a b c : Char} {x : Bytes} (h : dec3 true a b c = some x) :
    encode x = [a, b, c, '='] := by
  unfold dec3 at h
  split at h
  case h_2 => cases h
  rename_i x1 y1 z1 hx hy hz
  split at h
  · cases h
  injection h with h; subst h
  obtain ⟨hx1, hx2⟩ := decChar_some hx
  obtain ⟨hy1, hy2⟩ := decChar_some hy
  obtain ⟨hz1, hz2⟩ := decChar_some hz
  have hz0 : z1 % 4 = 0 := by simp_all
  rw [encode]
  rw [u8n (by omega), u8n (by omega)]
  rw [← hx2, ← hy2, ← hz2]
  congr 2
  · omega
  · congr 1; omega
  · congr 2
    omega

theorem dec2_some {a b : Char} {x : Bytes} (h : dec2 true a b = some x) :
    encode x = [a, b, '=', '='] := by
  unfold dec2 at h
  split at h
  case h_2 => cases h
  rename_i x1 y1 hx hy
  split at h
  · cases h
  injection h with h; subst h
  obtain ⟨hx1, hx2⟩ := decChar_some hx
  obtain ⟨hy1, hy2⟩ := decChar_some hy
  have hy0 : y1 % 16 = 0 := by simp_all
  rw [encode]
  rw [u8n (by omega)]
  rw [← hx2, ← hy2]
  congr 2
  · omega
  · congr 1; omega

/-- The strict decoder accepts only what the encoder writes. -/
theorem encode_of_decode_strict : ∀ (s : Str) (b : Bytes), decode true s = some b → encode b = s
  | [], b, h => by rw [decode_nil] at h; injection h with h; subst h; rfl
  | [_], b, h => by rw [decode] at h; simp [decLast] at h; intros; simp_all
  | [_, _], b, h => by rw [decode] at h; simp [decLast] at h; intros; simp_all
  | [_, _, _], b, h => by rw [decode] at h; simp [decLast] at h; intros; simp_all
  | [p, q, r, s], b, h => by
    rw [decode_four, decLast] at h
    split at h
    · rename_i hs
      split at h
      · rename_i hr
        rw [dec2_some h, hr, hs]
      · rw [dec3_some h, hs]
    · obtain ⟨x, y, z, rfl, he⟩ := dec4_some h
      rw [he, show encode [] = [] from rfl]
  | p :: q :: r :: s :: e :: t, b, h => by
    rw [decode_step _ _ _ _ _ _ (by simp)] at h
    split at h
    case h_2 => cases h
    rename_i x y hx hy
    injection h with h; subst h
    obtain ⟨x, y', z, rfl, he⟩ := dec4_some hx
    have := encode_of_decode_strict (e :: t) y hy
    simp [he, this]

theorem encode_no_colon : ∀ b : Bytes, ':' ∉ encode b
  | [] => by simp [encode]
  | [a] => by
    have ha := a.toNat_lt
    simp only [Nat.reducePow] at ha
    simp [encode, (encChar_ne_colon _ (show a.toNat / 4 < 64 by omega)).symm,
      (encChar_ne_colon _ (show a.toNat % 4 * 16 < 64 by omega)).symm]
  | [a, b] => by
    have ha := a.toNat_lt; have hb := b.toNat_lt
    simp only [Nat.reducePow] at ha hb
    have h1 := (encChar_ne_colon ((a.toNat * 256 + b.toNat) / 1024) (by omega)).symm
    have h2 := (encChar_ne_colon ((a.toNat * 256 + b.toNat) / 16 % 64) (by omega)).symm
    have h3 := (encChar_ne_colon ((a.toNat * 256 + b.toNat) % 16 * 4) (by omega)).symm
    simp [encode, h1, h2, h3]
  | a :: b :: c :: t => by
    have ha := a.toNat_lt; have hb := b.toNat_lt; have hc := c.toNat_lt
    simp only [Nat.reducePow] at ha hb hc
    have ih := encode_no_colon t
    have h1 := (encChar_ne_colon ((a.toNat * 65536 + b.toNat * 256 + c.toNat) / 262144) (by omega)).symm
    have h2 := (encChar_ne_colon ((a.toNat * 65536 + b.toNat * 256 + c.toNat) / 4096 % 64) (by omega)).symm
    have h3 := (encChar_ne_colon ((a.toNat * 65536 + b.toNat * 256 + c.toNat) / 64 % 64) (by omega)).symm
    have h4 := (encChar_ne_colon ((a.toNat * 65536 + b.toNat * 256 + c.toNat) % 64) (by omega)).symm
    simp [encode, h1, h2, h3, h4, ih]

end Verif.Base64
