import Verif.Proofs.Base64Spec
import Verif.Spec.Grammar
/-! The lenient base64 decoder reads exactly `Grammar.Base64Text`. -/
namespace Verif.Base64
open Spec Grammar

theorem bits8_val : ∀ a : UInt8, bitsVal (bits8 a) = a.toNat := by
  have h : ∀ n < 256, bitsVal ([7, 6, 5, 4, 3, 2, 1, 0].map (fun i => n.testBit i)) = n := by decide +kernel
  intro a
  exact h a.toNat (by have := a.toNat_lt; simpa using this)

theorem bits8_inj {a b : UInt8} (h : bits8 a = bits8 b) : a = b := by
  have := congrArg bitsVal h
  rw [bits8_val, bits8_val] at this
  exact UInt8.toNat_inj.1 this

theorem bits8_length (a : UInt8) : (bits8 a).length = 8 := rfl
theorem bits6_length (v : Nat) : (bits6 v).length = 6 := rfl

theorem bits8s_length (b : Bytes) : (b.flatMap bits8).length = 8 * b.length := by
  induction b with
  | nil => rfl
  | cons a t ih => rw [List.flatMap_cons, List.length_append, ih, bits8_length, List.length_cons]; omega

theorem bits6s_length (vs : List Nat) : (vs.flatMap bits6).length = 6 * vs.length := by
  induction vs with
  | nil => rfl
  | cons a t ih => rw [List.flatMap_cons, List.length_append, ih, bits6_length, List.length_cons]; omega

theorem bits8s_inj : ∀ {a b : Bytes}, a.flatMap bits8 = b.flatMap bits8 → a = b
  | [], [], _ => rfl
  | [], y :: b, h => by
    have := congrArg List.length h
    rw [bits8s_length, bits8s_length] at this; simp at this
  | x :: a, [], h => by
    have := congrArg List.length h
    rw [bits8s_length, bits8s_length] at this; simp at this
  | x :: a, y :: b, h => by
    rw [List.flatMap_cons, List.flatMap_cons] at h
    obtain ⟨h1, h2⟩ := List.append_inj h rfl
    rw [bits8_inj h1, bits8s_inj h2]

theorem octet1 : ∀ x < 64, ∀ y < 64, bits8 (UInt8.ofNat (x * 4 + y / 16)) = bits6 x ++ (bits6 y).take 2 := by decide +kernel
theorem octet2 : ∀ y < 64, ∀ z < 64,
    bits8 (UInt8.ofNat (y % 16 * 16 + z / 4)) = (bits6 y).drop 2 ++ (bits6 z).take 4 := by decide +kernel
theorem octet3 : ∀ z < 64, ∀ w < 64, bits8 (UInt8.ofNat (z % 4 * 64 + w)) = (bits6 z).drop 4 ++ bits6 w := by decide +kernel

/-- The whole octets of the values. -/
def octets : List Nat → Bytes
  | x :: y :: z :: w :: t =>
    UInt8.ofNat (x * 4 + y / 16) :: UInt8.ofNat (y % 16 * 16 + z / 4) :: UInt8.ofNat (z % 4 * 64 + w) :: octets t
  | [x, y, z] => [UInt8.ofNat (x * 4 + y / 16), UInt8.ofNat (y % 16 * 16 + z / 4)]
  | [x, y] => [UInt8.ofNat (x * 4 + y / 16)]
  | _ => []

theorem octets_length : ∀ vs : List Nat, vs.length % 4 ≠ 1 → (octets vs).length = 6 * vs.length / 8
  | [], _ => rfl
  | [_], h => by simp at h
  | [_, _], _ => by simp [octets]
  | [_, _, _], _ => by simp [octets]
  | _ :: _ :: _ :: _ :: t, h => by
    simp only [List.length_cons] at h
    have := octets_length t (by omega)
    simp only [octets, List.length_cons, this]; omega

theorem octets_bits : ∀ vs : List Nat, (∀ v ∈ vs, v < 64) → vs.length % 4 ≠ 1 →
    (octets vs).flatMap bits8 = (vs.flatMap bits6).take (8 * (octets vs).length)
  | [], _, _ => rfl
  | [_], _, h => by simp at h
  | [x, y], hv, _ => by
    simp only [octets, List.flatMap_cons, List.flatMap_nil, List.append_nil]
    rw [octet1 x (hv _ (by simp)) y (hv _ (by simp))]
    rfl
  | [x, y, z], hv, _ => by
    simp only [octets, List.flatMap_cons, List.flatMap_nil, List.append_nil]
    rw [octet1 x (hv _ (by simp)) y (hv _ (by simp)), octet2 y (hv _ (by simp)) z (hv _ (by simp))]
    rfl
  | x :: y :: z :: w :: t, hv, h => by
    simp only [List.length_cons] at h
    have ih := octets_bits t (fun v hm => hv v (by simp [hm])) (by omega)
    simp only [octets, List.flatMap_cons, List.length_cons]
    rw [octet1 x (hv _ (by simp)) y (hv _ (by simp)), octet2 y (hv _ (by simp)) z (hv _ (by simp)),
      octet3 z (hv _ (by simp)) w (hv _ (by simp)), ih]
    have e : 8 * ((octets t).length + 1 + 1 + 1) = 8 * (octets t).length + 24 := by omega
    rw [e]
    rfl

theorem enc_map {vs : List Nat} (hv : ∀ v ∈ vs, v < 64) : vs.map (fun v => alphabet.getD v '?') = vs.map encChar :=
  List.map_congr_left (fun v h => (encChar_alphabet v (hv v h)).symm)

theorem dec2_vals {x y : Nat} (hx : x < 64) (hy : y < 64) :
    dec2 false (encChar x) (encChar y) = some [UInt8.ofNat (x * 4 + y / 16)] := by
  unfold dec2; rw [decChar_encChar _ hx, decChar_encChar _ hy]; simp

theorem dec3_vals {x y z : Nat} (hx : x < 64) (hy : y < 64) (hz : z < 64) :
    dec3 false (encChar x) (encChar y) (encChar z) =
      some [UInt8.ofNat (x * 4 + y / 16), UInt8.ofNat (y % 16 * 16 + z / 4)] := by
  unfold dec3; rw [decChar_encChar _ hx, decChar_encChar _ hy, decChar_encChar _ hz]; simp

theorem dec4_vals {x y z w : Nat} (hx : x < 64) (hy : y < 64) (hz : z < 64) (hw : w < 64) :
    dec4 (encChar x) (encChar y) (encChar z) (encChar w) =
      some [UInt8.ofNat (x * 4 + y / 16), UInt8.ofNat (y % 16 * 16 + z / 4), UInt8.ofNat (z % 4 * 64 + w)] := by
  unfold dec4; rw [decChar_encChar _ hx, decChar_encChar _ hy, decChar_encChar _ hz, decChar_encChar _ hw]

theorem decode_short (strict : Bool) {s : Str} (h : s.length ≤ 4) : decode strict s = decLast strict s := by
  match s, h with
  | [], _ => rw [decode]; intros; simp_all
  | [_], _ => rw [decode]; intros; simp_all
  | [_, _], _ => rw [decode]; intros; simp_all
  | [_, _, _], _ => rw [decode]; intros; simp_all
  | [_, _, _, _], _ => rw [decode]; intros; simp_all
  | _ :: _ :: _ :: _ :: _ :: _, h => simp at h

theorem decode_vals : ∀ (vs : List Nat) (k : Nat), (∀ v ∈ vs, v < 64) → vs.length % 4 ≠ 1 → k ≤ (4 - vs.length % 4) % 4 →
    decode false (vs.map encChar ++ List.replicate k '=') = some (octets vs)
  | [], k, _, _, hk => by
    have : k = 0 := by simp at hk; exact hk
    subst this; exact decode_nil false
  | [_], _, _, h, _ => by simp at h
  | [x, y], k, hv, _, hk => by
    have hx := hv x (by simp); have hy := hv y (by simp)
    have : k = 0 ∨ k = 1 ∨ k = 2 := by simp at hk; omega
    rcases this with rfl | rfl | rfl
    · rw [decode_short _ (by simp)]; simp [decLast, dec2_vals hx hy, octets]
    · rw [decode_short _ (by simp)]; simp [decLast, dec2_vals hx hy, octets]
    · rw [decode_short _ (by simp)]; simp [decLast, dec2_vals hx hy, octets]
  | [x, y, z], k, hv, _, hk => by
    have hx := hv x (by simp); have hy := hv y (by simp); have hz := hv z (by simp)
    have : k = 0 ∨ k = 1 := by simp at hk; omega
    have hne := encChar_ne_pad z hz
    rcases this with rfl | rfl
    · rw [decode_short _ (by simp)]; simp [decLast, dec3_vals hx hy hz, octets, hne]
    · rw [decode_short _ (by simp)]; simp [decLast, dec3_vals hx hy hz, octets, hne]
  | x :: y :: z :: w :: t, k, hv, h, hk => by
    have hx := hv x (by simp); have hy := hv y (by simp); have hz := hv z (by simp); have hw := hv w (by simp)
    simp only [List.length_cons] at h hk
    have e1 : (t.length + 1 + 1 + 1 + 1) % 4 = t.length % 4 := by omega
    rw [e1] at h hk
    have ih := decode_vals t k (fun v hm => hv v (by simp [hm])) h hk
    by_cases ht : t.map encChar ++ List.replicate k '=' = []
    · have t0 : t = [] := by
        cases t with
        | nil => rfl
        | cons _ _ => simp at ht
      subst t0
      have k0 : k = 0 := by
        cases k with
        | zero => rfl
        | succ _ => simp at ht
      subst k0
      rw [decode_short _ (by simp)]
      simp [decLast, encChar_ne_pad w hw, dec4_vals hx hy hz hw, octets]
    · simp only [List.map_cons, List.cons_append]
      rw [decode_step _ _ _ _ _ _ ht, dec4_vals hx hy hz hw, ih]
      simp [octets]

theorem dec2_inv {a b : Char} {r : Bytes} (h : dec2 false a b = some r) :
    ∃ x y, x < 64 ∧ y < 64 ∧ a = encChar x ∧ b = encChar y ∧ r = octets [x, y] := by
  unfold dec2 at h
  split at h
  · rename_i x y hx hy
    rw [if_neg (by simp)] at h; injection h with h
    exact ⟨x, y, (decChar_some hx).1, (decChar_some hy).1, (decChar_some hx).2.symm, (decChar_some hy).2.symm, by rw [← h]; simp only [octets]⟩
  · cases h

theorem dec3_inv {a b c : Char} {r : Bytes} (h : dec3 false a b c = some r) :
    ∃ x y z, x < 64 ∧ y < 64 ∧ z < 64 ∧ a = encChar x ∧ b = encChar y ∧ c = encChar z ∧ r = octets [x, y, z] := by
  unfold dec3 at h
  split at h
  · rename_i x y z hx hy hz
    rw [if_neg (by simp)] at h; injection h with h
    exact ⟨x, y, z, (decChar_some hx).1, (decChar_some hy).1, (decChar_some hz).1, (decChar_some hx).2.symm,
      (decChar_some hy).2.symm, (decChar_some hz).2.symm, by rw [← h]; simp only [octets]⟩
  · cases h

theorem dec4_inv {a b c d : Char} {r : Bytes} (h : dec4 a b c d = some r) :
    ∃ x y z w, x < 64 ∧ y < 64 ∧ z < 64 ∧ w < 64 ∧ a = encChar x ∧ b = encChar y ∧ c = encChar z ∧ d = encChar w ∧
      r = octets [x, y, z, w] := by
  unfold dec4 at h
  split at h
  · rename_i x y z w hx hy hz hw
    injection h with h
    exact ⟨x, y, z, w, (decChar_some hx).1, (decChar_some hy).1, (decChar_some hz).1, (decChar_some hw).1,
      (decChar_some hx).2.symm, (decChar_some hy).2.symm, (decChar_some hz).2.symm, (decChar_some hw).2.symm, by rw [← h]; simp only [octets]⟩
  · cases h

/-- What a text read by the lenient decoder looks like. -/
def Shape (s : Str) (b : Bytes) : Prop :=
  ∃ vs k, (∀ v ∈ vs, v < 64) ∧ s = vs.map encChar ++ List.replicate k '=' ∧ vs.length % 4 ≠ 1 ∧
    k ≤ (4 - vs.length % 4) % 4 ∧ b = octets vs

theorem shape2 {a b : Char} {r : Bytes} (k : Nat) (hk : k ≤ 2) (h : dec2 false a b = some r) :
    Shape (a :: b :: List.replicate k '=') r := by
  obtain ⟨x, y, hx, hy, rfl, rfl, rfl⟩ := dec2_inv h
  exact ⟨[x, y], k, by simp [hx, hy], rfl, by simp, by simpa using hk, rfl⟩

theorem shape3 {a b c : Char} {r : Bytes} (k : Nat) (hk : k ≤ 1) (h : dec3 false a b c = some r) :
    Shape (a :: b :: c :: List.replicate k '=') r := by
  obtain ⟨x, y, z, hx, hy, hz, rfl, rfl, rfl, rfl⟩ := dec3_inv h
  exact ⟨[x, y, z], k, by simp [hx, hy, hz], rfl, by simp, by simpa using hk, rfl⟩

theorem decode_shape : ∀ (s : Str) (b : Bytes), decode false s = some b → Shape s b
  | [], b, h => by
    rw [decode_nil] at h; injection h with h; subst h
    exact ⟨[], 0, by simp, rfl, by simp, by simp, rfl⟩
  | [_], b, h => by rw [decode_short _ (by simp)] at h; simp [decLast] at h
  | [p, q], b, h => by
    rw [decode_short _ (by simp)] at h; simp [decLast] at h
    exact shape2 0 (by omega) h
  | [p, q, r], b, h => by
    rw [decode_short _ (by simp)] at h; simp [decLast] at h
    split at h
    · rename_i hr; subst hr; exact shape2 1 (by omega) h
    · exact shape3 0 (by omega) h
  | [p, q, r, s], b, h => by
    rw [decode_short _ (by simp)] at h; simp only [decLast] at h
    split at h
    · rename_i hs; subst hs
      split at h
      · rename_i hr; subst hr; exact shape2 2 (by omega) h
      · exact shape3 1 (by omega) h
    · obtain ⟨x, y, z, w, hx, hy, hz, hw, rfl, rfl, rfl, rfl, rfl⟩ := dec4_inv h
      exact ⟨[x, y, z, w], 0, by simp [hx, hy, hz, hw], rfl, by simp, by simp, rfl⟩
  | p :: q :: r :: s :: e :: t, b, h => by
    rw [decode_step _ _ _ _ _ _ (by simp)] at h
    split at h
    · rename_i u v hu hv
      obtain ⟨x, y, z, w, hx, hy, hz, hw, rfl, rfl, rfl, rfl, rfl⟩ := dec4_inv hu
      obtain ⟨vs, k, h1, h2, h3, h4, rfl⟩ := decode_shape _ _ hv
      injection h with h; subst h
      have e1 : (vs.length + 1 + 1 + 1 + 1) % 4 = vs.length % 4 := by omega
      refine ⟨x :: y :: z :: w :: vs, k, ?_, by rw [h2]; rfl, ?_, ?_, by simp [octets]⟩
      · intro v hm
        simp only [List.mem_cons] at hm
        rcases hm with rfl | rfl | rfl | rfl | hm
        · exact hx
        · exact hy
        · exact hz
        · exact hw
        · exact h1 v hm
      · simp only [List.length_cons]; rw [e1]; exact h3
      · simp only [List.length_cons]; rw [e1]; exact h4
    · cases h

theorem decode_lenient_iff (s : Str) (b : Bytes) : decode false s = some b ↔ Base64Text b s := by
  constructor
  · intro h
    obtain ⟨vs, k, h1, h2, h3, h4, rfl⟩ := decode_shape s b h
    exact ⟨vs, k, h1, by rw [enc_map h1]; exact h2, h3, h4, octets_length vs h3, octets_bits vs h1 h3⟩
  · rintro ⟨vs, k, h1, h2, h3, h4, h5, h6⟩
    rw [h2, enc_map h1, decode_vals vs k h1 h3 h4]
    congr 1
    apply bits8s_inj
    rw [octets_bits vs h1 h3, h6, h5, octets_length vs h3]

end Verif.Base64
