import Verif.Spec.Sha
import Verif.Model.Sha2
import Mathlib.Tactic.Ring
/-!
Lemmas for C61: byte strings, chunks and padding; then the two hash functions.
-/
namespace Verif
open Spec.Sha Sha2

/-! ### Bytes -/

theorem beNat_eq (b : Bytes) : beNat b = beVal b := by
  have key : ∀ (b : Bytes) (a : Nat), b.foldl (fun a x => a * 256 + x.toNat) a = a * 256 ^ b.length + beVal b := by
    intro b
    induction b with
    | nil => intro a; simp [beVal]
    | cons x t ih =>
      intro a
      rw [List.foldl_cons, ih, beVal, List.length_cons, Nat.pow_succ]
      ring
  unfold beNat
  rw [key]; simp

theorem beVal_append (a b : Bytes) : beVal (a ++ b) = beVal a * 256 ^ b.length + beVal b := by
  induction a with
  | nil => simp [beVal]
  | cons x t ih => rw [List.cons_append, beVal, ih, beVal, List.length_append, Nat.pow_add]; ring

theorem beVal_lt (b : Bytes) : beVal b < 256 ^ b.length := by
  induction b with
  | nil => simp [beVal]
  | cons x t ih =>
    rw [beVal, List.length_cons, Nat.pow_succ]
    have := x.toNat_lt
    have : x.toNat * 256 ^ t.length ≤ 255 * 256 ^ t.length := Nat.mul_le_mul_right _ (by omega)
    omega

theorem beVal_inj {a b : Bytes} (hl : a.length = b.length) (h : beVal a = beVal b) : a = b := by
  induction a generalizing b with
  | nil => cases b with
    | nil => rfl
    | cons _ _ => simp at hl
  | cons x t ih =>
    cases b with
    | nil => simp at hl
    | cons y s =>
      have hl : t.length = s.length := by simpa using hl
      simp only [beVal, hl] at h
      have h1 := beVal_lt t
      have h2 := beVal_lt s
      rw [hl] at h1
      have hp : 0 < 256 ^ s.length := Nat.pow_pos (by omega)
      have e1 : x.toNat = y.toNat := by
        have := congrArg (· / 256 ^ s.length) h
        simp only [Nat.mul_comm _ (256 ^ s.length), Nat.mul_add_div hp, Nat.div_eq_of_lt h1, Nat.div_eq_of_lt h2] at this
        simpa using this
      rw [e1] at h
      rw [UInt8.toNat_inj.1 e1, ih hl (by omega)]

theorem beBytes_length (n x : Nat) : (beBytes n x).length = n := by
  induction n generalizing x with
  | zero => rfl
  | succ n ih => simp [beBytes, ih]

theorem beBytes_val (n x : Nat) : beVal (beBytes n x) = x % 256 ^ n := by
  induction n generalizing x with
  | zero => simp [beBytes, beVal, Nat.mod_one]
  | succ n ih =>
    rw [beBytes, beVal_append, ih]
    simp only [List.length_singleton, Nat.pow_one, beVal, List.length_nil, Nat.pow_zero, Nat.mul_one, Nat.add_zero]
    have : (UInt8.ofNat (x % 256)).toNat = x % 256 := by simp
    rw [this, Nat.pow_succ, Nat.mul_comm (256 ^ n) 256, Nat.mod_mul]
    ring

theorem chunks_eq (n k : Nat) (b : Bytes) : chunks n k b = (List.range k).map (fun t => (b.drop (t * n)).take n) := by
  induction k generalizing b with
  | zero => rfl
  | succ k ih =>
    rw [chunks, ih, List.range_succ_eq_map, List.map_cons, List.map_map]
    simp only [Nat.zero_mul, List.drop_zero, List.cons.injEq, true_and]
    apply List.map_congr_left
    intro t _
    simp only [Function.comp_apply, List.drop_drop, Nat.succ_mul, Nat.add_comm]

theorem pieces_inj {k : Nat} (n : Nat) {d d' : Bytes} (h1 : d.length = n * k) (h2 : d'.length = n * k)
    (h : ∀ i, i < n → (d.drop (i * k)).take k = (d'.drop (i * k)).take k) : d = d' := by
  induction n generalizing d d' with
  | zero =>
    rw [Nat.zero_mul] at h1 h2
    rw [List.length_eq_zero_iff.1 h1, List.length_eq_zero_iff.1 h2]
  | succ n ih =>
    rw [Nat.succ_mul] at h1 h2
    have e0 := h 0 (by omega)
    rw [Nat.zero_mul, List.drop_zero, List.drop_zero] at e0
    have e1 : d.drop k = d'.drop k := by
      apply ih (by rw [List.length_drop]; omega) (by rw [List.length_drop]; omega)
      intro i hi
      have := h (i + 1) (by omega)
      rw [Nat.succ_mul, Nat.add_comm] at this
      simpa [List.drop_drop] using this
    rw [← List.take_append_drop k d, ← List.take_append_drop k d', e0, e1]

theorem flatMap_piece {α : Type} {k : Nat} (g : α → Bytes) (hg : ∀ a, (g a).length = k) (l : List α) (i : Nat) (hi : i < l.length) :
    ((l.flatMap g).drop (i * k)).take k = g l[i] := by
  induction l generalizing i with
  | nil => simp at hi
  | cons a t ih =>
    rw [List.flatMap_cons]
    cases i with
    | zero =>
      rw [Nat.zero_mul, List.drop_zero, List.take_left' (hg a)]
      rfl
    | succ i =>
      rw [Nat.succ_mul, Nat.add_comm, ← List.drop_drop, List.drop_left' (hg a)]
      exact ih i (by simpa using hi)

/-- Words of the right number determine the bytes. -/
theorem word_inj {k : Nat} {d d' : Bytes} (h1 : d.length = 8 * k) (h2 : d'.length = 8 * k)
    (h : ∀ i : Fin 8, word (8 * k) d i = word (8 * k) d' i) : d = d' := by
  refine pieces_inj 8 h1 h2 ?_
  intro i hi
  have hw := h ⟨i, hi⟩
  unfold word at hw
  have e : 8 * k / 8 = k := by omega
  rw [e] at hw
  have hk : ∀ {d : Bytes}, d.length = 8 * k → ((d.drop (i * k)).take k).length = k := by
    intro d hd
    rw [List.length_take, List.length_drop, hd]
    have : (i + 1) * k ≤ 8 * k := Nat.mul_le_mul_right _ hi
    rw [Nat.succ_mul] at this
    omega
  apply beVal_inj (by rw [hk h1, hk h2])
  have hp : (256 : Nat) ^ k = 2 ^ (8 * k) := by rw [Nat.pow_mul]
  have b1 := beVal_lt ((d.drop (i * k)).take k)
  have b2 := beVal_lt ((d'.drop (i * k)).take k)
  rw [hk h1, hp] at b1
  rw [hk h2, hp] at b2
  have := congrArg BitVec.toNat hw
  rwa [BitVec.toNat_ofNat, BitVec.toNat_ofNat, Nat.mod_eq_of_lt b1, Nat.mod_eq_of_lt b2] at this

/-! ### Padding -/

theorem pad_padded {w : Nat} (hw : 0 < w) (h4 : w % 4 = 0) (m : Bytes) (hm : 8 * m.length < 256 ^ (w / 4)) :
    Padded w m (pad (2 * w) (w / 4) m) := by
  refine ⟨(2 * w - (m.length + 1 + w / 4) % (2 * w)) % (2 * w), beBytes (w / 4) (m.length * 8), ?_, beBytes_length _ _, ?_, ?_, ?_⟩
  · unfold pad; simp
  · rw [beBytes_val, Nat.mul_comm, Nat.mod_eq_of_lt hm]
  · unfold pad
    simp only [List.length_append, List.length_cons, List.length_replicate, beBytes_length]
    have h1 := Nat.mod_lt (m.length + 1 + w / 4) (show 0 < 2 * w by omega)
    have h2 := Nat.div_add_mod (m.length + 1 + w / 4) (2 * w)
    generalize hq : (m.length + 1 + w / 4) / (2 * w) = q at h2
    generalize hr : (m.length + 1 + w / 4) % (2 * w) = r at h1 h2
    rcases Nat.eq_zero_or_pos r with rfl | hr0
    · simp only [Nat.sub_zero, Nat.mod_self]
      rw [show m.length + (0 + w / 4 + 1) = 2 * w * q by omega]
      simp
    · rw [Nat.mod_eq_of_lt (show 2 * w - r < 2 * w by omega)]
      rw [show m.length + (2 * w - r + w / 4 + 1) = 2 * w * (q + 1) by rw [Nat.mul_add]; omega]
      simp
  · exact Nat.mod_lt _ (by omega)

theorem padded_unique {w : Nat} {m p q : Bytes} (h1 : Padded w m p) (h2 : Padded w m q) : p = q := by
  obtain ⟨z, len, rfl, hl, hv, hm, hz⟩ := h1
  obtain ⟨z', len', rfl, hl', hv', hm', hz'⟩ := h2
  have hlen : len = len' := beVal_inj (by rw [hl, hl']) (by rw [hv, hv'])
  subst hlen
  simp only [List.length_append, List.length_replicate, List.length_singleton, hl] at hm hm'
  have : z = z' := by
    have a1 := Nat.div_add_mod (m.length + 1 + z + w / 4) (2 * w)
    have a2 := Nat.div_add_mod (m.length + 1 + z' + w / 4) (2 * w)
    rw [hm] at a1; rw [hm'] at a2
    generalize (m.length + 1 + z + w / 4) / (2 * w) = x at a1
    generalize (m.length + 1 + z' + w / 4) / (2 * w) = y at a2
    rcases Nat.lt_trichotomy x y with h | h | h
    · have : 2 * w * (x + 1) ≤ 2 * w * y := Nat.mul_le_mul_left _ h
      rw [Nat.mul_add] at this; omega
    · subst h; omega
    · have : 2 * w * (y + 1) ≤ 2 * w * x := Nat.mul_le_mul_left _ h
      rw [Nat.mul_add] at this; omega
  rw [this]

/-! ### Bit functions -/

theorem ch_eq {w : Nat} (x y z : BitVec w) : (x &&& y) ^^^ (~~~ x &&& z) = ch x y z := by
  unfold ch
  ext i hi
  simp
  cases x[i] <;> cases y[i] <;> cases z[i] <;> rfl

theorem maj_eq {w : Nat} (x y z : BitVec w) : (x &&& y) ^^^ (x &&& z) ^^^ (y &&& z) = maj x y z := by
  unfold maj
  ext i hi
  simp
  cases x[i] <;> cases y[i] <;> cases z[i] <;> rfl

/-! ### Roots -/

theorem root_unique {e a n m : Nat} (he : e ≠ 0) (h1 : n ^ e ≤ a) (h2 : a < (n + 1) ^ e) (h3 : m ^ e ≤ a) (h4 : a < (m + 1) ^ e) : n = m := by
  have a1 := (Nat.pow_lt_pow_iff_left he).1 (Nat.lt_of_le_of_lt h1 h4)
  have a2 := (Nat.pow_lt_pow_iff_left he).1 (Nat.lt_of_le_of_lt h3 h2)
  omega

theorem bits_of_sum {w i j : Nat} {x y : BitVec w} (h : i * 2 ^ w + x.toNat = j * 2 ^ w + y.toNat) : x = y := by
  apply BitVec.eq_of_toNat_eq
  have := congrArg (· % 2 ^ w) h
  simpa [Nat.mod_eq_of_lt x.isLt, Nat.mod_eq_of_lt y.isLt] using this

theorem cbrt_unique {w p : Nat} {x y : BitVec w} (h1 : CbrtBits w p x) (h2 : CbrtBits w p y) : x = y := by
  obtain ⟨i, a1, a2⟩ := h1
  obtain ⟨j, b1, b2⟩ := h2
  exact bits_of_sum (root_unique (by decide) a1 a2 b1 b2)

theorem sqrt_unique {w p : Nat} {x y : BitVec w} (h1 : SqrtBits w p x) (h2 : SqrtBits w p y) : x = y := by
  obtain ⟨i, a1, a2⟩ := h1
  obtain ⟨j, b1, b2⟩ := h2
  exact bits_of_sum (root_unique (by decide) a1 a2 b1 b2)

/-- Test of the constants with the integer part of the root. -/
def cbrtTest (w p x : Nat) : Bool :=
  let i := ((List.range 9).filter (fun j => decide (j ^ 3 ≤ p))).length - 1
  decide ((i * 2 ^ w + x) ^ 3 ≤ p * 2 ^ (3 * w) ∧ p * 2 ^ (3 * w) < (i * 2 ^ w + x + 1) ^ 3)

def sqrtTest (w p x : Nat) : Bool :=
  let i := ((List.range 9).filter (fun j => decide (j ^ 2 ≤ p))).length - 1
  decide ((i * 2 ^ w + x) ^ 2 ≤ p * 2 ^ (2 * w) ∧ p * 2 ^ (2 * w) < (i * 2 ^ w + x + 1) ^ 2)

theorem cbrtTest_ok {w p : Nat} {x : BitVec w} (h : cbrtTest w p x.toNat = true) : CbrtBits w p x := ⟨_, of_decide_eq_true h⟩
theorem sqrtTest_ok {w p : Nat} {x : BitVec w} (h : sqrtTest w p x.toNat = true) : SqrtBits w p x := ⟨_, of_decide_eq_true h⟩

/-- Two variants with the same rotations and the constants of the standard compute the same. -/
theorem blocks_congr {w : Nat} {V V' : Variant w} (hr : V.rounds = V'.rounds) (h1 : V.bigSigma0 = V'.bigSigma0)
    (h2 : V.bigSigma1 = V'.bigSigma1) (h3 : V.smallSigma0 = V'.smallSigma0) (h4 : V.smallSigma1 = V'.smallSigma1)
    {first : Nat} (hc : Constants first V) (hc' : Constants first V') (p : Bytes) (n : Nat) : blocks V p n = blocks V' p n := by
  have hK : ∀ t, t < V.rounds → V.K t = V'.K t := by
    intro t ht
    obtain ⟨q, hq, ha⟩ := hc.1 t ht
    obtain ⟨q', hq', hb⟩ := hc'.1 t (hr ▸ ht)
    rw [hq] at hq'; cases hq'
    exact cbrt_unique ha hb
  have hH : V.H0 = V'.H0 := by
    funext i
    obtain ⟨q, hq, ha⟩ := hc.2 i
    obtain ⟨q', hq', hb⟩ := hc'.2 i
    rw [hq] at hq'; cases hq'
    exact sqrt_unique ha hb
  have hW : ∀ (M : Nat → BitVec w) (t : Nat), W V M t = W V' M t := by
    intro M t
    induction t using Nat.strongRecOn with
    | _ t ih =>
      rw [W.eq_def V M t, W.eq_def V' M t]
      split
      · rfl
      · rename_i h
        rw [ih (t - 2) (by omega), ih (t - 7) (by omega), ih (t - 15) (by omega), ih (t - 16) (by omega), h3, h4]
  have hv : ∀ (H : Fin 8 → BitVec w) (M : Nat → BitVec w) (t : Nat), t ≤ V.rounds → vars V H M t = vars V' H M t := by
    intro H M t
    induction t with
    | zero => intro _; rfl
    | succ t ih =>
      intro ht
      unfold vars
      rw [ih (by omega), hK t (by omega), hW, h1, h2]
  induction n with
  | zero => exact hH
  | succ n ih =>
    unfold blocks step
    rw [ih]
    funext i
    rw [hv _ _ _ (Nat.le_refl _), hr]

end Verif
