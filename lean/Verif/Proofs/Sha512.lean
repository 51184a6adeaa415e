import Verif.Proofs.Sha
/-!
The model's SHA-512 against `Spec/Sha.lean`.
-/
namespace Verif
open Spec.Sha Sha2
namespace S512

/-- The model's words as a function. -/
def fn (s : St UInt64) : Fin 8 → BitVec 64
  | 0 => s.a.toBitVec | 1 => s.b.toBitVec | 2 => s.c.toBitVec | 3 => s.d.toBitVec
  | 4 => s.e.toBitVec | 5 => s.f.toBitVec | 6 => s.g.toBitVec | 7 => s.h.toBitVec

/-- The variant with the model's constants. -/
def V : Variant 64 where
  rounds := 80
  bigSigma0 := (28, 34, 39)
  bigSigma1 := (14, 18, 41)
  smallSigma0 := (1, 8, 7)
  smallSigma1 := (19, 61, 6)
  K := fun t => (k512.getD t 0).toBitVec
  H0 := fn init512

theorem rotr_eq (x n : UInt64) (h : n.toNat < 64) (h0 : 0 < n.toNat) : (rotr64 x n).toBitVec = x.toBitVec.rotateRight n.toNat := by
  unfold rotr64
  rw [BitVec.rotateRight_def, Nat.mod_eq_of_lt h]
  have e1 : (64 - n).toNat = 64 - n.toNat := by
    rw [UInt64.toNat_sub_of_le _ _ (by rw [UInt64.le_iff_toNat_le]; exact Nat.le_of_lt h)]; rfl
  simp only [UInt64.toBitVec_or, UInt64.toBitVec_shiftRight, UInt64.toBitVec_shiftLeft]
  congr 1
  · rw [BitVec.ushiftRight_eq', BitVec.toNat_umod]
    simp only [UInt64.toNat_toBitVec]
    rw [Nat.mod_eq_of_lt (by simpa using h)]
  · rw [BitVec.shiftLeft_eq', BitVec.toNat_umod]
    simp only [UInt64.toNat_toBitVec, e1]
    rw [Nat.mod_eq_of_lt (by simp; omega)]

theorem shr_eq (x n : UInt64) (h : n.toNat < 64) : (x >>> n).toBitVec = x.toBitVec >>> n.toNat := by
  simp only [UInt64.toBitVec_shiftRight]
  rw [BitVec.ushiftRight_eq', BitVec.toNat_umod]
  simp only [UInt64.toNat_toBitVec]
  rw [Nat.mod_eq_of_lt (by simpa using h)]

theorem sched_step (W' : Nat → UInt64) (M : Nat → BitVec 64) (hW : ∀ t, (W' t).toBitVec = W V M t) (n t : Nat) (ht : 16 ≤ t) :
    sched512 n ((List.range t).map W').reverse = ((List.range (t + n)).map W').reverse := by
  induction n generalizing t with
  | zero => rfl
  | succ n ih =>
    have get : ∀ i, i < t → ((List.range t).map W').reverse.getD i 0 = W' (t - 1 - i) := by
      intro i hi
      rw [List.getD_eq_getElem?_getD, List.getElem?_reverse (by simpa using hi)]
      simp only [List.length_map, List.length_range, List.getElem?_map]
      rw [List.getElem?_range (by omega)]
      rfl
    have key : W' t = W' (t - 16) + (rotr64 (W' (t - 15)) 1 ^^^ rotr64 (W' (t - 15)) 8 ^^^ (W' (t - 15) >>> 7)) + W' (t - 7) +
        (rotr64 (W' (t - 2)) 19 ^^^ rotr64 (W' (t - 2)) 61 ^^^ (W' (t - 2) >>> 6)) := by
      apply UInt64.toBitVec_inj.1
      rw [hW t, W.eq_def, if_neg (by omega)]
      simp only [UInt64.toBitVec_add, UInt64.toBitVec_xor]
      rw [rotr_eq _ 1 (by decide) (by decide), rotr_eq _ 8 (by decide) (by decide), rotr_eq _ 19 (by decide) (by decide),
        rotr_eq _ 61 (by decide) (by decide), shr_eq _ 7 (by decide), shr_eq _ 6 (by decide)]
      simp only [hW]
      show small (19, 61, 6) _ + _ + small (1, 8, 7) _ + _ = _ + small (1, 8, 7) _ + _ + small (19, 61, 6) _
      ac_rfl
    unfold sched512
    simp only
    rw [get 1 (by omega), get 6 (by omega), get 14 (by omega), get 15 (by omega)]
    rw [show t - 1 - 1 = t - 2 by omega, show t - 1 - 6 = t - 7 by omega, show t - 1 - 14 = t - 15 by omega,
      show t - 1 - 15 = t - 16 by omega, ← key]
    have : W' t :: ((List.range t).map W').reverse = ((List.range (t + 1)).map W').reverse := by
      rw [List.range_succ, List.map_append, List.reverse_append]; rfl
    rw [this, ih (t + 1) (by omega), Nat.add_assoc, Nat.add_comm 1 n]

/-- One round on the function of words. -/
theorem round_eq (s : St UInt64) (k x : UInt64) (i : Fin 8) :
    fn (round512 s (k, x)) i =
      (let v := fn s
       let T1 := v 7 + big (14, 18, 41) (v 4) + ch (v 4) (v 5) (v 6) + k.toBitVec + x.toBitVec
       let T2 := big (28, 34, 39) (v 0) + maj (v 0) (v 1) (v 2)
       if i = 0 then T1 + T2 else if i = 4 then v 3 + T1 else v (i - 1)) := by
  have r1 : ∀ x : UInt64, (rotr64 x 14 ^^^ rotr64 x 18 ^^^ rotr64 x 41).toBitVec = big (14, 18, 41) x.toBitVec := by
    intro x
    simp only [UInt64.toBitVec_xor]
    rw [rotr_eq _ 14 (by decide) (by decide), rotr_eq _ 18 (by decide) (by decide), rotr_eq _ 41 (by decide) (by decide)]
    rfl
  have r2 : ∀ x : UInt64, (rotr64 x 28 ^^^ rotr64 x 34 ^^^ rotr64 x 39).toBitVec = big (28, 34, 39) x.toBitVec := by
    intro x
    simp only [UInt64.toBitVec_xor]
    rw [rotr_eq _ 28 (by decide) (by decide), rotr_eq _ 34 (by decide) (by decide), rotr_eq _ 39 (by decide) (by decide)]
    rfl
  have r3 : ∀ x y z : UInt64, ((x &&& y) ^^^ (~~~ x &&& z)).toBitVec = ch x.toBitVec y.toBitVec z.toBitVec := by
    intro x y z; rw [← ch_eq]; simp
  have r4 : ∀ x y z : UInt64, ((x &&& y) ^^^ (x &&& z) ^^^ (y &&& z)).toBitVec = maj x.toBitVec y.toBitVec z.toBitVec := by
    intro x y z; rw [← maj_eq]; simp
  unfold round512
  match i with
  | 0 =>
    simp only [fn, UInt64.toBitVec_add, r1, r2, r3, r4, if_true]
  | 4 =>
    simp only [fn, UInt64.toBitVec_add, r1, r3, if_true]
    rfl
  | 1 | 2 | 3 | 5 | 6 | 7 => rfl

theorem rounds_eq (s : St UInt64) (W' : Nat → UInt64) (M : Nat → BitVec 64) (hW : ∀ t, (W' t).toBitVec = W V M t) (n : Nat) :
    fn (((List.range n).map (fun t => (k512.getD t 0, W' t))).foldl round512 s) = vars V (fn s) M n := by
  induction n with
  | zero => rfl
  | succ n ih =>
    rw [List.range_succ, List.map_append, List.foldl_append]
    funext i
    rw [List.map_singleton, List.foldl_cons, List.foldl_nil, round_eq, ih, vars, ← hW]
    rfl

theorem k_eq : k512 = (List.range 80).map (fun t => k512.getD t 0) := by decide

theorem block_eq (s : St UInt64) (blk : Bytes) : fn (block512 s blk) = step V (fn s) (word 64 blk) := by
  let W' : Nat → UInt64 := fun t => ⟨W V (word 64 blk) t⟩
  have hW : ∀ t, (W' t).toBitVec = W V (word 64 blk) t := fun _ => rfl
  have hw0 : (chunks 8 16 blk).map (fun b => UInt64.ofNat (beNat b)) = (List.range 16).map W' := by
    rw [chunks_eq, List.map_map]
    apply List.map_congr_left
    intro t ht
    apply UInt64.toBitVec_inj.1
    rw [hW, W.eq_def, if_pos (List.mem_range.1 ht)]
    simp only [Function.comp_apply, beNat_eq]
    rfl
  unfold block512
  simp only
  rw [hw0, sched_step W' _ hW 64 16 (Nat.le_refl _), List.reverse_reverse]
  have hz : k512.zip ((List.range (16 + 64)).map W') = (List.range 80).map (fun t => (k512.getD t 0, W' t)) := by
    conv_lhs => rw [k_eq]
    rw [List.zip_map']
  rw [hz]
  have hr := rounds_eq s W' _ hW 80
  funext i
  show _ = vars V (fn s) (word 64 blk) 80 i + fn s i
  rw [← hr]
  match i with
  | 0 | 1 | 2 | 3 | 4 | 5 | 6 | 7 => simp only [fn, UInt64.toBitVec_add]; exact BitVec.add_comm _ _

theorem fold_eq (p : Bytes) (n : Nat) :
    fn (((List.range n).map (fun t => (p.drop (t * 128)).take 128)).foldl block512 init512) = blocks V p n := by
  induction n with
  | zero => rfl
  | succ n ih =>
    rw [List.range_succ, List.map_append, List.foldl_append, List.map_singleton, List.foldl_cons, List.foldl_nil, block_eq, ih]
    rfl

theorem constants : Constants 0 V := by
  have hk : ∀ t, t < 80 → (match primes[t]? with | some p => cbrtTest 64 p (V.K t).toNat | none => false) = true := by decide +kernel
  have hh : ∀ i : Fin 8, (match primes[0 + i.val]? with | some p => sqrtTest 64 p (V.H0 i).toNat | none => false) = true := by decide +kernel
  constructor
  · intro t ht
    have := hk t ht
    cases hp : primes[t]? with
    | none => rw [hp] at this; cases this
    | some p => rw [hp] at this; exact ⟨p, rfl, cbrtTest_ok this⟩
  · intro i
    have := hh i
    cases hp : primes[0 + i.val]? with
    | none => rw [hp] at this; cases this
    | some p => rw [hp] at this; exact ⟨p, rfl, sqrtTest_ok this⟩

theorem isSha : IsSha512 V := ⟨rfl, rfl, rfl, rfl, rfl, constants⟩

theorem sha_length (m : Bytes) : (sha512 m).length = 64 := by
  unfold sha512
  simp [beBytes_length]

theorem sha_words (m : Bytes) (i : Fin 8) : word 64 (sha512 m) i = blocks V (pad 128 16 m) ((pad 128 16 m).length / 128) i := by
  unfold sha512
  simp only
  rw [chunks_eq, ← fold_eq]
  generalize List.foldl block512 init512 _ = s
  unfold word
  have hlen : ∀ w : UInt64, (beBytes 8 w.toNat).length = 8 := fun w => beBytes_length _ _
  rw [show (64 : Nat) / 8 = 8 from rfl, flatMap_piece (k := 8) (fun w : UInt64 => beBytes 8 w.toNat) hlen _ i.val (by simp)]
  rw [beBytes_val]
  have : ∀ x : UInt64, BitVec.ofNat 64 (x.toNat % 256 ^ 8) = x.toBitVec := by
    intro x
    apply BitVec.eq_of_toNat_eq
    rw [BitVec.toNat_ofNat, Nat.mod_mod_of_dvd _ (by decide)]
    exact Nat.mod_eq_of_lt x.toNat_lt
  rw [this]
  match i with
  | 0 | 1 | 2 | 3 | 4 | 5 | 6 | 7 => rfl

theorem digest (V' : Variant 64) (hV : IsSha512 V') (m d : Bytes) (hm : 8 * m.length < 2 ^ 128) : Digest V' m d ↔ d = sha512 m := by
  obtain ⟨h1, h2, h3, h4, h5, h6⟩ := hV
  have hp := pad_padded (w := 64) (by decide) (by decide) m (by simpa using hm)
  have hb := fun p n => blocks_congr (V := V') (V' := V) h1 h2 h3 h4 h5 h6 constants p n
  constructor
  · rintro ⟨p, hpp, hl, hd⟩
    rw [padded_unique hpp hp] at hd
    refine word_inj (k := 8) hl (sha_length m) ?_
    intro i
    rw [hd i, hb]
    exact (sha_words m i).symm
  · rintro rfl
    refine ⟨_, hp, sha_length m, ?_⟩
    intro i
    rw [hb]
    exact sha_words m i

end S512
end Verif
