import Verif.Proofs.Sha512
import Verif.Model.Sha384
/-!
The model's SHA-384 against `Spec/Sha.lean`.
-/
namespace Verif
open Spec.Sha Sha2
namespace S384
open S512 (fn)

/-- The variant with the model's constants. -/
def V : Variant 64 := { S512.V with H0 := fn init384 }

theorem W_eq (M : Nat → BitVec 64) (t : Nat) : W S512.V M t = W V M t := by
  induction t using Nat.strongRecOn with
  | _ t ih =>
    rw [W.eq_def S512.V M t, W.eq_def V M t]
    split
    · rfl
    · rename_i h
      rw [ih (t - 2) (by omega), ih (t - 7) (by omega), ih (t - 15) (by omega), ih (t - 16) (by omega), V]

theorem vars_eq (H : Fin 8 → BitVec 64) (M : Nat → BitVec 64) (t : Nat) : vars S512.V H M t = vars V H M t := by
  induction t with
  | zero => rfl
  | succ t ih => unfold vars; rw [ih, W_eq, V]

theorem step_eq (H : Fin 8 → BitVec 64) (M : Nat → BitVec 64) : step S512.V H M = step V H M := by
  unfold step; funext i; rw [vars_eq, V]

theorem fold_eq (p : Bytes) (n : Nat) :
    fn (((List.range n).map (fun t => (p.drop (t * 128)).take 128)).foldl block512 init384) = blocks V p n := by
  induction n with
  | zero => rfl
  | succ n ih =>
    rw [List.range_succ, List.map_append, List.foldl_append, List.map_singleton, List.foldl_cons, List.foldl_nil, S512.block_eq, ih, step_eq]
    rfl

theorem constants : Constants 8 V := by
  have hh : ∀ i : Fin 8, (match primes[8 + i.val]? with | some p => sqrtTest 64 p (V.H0 i).toNat | none => false) = true := by decide +kernel
  constructor
  · exact S512.constants.1
  · intro i
    have := hh i
    cases hp : primes[8 + i.val]? with
    | none => rw [hp] at this; cases this
    | some p => rw [hp] at this; exact ⟨p, rfl, sqrtTest_ok this⟩

theorem isSha : IsSha384 V := ⟨rfl, rfl, rfl, rfl, rfl, constants⟩

/-- The digest before it is cut. -/
def full (m : Bytes) : Bytes :=
  let p := pad 128 16 m
  let s := (chunks 128 (p.length / 128) p).foldl block512 init384
  [s.a, s.b, s.c, s.d, s.e, s.f, s.g, s.h].flatMap (fun w => beBytes 8 w.toNat)

theorem full_length (m : Bytes) : (full m).length = 64 := by
  unfold full
  simp [Verif.beBytes_length]

theorem sha_length (m : Bytes) : (sha384 m).length = 48 := by
  unfold sha384
  simp [Verif.beBytes_length]

theorem full_prefix (m : Bytes) : ∃ e, full m = sha384 m ++ e := by
  unfold full sha384
  simp only
  generalize List.foldl block512 init384 _ = s
  refine ⟨[s.g, s.h].flatMap (fun w => beBytes 8 w.toNat), ?_⟩
  rw [show [s.a, s.b, s.c, s.d, s.e, s.f, s.g, s.h] = [s.a, s.b, s.c, s.d, s.e, s.f] ++ [s.g, s.h] from rfl, List.flatMap_append]

theorem full_words (m : Bytes) (i : Fin 8) : word 64 (full m) i = blocks V (pad 128 16 m) ((pad 128 16 m).length / 128) i := by
  unfold full
  simp only
  rw [chunks_eq, ← fold_eq]
  generalize List.foldl block512 init384 _ = s
  unfold word
  have hlen : ∀ w : UInt64, (beBytes 8 w.toNat).length = 8 := fun w => Verif.beBytes_length _ _
  rw [show (64 : Nat) / 8 = 8 from rfl, flatMap_piece (k := 8) (fun w : UInt64 => beBytes 8 w.toNat) hlen _ i.val (by simp)]
  rw [beBytes_val]
  have : ∀ x : UInt64, BitVec.ofNat 64 (x.toNat % 256 ^ 8) = x.toBitVec := by
    intro x
    apply BitVec.eq_of_toNat_eq
    rw [BitVec.toNat_ofNat, Nat.mod_mod_of_dvd _ (by decide)]
    exact Nat.mod_eq_of_lt x.toNat_lt
  rw [this]
  match i with
  | 0 | 1 | 2 | 3 | 4 | 5 | 6 | 7 => rfl

theorem digest_full (V' : Variant 64) (hV : IsSha384 V') (m d : Bytes) (hm : 8 * m.length < 2 ^ 128) : Digest V' m d ↔ d = full m := by
  obtain ⟨h1, h2, h3, h4, h5, h6⟩ := hV
  have hp := pad_padded (w := 64) (by decide) (by decide) m (by simpa using hm)
  have hb := fun p n => blocks_congr (V := V') (V' := V) h1 h2 h3 h4 h5 h6 constants p n
  constructor
  · rintro ⟨p, hpp, hl, hd⟩
    rw [padded_unique hpp hp] at hd
    refine word_inj (k := 8) hl (full_length m) ?_
    intro i
    rw [hd i, hb]
    exact (full_words m i).symm
  · rintro rfl
    refine ⟨_, hp, full_length m, ?_⟩
    intro i
    rw [hb]
    exact full_words m i

theorem digest (V' : Variant 64) (hV : IsSha384 V') (m d : Bytes) (hm : 8 * m.length < 2 ^ 128) : Digest384 V' m d ↔ d = sha384 m := by
  obtain ⟨e, he⟩ := full_prefix m
  constructor
  · rintro ⟨hl, e', h⟩
    rw [digest_full V' hV m _ hm, he] at h
    exact (List.append_inj h (by rw [hl, sha_length])).1
  · rintro rfl
    exact ⟨sha_length m, e, (digest_full V' hV m _ hm).2 he.symm⟩

end S384
end Verif
