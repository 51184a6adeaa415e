import Verif.Model.ModArith
import Mathlib.NumberTheory.LucasPrimality
import Mathlib.FieldTheory.Finite.Basic
import Mathlib.Tactic.NormNum.Prime
/-! Correctness of modular powers and two primality tests (Lucas, Pocklington). -/
namespace Verif.ModArith

theorem powAux_eq (m : Nat) : ∀ (f a e acc : Nat), e < 2 ^ f → acc % m = acc →
    powAux m f a e acc = acc * a ^ e % m
  | 0, a, e, acc, h, hr => by
    have : e = 0 := by simpa using h
    subst this; simp [powAux, hr]
  | f + 1, a, e, acc, h, hr => by
    rw [powAux]
    simp only [Bool.cond_eq_ite, Nat.beq_eq]
    split
    · rename_i h0; subst h0; simp [hr]
    · have h2 : e / 2 < 2 ^ f := by rw [pow_succ] at h; omega
      rw [powAux_eq m f _ _ _ h2 (by split <;> simp [hr])]
      have he : a ^ e = (a * a) ^ (e / 2) * a ^ (e % 2) := by
        rw [← pow_two, ← pow_mul, ← pow_add]; congr 1; omega
      have hq : ∀ c : Nat, c * (a * a % m) ^ (e / 2) % m = c * (a * a) ^ (e / 2) % m := fun c => by
        rw [Nat.mul_mod, Nat.pow_mod, Nat.mod_mod, ← Nat.pow_mod, ← Nat.mul_mod]
      rw [hq, he]
      split
      · rename_i h1
        rw [h1, pow_one, Nat.mul_mod, Nat.mod_mod, ← Nat.mul_mod]
        congr 1; rw [Nat.mul_assoc, Nat.mul_comm a]
      · rename_i h1
        have h1 : e % 2 = 0 := by omega
        rw [h1, pow_zero, Nat.mul_one]

theorem powMod_eq (m a e : Nat) : powMod m a e = a ^ e % m := by
  unfold powMod
  rw [powAux_eq m _ _ _ _ Nat.lt_log2_self (by simp), Nat.mul_mod, Nat.mod_mod, ← Nat.mul_mod,
    Nat.one_mul, ← Nat.pow_mod]

theorem powMod_cast (m a e : Nat) : ((powMod m a e : Nat) : ZMod m) = (a : ZMod m) ^ e := by
  rw [powMod_eq, ZMod.natCast_mod, Nat.cast_pow]

/-- Check of a Lucas certificate: `fs` is the factorization of `n - 1`. -/
def lucasOk (n a : Nat) (fs : List (Nat × Nat)) : Bool :=
  1 < n && powMod n a (n - 1) == 1 && (fs.map fun f => f.1 ^ f.2).prod == n - 1 &&
    fs.all fun f => powMod n a ((n - 1) / f.1) != 1

theorem lucas_cert {n : Nat} (a : Nat) (fs : List (Nat × Nat)) (hp : ∀ f ∈ fs, f.1.Prime)
    (h : lucasOk n a fs = true) : n.Prime := by
  simp only [lucasOk, Bool.and_eq_true, decide_eq_true_eq, beq_iff_eq, List.all_eq_true, bne_iff_ne] at h
  obtain ⟨⟨⟨h1, h2⟩, h3⟩, h4⟩ := h
  refine lucas_primality n (a : ZMod n) ?_ ?_
  · rw [← powMod_cast, h2, Nat.cast_one]
  · intro q hq hd he
    rw [← h3] at hd
    obtain ⟨x, hx, hqx⟩ := (Nat.Prime.prime hq).dvd_prod_iff.1 hd
    obtain ⟨f, hf, rfl⟩ := List.mem_map.1 hx
    have : q = f.1 := (Nat.prime_dvd_prime_iff_eq hq (hp f hf)).1 (hq.dvd_of_dvd_pow hqx)
    subst this
    refine h4 f hf ?_
    rw [← powMod_cast] at he
    have := (ZMod.natCast_eq_natCast_iff' _ 1 n).1 (by simpa using he)
    rw [powMod_eq, Nat.mod_mod, ← powMod_eq] at this
    rw [this, Nat.mod_eq_of_lt h1]

/-- Check of a Pocklington certificate with one large prime factor `q` of `n - 1`. -/
def pockOk (n q a : Nat) : Bool :=
  1 < n && n < (q + 1) * (q + 1) && (n - 1) % q == 0 && powMod n a (n - 1) == 1 &&
    Nat.gcd (powMod n a ((n - 1) / q) + (n - 1)) n == 1

theorem pock_cert {n : Nat} (q a : Nat) (hq : q.Prime) (h : pockOk n q a = true) : n.Prime := by
  simp only [pockOk, Bool.and_eq_true, decide_eq_true_eq, beq_iff_eq] at h
  obtain ⟨⟨⟨⟨h1, h2⟩, h3⟩, h4⟩, h5⟩ := h
  by_contra hn
  have hr := Nat.minFac_prime (n := n) (by omega)
  have hrn := Nat.minFac_dvd n
  have hsq := Nat.minFac_sq_le_self (by omega) hn
  generalize n.minFac = r at hr hrn hsq
  have : Fact r.Prime := ⟨hr⟩
  have cast : ∀ e, ((powMod n a e : Nat) : ZMod r) = (a : ZMod r) ^ e := fun e => by
    rw [powMod_eq, ← Nat.cast_pow, ZMod.natCast_eq_natCast_iff', Nat.mod_mod_of_dvd _ hrn]
  have hmul : (n - 1) / q * q = n - 1 := Nat.div_mul_cancel (Nat.dvd_of_mod_eq_zero h3)
  have e1 : (a : ZMod r) ^ (n - 1) = 1 := by rw [← cast, h4, Nat.cast_one]
  have e2 : ((a : ZMod r) ^ ((n - 1) / q)) ^ q = 1 := by rw [← pow_mul, hmul, e1]
  have e3 : (a : ZMod r) ^ ((n - 1) / q) ≠ 1 := by
    intro he
    rw [← cast] at he
    have : r ∣ powMod n a ((n - 1) / q) + (n - 1) := by
      rw [← ZMod.natCast_eq_zero_iff, Nat.cast_add, he, Nat.cast_sub (by omega)]
      rw [(ZMod.natCast_eq_zero_iff n r).2 hrn]; simp
    have := Nat.dvd_gcd this hrn
    rw [h5] at this
    exact hr.one_lt.ne' (Nat.dvd_one.1 this)
  have ho := orderOf_eq_prime e2 e3 (hp := ⟨hq⟩)
  have hne : (a : ZMod r) ^ ((n - 1) / q) ≠ 0 := by
    intro h0; rw [h0, zero_pow hq.ne_zero] at e2; exact zero_ne_one e2
  have hd : q ∣ r - 1 := by
    rw [← ho]; exact orderOf_dvd_of_pow_eq_one (ZMod.pow_card_sub_one_eq_one hne)
  have hle := Nat.le_of_dvd (by have := hr.two_le; omega) hd
  have : q + 1 ≤ r := by have := hr.two_le; omega
  have := Nat.mul_le_mul this this
  rw [pow_two] at hsq; omega

end Verif.ModArith
