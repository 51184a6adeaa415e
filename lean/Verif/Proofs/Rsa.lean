import Verif.Model.Rsa
import Verif.Proofs.Der
import Verif.Proofs.Sha2
/-! RSA: the private and the public operation, the two encodings, and signatures. -/
namespace Verif.Rsa
open ModArith Sha2 Der Ec

/-! ### Operations -/

theorem size_lt (n : Nat) : n < 256 ^ size n := log2_lt n

theorem size_ge {n : Nat} (h : n ≠ 0) : 256 ^ (size n - 1) ≤ n := log2_ge h

/-- A result of the private operation is undone by the public one. -/
theorem pubOp_privOp {L : Lib} {rnd : Bytes} {k : Priv} {em : Nat} {s : Bytes} (h : privOp L rnd k em = some s) (hn : 0 < k.n) :
    pubOp L ⟨k.n, k.e⟩ s = some em := by
  unfold privOp at h
  simp only at h
  split at h
  · next he =>
    cases h
    have hs : L.raw rnd k em % k.n < k.n := Nat.mod_lt _ hn
    unfold pubOp
    rw [Verif.beBytes_length, beNat_beBytes (lt_trans hs (size_lt _)), if_pos ⟨L.sigLen_self _, hs⟩]
    rw [he]
  · cases h

theorem privOp_length {L : Lib} {rnd : Bytes} {k : Priv} {em : Nat} {s : Bytes} (h : privOp L rnd k em = some s) :
    s.length = size k.n := by
  unfold privOp at h
  simp only at h
  split at h
  · cases h; exact Verif.beBytes_length _ _
  · cases h

/-! ### PKCS #1 v1.5 -/

theorem em15_length {k : Nat} {m em : Bytes} (h : em15 k m = some em) : em.length = k := by
  unfold em15 at h
  split at h
  · cases h
  · cases h
    simp only [List.length_append, List.length_replicate, sha256_length]
    simp [prefix256]; omega

theorem em15_lt {n : Nat} {m em : Bytes} (h : em15 (size n) m = some em) : beNat em < n := by
  have hl := em15_length h
  unfold em15 at h
  split at h
  · cases h
  · next hk =>
    cases h
    have hn : n ≠ 0 := by rintro rfl; exact hk (by decide)
    refine lt_of_lt_of_le ?_ (size_ge hn)
    simp only [List.append_assoc, List.cons_append, List.nil_append] at hl ⊢
    rw [beNat_cons]
    refine lt_of_lt_of_le (b := 256 ^ (size n - 1)) ?_ (le_refl _)
    rw [List.length_cons] at hl
    refine lt_of_eq_of_lt ?_ (lt_of_lt_of_eq (beNat_lt _) (congrArg (256 ^ ·) (show _ = size n - 1 by rw [← hl, Nat.add_sub_cancel])))
    simp

theorem verify15_sign15 {L : Lib} {rnd : Bytes} {k : Priv} {m s : Bytes} (h : sign15 L rnd k m = some s) :
    verify15 L ⟨k.n, k.e⟩ m s = true := by
  simp only [sign15, Option.bind_eq_bind, Option.bind_eq_some_iff] at h
  obtain ⟨em, he, hp⟩ := h
  have hlt := em15_lt he
  unfold verify15
  rw [pubOp_privOp hp (by omega), he]
  simp only
  have := beBytes_beNat em
  rw [em15_length he] at this
  rw [this]; simp

/-! ### PSS -/

theorem xor_length (a b : Bytes) : (xorBytes a b).length = min a.length b.length := by simp [xorBytes]

theorem xor_cancel {a b : Bytes} (h : a.length ≤ b.length) : xorBytes (xorBytes a b) b = a := by
  induction a generalizing b with
  | nil => simp [xorBytes]
  | cons x t ih =>
    cases b with
    | nil => simp at h
    | cons y u =>
      have := ih (b := u) (by simpa using h)
      simp only [xorBytes, List.zipWith_cons_cons] at this ⊢
      rw [this, UInt8.xor_assoc, UInt8.xor_self, UInt8.xor_zero]

theorem clearTop_length (z : Nat) (b : Bytes) : (clearTop z b).length = b.length := by cases b <;> rfl

theorem clearTop_idem (z : Nat) (b : Bytes) : clearTop z (clearTop z b) = clearTop z b := by
  cases b with
  | nil => rfl
  | cons x t =>
    simp only [clearTop]
    congr 2
    rw [toNat_ofNat (lt_of_le_of_lt (Nat.mod_le _ _) x.toNat_lt), Nat.mod_mod]

/-- The low bits of the first byte of an exclusive or depend on the low bits only. -/
theorem clearTop_xor (z : Nat) (a b : Bytes) : clearTop z (xorBytes (clearTop z a) b) = clearTop z (xorBytes a b) := by
  cases a with
  | nil => rfl
  | cons x t =>
    cases b with
    | nil => rfl
    | cons y u =>
      simp only [clearTop, xorBytes, List.zipWith_cons_cons]
      congr 2
      rw [UInt8.toNat_xor, UInt8.toNat_xor, toNat_ofNat (lt_of_le_of_lt (Nat.mod_le _ _) x.toNat_lt), Nat.xor_mod_two_pow,
        Nat.xor_mod_two_pow, Nat.mod_mod]

theorem mgf1_length (seed : Bytes) (len : Nat) : (mgf1 seed len).length = len := by
  unfold mgf1
  rw [List.length_take, List.length_flatMap]
  simp only [sha512_length]
  simp
  omega

theorem beNat_clearTop {z : Nat} (hz : z ≤ 8) (b : Bytes) (hb : b ≠ []) : beNat (clearTop z b) < 2 ^ (8 * b.length - z) := by
  cases b with
  | nil => exact absurd rfl hb
  | cons x t =>
    rw [clearTop, beNat_cons, toNat_ofNat (lt_of_le_of_lt (Nat.mod_le _ _) x.toNat_lt)]
    have h1 := beNat_lt t
    have h2 : x.toNat % 2 ^ (8 - z) < 2 ^ (8 - z) := Nat.mod_lt _ (by positivity)
    rw [List.length_cons, show 8 * (t.length + 1) - z = (8 - z) + 8 * t.length by omega, pow_add, ← pow256]
    have := Nat.mul_le_mul_right (256 ^ t.length) (show x.toNat % 2 ^ (8 - z) + 1 ≤ 2 ^ (8 - z) by omega)
    rw [Nat.add_mul] at this
    omega

theorem beNat_append (a b : Bytes) : beNat (a ++ b) = beNat a * 256 ^ b.length + beNat b := by
  induction a with
  | nil => simp [beNat]
  | cons x t ih =>
    rw [List.cons_append, beNat_cons, beNat_cons, ih, List.length_append, pow_add]
    ring

theorem pssEncode_length {bits : Nat} {m salt em : Bytes} (h : pssEncode bits m salt = some em) : em.length = emLen bits := by
  unfold pssEncode at h
  split at h
  · cases h
  · cases h
    simp only [List.length_append, clearTop_length, xor_length, mgf1_length, sha512_length, List.length_replicate, List.length_cons, List.length_nil]
    omega

theorem pssEncode_lt {bits : Nat} {m salt em : Bytes} (h : pssEncode bits m salt = some em) : beNat em < 2 ^ bits := by
  unfold pssEncode at h
  split at h
  · cases h
  · next hl =>
    cases h
    rw [List.append_assoc, beNat_append]
    generalize hdb : xorBytes _ _ = db
    have hdl : db.length = emLen bits - 65 := by
      rw [← hdb]
      simp only [List.length_append, xor_length, mgf1_length, List.length_replicate, List.length_cons, List.length_nil]
      omega
    have h8 : emLen bits = (bits + 7) / 8 := rfl
    have h1 := beNat_clearTop (z := 8 * emLen bits - bits) (by omega) db (by intro h0; rw [h0] at hdl; simp at hdl; omega)
    generalize htl : (sha512 _ ++ [0xbc] : Bytes) = tl
    have htl' : tl.length = 65 := by rw [← htl, List.length_append, sha512_length]; rfl
    have h2 := beNat_lt tl
    rw [htl'] at h2 ⊢
    rw [hdl, show 8 * (emLen bits - 65) - (8 * emLen bits - bits) = bits - 8 * 65 by omega] at h1
    rw [show 2 ^ bits = 2 ^ (bits - 8 * 65) * 256 ^ 65 by rw [pow256, ← pow_add]; congr 1; omega]
    have := Nat.mul_le_mul_right (256 ^ 65) h1
    rw [Nat.succ_mul] at this
    omega

/-- The check of PSS accepts exactly the encodings. -/
theorem pssVerify_iff {bits : Nat} {m em : Bytes} (hl : em.length = emLen bits) :
    pssVerify bits m em = true ↔ ∃ salt, salt.length = 64 ∧ pssEncode bits m salt = some em := by
  constructor
  · intro h
    unfold pssVerify at h
    simp only at h
    split at h
    · cases h
    · next h1 =>
      split at h
      · cases h
      · next h2 =>
        split at h
        · cases h
        · next h3 =>
          have h1' : ¬ emLen bits < 130 := fun hh => h1 (Or.inl hh)
          have h1e : em.drop (emLen bits - 1) = [0xbc] := by by_contra hh; exact h1 (Or.inr hh)
          have h2' := not_not.1 h2
          have h3a := not_not.1 (fun hh => h3 (Or.inl hh))
          have h3b := not_not.1 (fun hh => h3 (Or.inr hh))
          have h4 := beq_iff_eq.1 h
          clear h h1 h2 h3
          generalize hmk : em.take (emLen bits - 65) = masked at *
          generalize hh : (em.drop (emLen bits - 65)).take 64 = hsh at *
          generalize hz : 8 * emLen bits - bits = z at *
          have hml : masked.length = emLen bits - 65 := by rw [← hmk, List.length_take]; omega
          have hdl : (clearTop z (xorBytes masked (mgf1 hsh (emLen bits - 65)))).length = emLen bits - 65 := by
            rw [clearTop_length, xor_length, mgf1_length]; omega
          generalize hdb : clearTop z (xorBytes masked (mgf1 hsh (emLen bits - 65))) = db at *
          refine ⟨db.drop (emLen bits - 129), by rw [List.length_drop]; omega, ?_⟩
          have hsl : (db.drop (emLen bits - 129)).length = 64 := by rw [List.length_drop]; omega
          have hdb' : List.replicate (emLen bits - 130) 0 ++ [1] ++ db.drop (emLen bits - 129) = db := by
            rw [← h3a, ← h3b, List.append_assoc, show emLen bits - 129 = (emLen bits - 130) + 1 by omega, ← List.drop_drop,
              List.take_append_drop, List.take_append_drop]
          unfold pssEncode
          rw [if_neg (by omega)]
          simp only
          rw [hsl, ← h4, show emLen bits - 64 - 66 = emLen bits - 130 by omega, hdb', hz, ← hdb, clearTop_xor,
            xor_cancel (by rw [mgf1_length]; omega), h2', ← hmk, ← hh, ← h1e,
            show emLen bits - 1 = (emLen bits - 65) + 64 by omega, ← List.drop_drop, List.append_assoc, List.take_append_drop,
            List.take_append_drop]
  · rintro ⟨salt, hs, h⟩
    unfold pssEncode at h
    split at h
    · cases h
    · next h1 =>
      simp only [Option.some.injEq] at h
      rw [hs] at h h1
      generalize hz : 8 * emLen bits - bits = z at *
      have hhl := sha512_length (List.replicate 8 0 ++ sha512 m ++ salt)
      generalize hh : sha512 (List.replicate 8 0 ++ sha512 m ++ salt) = hsh at *
      generalize hdb : (List.replicate (emLen bits - 64 - 66) 0 ++ [1] ++ salt : Bytes) = db at *
      have hdl : db.length = emLen bits - 65 := by
        rw [← hdb]; simp only [List.length_append, List.length_replicate, List.length_cons, List.length_nil]; omega
      have hml : (clearTop z (xorBytes db (mgf1 hsh (emLen bits - 65)))).length = emLen bits - 65 := by
        rw [clearTop_length, xor_length, mgf1_length]; omega
      have hct : clearTop z db = db := by
        have : ∃ t, db = 0 :: t ∨ (db = 1 :: t ∧ z < 8) := by
          rw [← hdb]
          by_cases h0 : emLen bits - 64 - 66 = 0
          · rw [h0]; exact ⟨salt, Or.inr ⟨rfl, by have : emLen bits = (bits + 7) / 8 := rfl; omega⟩⟩
          · obtain ⟨j, hj⟩ : ∃ j, emLen bits - 64 - 66 = j + 1 := ⟨emLen bits - 64 - 66 - 1, by omega⟩
            rw [hj, List.replicate_succ]
            exact ⟨_, Or.inl rfl⟩
        obtain ⟨t, ht | ⟨ht, hz8⟩⟩ := this
        · rw [ht]; simp [clearTop]
        · have : (1 : UInt8).toNat % 2 ^ (8 - z) = 1 := by
            obtain ⟨j, hj⟩ : ∃ j, 8 - z = j + 1 := ⟨7 - z, by omega⟩
            rw [hj, pow_succ]
            exact Nat.mod_eq_of_lt (by have := Nat.pow_pos (n := j) (show 0 < 2 by omega); simp; omega)
          rw [ht, clearTop, this]
          simp
      generalize hmk : clearTop z (xorBytes db (mgf1 hsh (emLen bits - 65))) = masked at *
      have e1 : em.take (emLen bits - 65) = masked := by
        rw [← h, List.append_assoc, List.take_left' hml]
      have e2 : em.drop (emLen bits - 65) = hsh ++ [0xbc] := by
        rw [← h, List.append_assoc, List.drop_left' hml]
      have e3 : em.drop (emLen bits - 1) = [0xbc] := by
        rw [show emLen bits - 1 = (emLen bits - 65) + 64 by omega, ← List.drop_drop, e2, List.drop_left' hhl]
      unfold pssVerify
      simp only
      rw [if_neg (by rw [e3]; simp; omega), e1, e2, List.take_left' hhl, hz]
      have hcm : clearTop z masked = masked := by rw [← hmk, clearTop_idem]
      rw [if_neg (by rw [hcm]; simp)]
      have hdm : clearTop z (xorBytes masked (mgf1 hsh (emLen bits - 65))) = db := by
        rw [← hmk, clearTop_xor, xor_cancel (by rw [mgf1_length]; omega), hct]
      rw [hdm, ← hdb, show emLen bits - 64 - 66 = emLen bits - 130 by omega, if_neg]
      · have e4 : (List.replicate (emLen bits - 130) 0 ++ [1] ++ salt : Bytes).drop (emLen bits - 129) = salt :=
          List.drop_left' (by rw [List.length_append, List.length_replicate]; simp; omega)
        rw [e4, hh]
        simp
      · rw [List.append_assoc, List.take_left' (List.length_replicate ..), List.drop_left' (List.length_replicate ..)]
        simp

theorem saltOf_length (rnd : Bytes) : (saltOf rnd).length = 64 := by
  unfold saltOf; rw [List.length_take, List.length_append, List.length_replicate]; omega

theorem verifyPss_signPss {L : Lib} {rnd : Bytes} {k : Priv} {m s : Bytes} (h : signPss L rnd k m = some s) :
    verifyPss L ⟨k.n, k.e⟩ m s = true := by
  simp only [signPss, Option.bind_eq_bind, Option.bind_eq_some_iff] at h
  obtain ⟨em, he, hp⟩ := h
  have hl := pssEncode_length he
  have hn : 0 < k.n := by
    rcases Nat.eq_zero_or_pos k.n with h0 | h0
    · exfalso
      unfold pssEncode at he
      rw [h0, saltOf_length, if_pos (by decide)] at he
      cases he
    · exact h0
  unfold verifyPss
  rw [pubOp_privOp hp hn]
  simp only
  have hlt := beNat_lt em
  rw [hl] at hlt
  have := beBytes_beNat em
  rw [hl] at this
  rw [this, (pssVerify_iff hl).2 ⟨_, saltOf_length rnd, he⟩]
  simp [hlt]

/-! ### Signing succeeds with two distinct primes -/

theorem pow_one_mod {p k c : Nat} (hp : p.Prime) (h : k % (p - 1) = 1) : (c : ZMod p) ^ k = c := by
  have : Fact p.Prime := ⟨hp⟩
  have hk : k = (p - 1) * (k / (p - 1)) + 1 := by have := Nat.div_add_mod k (p - 1); omega
  by_cases h0 : (c : ZMod p) = 0
  · rw [h0, zero_pow (by omega)]
  · rw [hk, pow_succ, pow_mul, ZMod.pow_card_sub_one_eq_one h0, one_pow, one_mul]

theorem pow_mod_exp {p d c : Nat} (hp : p.Prime) (h : 0 < d % (p - 1)) : (c : ZMod p) ^ (d % (p - 1)) = c ^ d := by
  have : Fact p.Prime := ⟨hp⟩
  by_cases h0 : (c : ZMod p) = 0
  · have : d ≠ 0 := by rintro rfl; simp at h
    rw [h0, zero_pow (by omega), zero_pow this]
  · conv_rhs => rw [← Nat.div_add_mod d (p - 1), pow_add, pow_mul, ZMod.pow_card_sub_one_eq_one h0, one_pow, one_mul]

/-- A private key with the arithmetic of RFC 8017 section 3.2. -/
structure Priv.Sound (k : Priv) : Prop where
  pp : k.p.Prime
  qp : k.q.Prime
  ne : k.p ≠ k.q
  n : k.p * k.q = k.n
  dp : k.d * k.e % (k.p - 1) = 1
  dq : k.d * k.e % (k.q - 1) = 1

theorem modEq_of_zmod {p a b : Nat} (h : (a : ZMod p) = b) : a ≡ b [MOD p] := (ZMod.natCast_eq_natCast_iff _ _ _).1 h

/-- Anything congruent to `c ^ d` modulo both primes is undone by the public operation. -/
theorem Priv.Sound.undo {k : Priv} (h : k.Sound) {c s : Nat} (hc : c < k.n) (h1 : (s : ZMod k.p) = c ^ k.d)
    (h2 : (s : ZMod k.q) = c ^ k.d) : powMod k.n (s % k.n) k.e = c := by
  have hco : Nat.Coprime k.p k.q := (Nat.coprime_primes h.pp h.qp).2 h.ne
  rw [powMod_eq, ← Nat.pow_mod, ← Nat.mod_eq_of_lt hc, ← h.n]
  refine (Nat.modEq_and_modEq_iff_modEq_mul hco).1 ⟨modEq_of_zmod ?_, modEq_of_zmod ?_⟩
  · rw [Nat.cast_pow, h1, ← pow_mul, pow_one_mod h.pp h.dp]
  · rw [Nat.cast_pow, h2, ← pow_mul, pow_one_mod h.qp h.dq]

theorem cast_of_dvd {p n a : Nat} (h : p ∣ n) : ((a % n : Nat) : ZMod p) = a := by
  rw [ZMod.natCast_eq_natCast_iff]
  exact (Nat.mod_modEq a n).of_dvd h

theorem rawPow_undo {k : Priv} (h : k.Sound) {c : Nat} (hc : c < k.n) : powMod k.n (rawPow k c % k.n) k.e = c := by
  refine h.undo hc ?_ ?_ <;> rw [rawPow, powMod_eq, cast_of_dvd, Nat.cast_pow] <;> rw [← h.n] <;> simp

theorem exp_pos {d e p : Nat} (h : d * e % (p - 1) = 1) : 0 < d % (p - 1) := by
  rcases Nat.eq_zero_or_pos (d % (p - 1)) with h0 | h0
  · rw [Nat.mul_mod, h0, Nat.zero_mul, Nat.zero_mod] at h; cases h
  · exact h0

theorem rawCrt_undo {k : Priv} (h : k.Sound) {c : Nat} (hc : c < k.n) : powMod k.n (rawCrt k c % k.n) k.e = c := by
  have hFp : Fact k.p.Prime := ⟨h.pp⟩
  have hFq : Fact k.q.Prime := ⟨h.qp⟩
  have p2 : k.p ≠ 2 := by intro hh; have := h.dp; rw [hh] at this; simp [Nat.mod_one] at this
  refine h.undo hc ?_ ?_
  · rw [rawCrt]
    push_cast
    rw [ZMod.natCast_mod, Nat.cast_mul, cast_sub' (Nat.mod_lt _ h.pp.pos).le, cast_inv' h.pp (by have := h.pp.two_le; omega), ZMod.natCast_mod]
    have hq0 : (k.q : ZMod k.p) ≠ 0 := by
      rw [Ne, ZMod.natCast_eq_zero_iff]
      intro hd
      exact h.ne ((Nat.prime_dvd_prime_iff_eq h.pp h.qp).1 hd)
    rw [powMod_cast, pow_mod_exp h.pp (exp_pos h.dp)]
    field_simp
    ring
  · rw [rawCrt]
    push_cast
    rw [powMod_cast, pow_mod_exp h.qp (exp_pos h.dq)]
    simp

/-- The private operation in use is one of the two of RFC 8017 section 5.1.2, up to multiples of the modulus. -/
def Lib.Standard (L : Lib) : Prop :=
  ∀ rnd k c, Priv.Sound k → c < k.n → L.raw rnd k c % k.n = rawPow k c % k.n ∨ L.raw rnd k c % k.n = rawCrt k c % k.n

theorem privOp_sound {L : Lib} (hL : L.Standard) (rnd : Bytes) {k : Priv} (h : k.Sound) {c : Nat} (hc : c < k.n) :
    ∃ s, privOp L rnd k c = some s := by
  unfold privOp
  simp only
  rcases hL rnd k c h hc with he | he
  · rw [he, rawPow_undo h hc, if_pos rfl]; exact ⟨_, rfl⟩
  · rw [he, rawCrt_undo h hc, if_pos rfl]; exact ⟨_, rfl⟩

theorem sign15_sound {L : Lib} (hL : L.Standard) (rnd : Bytes) {k : Priv} (h : k.Sound) (m : Bytes) (hs : 62 ≤ size k.n) :
    ∃ s, sign15 L rnd k m = some s := by
  have he : ∃ em, em15 (size k.n) m = some em := by unfold em15; rw [if_neg (by omega)]; exact ⟨_, rfl⟩
  obtain ⟨em, he⟩ := he
  obtain ⟨s, hs⟩ := privOp_sound hL rnd h (em15_lt he)
  exact ⟨s, by rw [sign15, he]; exact hs⟩

theorem signPss_sound {L : Lib} (hL : L.Standard) (rnd : Bytes) {k : Priv} (h : k.Sound) (m : Bytes) (hs : 130 ≤ emLen (Nat.log2 k.n)) :
    ∃ s, signPss L rnd k m = some s := by
  have he : ∃ em, pssEncode (Nat.log2 k.n) m (saltOf rnd) = some em := by
    unfold pssEncode; rw [saltOf_length, if_neg (by omega)]; exact ⟨_, rfl⟩
  obtain ⟨em, he⟩ := he
  have hn : k.n ≠ 0 := by rw [← h.n]; exact Nat.mul_ne_zero h.pp.ne_zero h.qp.ne_zero
  obtain ⟨s, hs⟩ := privOp_sound hL rnd h (lt_of_lt_of_le (pssEncode_lt he) (Nat.log2_self_le hn))
  exact ⟨s, by rw [signPss, he]; exact hs⟩

theorem lib_standard : lib.Standard := fun _ _ _ _ _ => Or.inr rfl

end Verif.Rsa
