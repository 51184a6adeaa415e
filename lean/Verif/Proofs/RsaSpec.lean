import Verif.Spec.Rsa
import Verif.Proofs.Rsa
import Verif.Proofs.Asn1Keys
import Verif.Proofs.Sha256
import Verif.Proofs.Sha512
/-! The model of RSA against `Spec/Rsa.lean`. -/
namespace Verif.Rsa
open ModArith Sha2 Der Ec Spec Spec.Sha Spec.Rsa

/-! ### Lengths -/

theorem octets_iff {n k : Nat} : Octets n k ↔ n ≠ 0 ∧ k = size n := by
  unfold Octets
  constructor
  · rintro ⟨h0, h1, h2⟩
    have hn : n ≠ 0 := by have := Nat.pow_pos (n := k - 1) (show 0 < 256 by omega); omega
    refine ⟨hn, ?_⟩
    have := bytes_unique h1 (by rwa [Nat.sub_add_cancel h0])
    unfold size; omega
  · rintro ⟨hn, rfl⟩
    exact ⟨Nat.succ_pos _, size_ge hn, size_lt n⟩

theorem emBits_iff {n b : Nat} : EmBits n b ↔ n ≠ 0 ∧ b = Nat.log2 n := by
  unfold EmBits
  constructor
  · rintro ⟨h1, h2⟩
    have hn : n ≠ 0 := by have := Nat.pow_pos (n := b) (show 0 < 2 by omega); omega
    exact ⟨hn, ((Nat.log2_eq_iff hn).2 ⟨h1, h2⟩).symm⟩
  · rintro ⟨hn, rfl⟩
    exact ⟨Nat.log2_self_le hn, Nat.lt_log2_self⟩

/-! ### PKCS #1 v1.5 -/

theorem sub_pos {n : Nat} {g : Bytes} (h : Asn1.Sub n g) : 1 ≤ g.length := by
  obtain ⟨hi, lo, rfl, _⟩ := h; simp

theorem sub_one {n : Nat} {g : Bytes} (h : Asn1.Sub n g) (hl : g.length = 1) : n < 128 ∧ g = [UInt8.ofNat n] := by
  obtain ⟨hi, lo, rfl, _, h2, h3⟩ := h
  have h0 : hi = [] := List.length_eq_zero_iff.1 (by simpa using hl)
  subst h0
  simp only [List.nil_append, List.foldl_cons, List.foldl_nil, Nat.zero_mul, Nat.zero_add] at h3
  rw [Nat.mod_eq_of_lt h2] at h3
  subst h3
  exact ⟨h2, by simp⟩

theorem sub_840 {g : Bytes} (h : Asn1.Sub 840 g) (hl : g.length = 2) : g = [0x86, 0x48] := by
  obtain ⟨hi, lo, rfl, h1, h2, h3⟩ := h
  obtain ⟨x, rfl⟩ := List.length_eq_one_iff.1 (show hi.length = 1 by simpa using hl)
  have hx := h1 x (by simp)
  simp only [List.cons_append, List.nil_append, List.foldl_cons, List.foldl_nil, Nat.zero_mul, Nat.zero_add] at h3
  have hx2 := x.toNat_lt
  have e1 : x.toNat = 0x86 := by omega
  have e2 : lo.toNat = 0x48 := by omega
  rw [← ofNat_toNat' x, ← ofNat_toNat' lo, e1, e2]; rfl

/-- The identifier of SHA-256. -/
def oid256 : Bytes := [0x60, 0x86, 0x48, 0x01, 0x65, 0x03, 0x04, 0x02, 0x01]

theorem oid256_ok : Asn1.Oid idSha256 oid256 :=
  oid_iff.2 ⟨96, [840, 1, 101, 3, 4, 2, 1], by decide +kernel, by decide⟩

theorem oid256_long {c : Bytes} (h : Asn1.Oid idSha256 c) : 9 ≤ c.length ∧ (c.length ≤ 9 → c = oid256) := by
  obtain ⟨_, _, gs, hg, rfl⟩ := h
  obtain ⟨g1, gs1, h1, hg1, rfl⟩ := List.forall₂_cons_left_iff.1 hg
  obtain ⟨g2, gs2, h2, hg2, rfl⟩ := List.forall₂_cons_left_iff.1 hg1
  obtain ⟨g3, gs3, h3, hg3, rfl⟩ := List.forall₂_cons_left_iff.1 hg2
  obtain ⟨g4, gs4, h4, hg4, rfl⟩ := List.forall₂_cons_left_iff.1 hg3
  obtain ⟨g5, gs5, h5, hg5, rfl⟩ := List.forall₂_cons_left_iff.1 hg4
  obtain ⟨g6, gs6, h6, hg6, rfl⟩ := List.forall₂_cons_left_iff.1 hg5
  obtain ⟨g7, gs7, h7, hg7, rfl⟩ := List.forall₂_cons_left_iff.1 hg6
  obtain ⟨g8, gs8, h8, hg8, rfl⟩ := List.forall₂_cons_left_iff.1 hg7
  obtain rfl := List.forall₂_nil_left_iff.1 hg8
  have p1 := sub_pos h1
  have p3 := sub_pos h3
  have p4 := sub_pos h4
  have p5 := sub_pos h5
  have p6 := sub_pos h6
  have p7 := sub_pos h7
  have p8 := sub_pos h8
  have p2 : 2 ≤ g2.length := by
    by_contra hh
    have := (sub_one h2 (by have := sub_pos h2; omega)).1
    omega
  simp only [List.flatten_cons, List.flatten_nil, List.append_nil, List.length_append]
  refine ⟨by omega, fun hl => ?_⟩
  rw [(sub_one h1 (by omega)).2, sub_840 h2 (by omega), (sub_one h3 (by omega)).2, (sub_one h4 (by omega)).2,
    (sub_one h5 (by omega)).2, (sub_one h6 (by omega)).2, (sub_one h7 (by omega)).2, (sub_one h8 (by omega)).2]
  rfl

theorem shortOid_iff {c : Bytes} : ShortOid idSha256 c ↔ c = oid256 := by
  constructor
  · rintro ⟨h, hs⟩
    exact (oid256_long h).2 (hs _ oid256_ok)
  · rintro rfl
    exact ⟨oid256_ok, fun c' h => (oid256_long h).1⟩

theorem tlv_short {tag : UInt8} {c : Bytes} (h : c.length < 128) : tlv tag c = tag :: UInt8.ofNat c.length :: c := by
  unfold tlv lenBytes
  rw [if_pos h]; rfl

theorem digestInfo_iff {h t : Bytes} (hl : h.length = 32) : DigestInfo h t ↔ t = prefix256 ++ h := by
  have e4 : tlv 4 h = [4, 32] ++ h := by rw [tlv_short (by omega), hl]; rfl
  have e30 : tlv 0x30 (tlv 0x30 (tlv 6 oid256 ++ tlv 5 []) ++ ([4, 32] ++ h)) = prefix256 ++ h := by
    have ha : tlv 0x30 (tlv 6 oid256 ++ tlv 5 []) = [0x30, 0x0d, 0x06, 0x09, 0x60, 0x86, 0x48, 0x01, 0x65, 0x03, 0x04, 0x02, 0x01, 0x05, 0x00] := by
      decide +kernel
    rw [ha, tlv_short (by simp [hl])]
    simp only [List.length_append, hl]
    rfl
  unfold DigestInfo
  constructor
  · rintro ⟨o, a, y, z, ho, ⟨x, hx, w, hw, rfl⟩, hy, hz, ht⟩
    rw [shortOid_iff] at ho
    subst ho
    rw [elem_iff (by decide)] at hx hw
    subst hx hw
    rw [elem_iff (by decide)] at hy
    rw [elem_iff (by omega)] at hz
    subst hy hz
    rw [elem_iff (by rw [List.length_append, e4, List.length_append, hl]; decide), e4] at ht
    rw [ht, e30]
  · rintro rfl
    refine ⟨oid256, _, _, _, shortOid_iff.2 rfl, ⟨_, (elem_iff (by decide)).2 rfl, _, (elem_iff (by decide)).2 rfl, rfl⟩,
      (elem_iff (by decide)).2 rfl, (elem_iff (by omega)).2 rfl, ?_⟩
    rw [elem_iff (by rw [List.length_append, e4, List.length_append, hl]; decide), e4, e30]

theorem pkcs1_iff {V : Variant 32} (hV : IsSha256 V) {k : Nat} {m em : Bytes} (hm : 8 * m.length < 2 ^ 64) :
    Pkcs1 V k m em ↔ em15 k m = some em := by
  unfold Pkcs1
  have hs := sha256_length m
  constructor
  · rintro ⟨h, t, ps, hd, hi, h8, hp, rfl, rfl⟩
    rw [S256.digest V hV m h hm] at hd
    subst hd
    rw [digestInfo_iff hs] at hi
    subst hi
    have hk : (0 :: 1 :: ps ++ 0 :: (prefix256 ++ sha256 m)).length = ps.length + 54 := by
      simp only [List.length_append, List.length_cons, hs]; simp [prefix256]
    rw [em15, hk, if_neg (by omega), Nat.add_sub_cancel, ← List.eq_replicate_iff.2 ⟨rfl, hp⟩]
    simp
  · intro h
    have hl := em15_length h
    unfold em15 at h
    split at h
    · cases h
    · rename_i hk
      refine ⟨sha256 m, _, List.replicate (k - 54) 0xff, (S256.digest V hV m _ hm).2 rfl, (digestInfo_iff hs).2 rfl, ?_, ?_, ?_, hl⟩
      · rw [List.length_replicate]; omega
      · intro x hx; exact List.eq_of_mem_replicate hx
      · rw [← Option.some.inj h]; simp

theorem verify15_iff {V : Variant 32} (hV : IsSha256 V) (L : Lib) (k : Pub) {m : Bytes} (sig : Bytes) (hm : 8 * m.length < 2 ^ 64) :
    verify15 L k m sig = true ↔ Verifies15 V L.sigLen k.n k.e m sig := by
  unfold Verifies15 verify15 pubOp
  simp only [octets_iff, pkcs1_iff hV hm]
  constructor
  · intro h
    split at h
    · rename_i v em hv he
      split at hv
      · rename_i hc
        cases hv
        have hlt := hc.2
        refine ⟨_, em, ⟨by omega, rfl⟩, hc.1, by rw [← beNat_eq]; exact hlt, he, ?_⟩
        have h := beq_iff_eq.1 h
        rw [← h, beBytes_val, ← beNat_eq, ← powMod_eq]
        rw [Nat.mod_eq_of_lt]
        refine lt_trans ?_ (size_lt k.n)
        rw [powMod_eq]; exact Nat.mod_lt _ (by omega)
      · cases hv
    · cases h
  · rintro ⟨_, em, ⟨hn, rfl⟩, hl, hlt, he, hp⟩
    rw [← beNat_eq] at hlt hp
    rw [he, if_pos ⟨hl, hlt⟩]
    simp only
    rw [powMod_eq, hp, ← beNat_eq, ← em15_length he, beBytes_beNat, beq_self_eq_true]

/-! ### PSS -/

theorem xor_split {a b c d k : Nat} (hb : b < 2 ^ k) (hd : d < 2 ^ k) :
    (a * 2 ^ k + b) ^^^ (c * 2 ^ k + d) = (a ^^^ c) * 2 ^ k + (b ^^^ d) := by
  have hx : b ^^^ d < 2 ^ k := Nat.xor_lt_two_pow hb hd
  apply Nat.eq_of_testBit_eq
  intro i
  rw [Nat.mul_comm a, Nat.mul_comm c, Nat.mul_comm (a ^^^ c), Nat.testBit_xor, Nat.testBit_two_pow_mul_add _ hb, Nat.testBit_two_pow_mul_add _ hd,
    Nat.testBit_two_pow_mul_add _ hx]
  split <;> rw [Nat.testBit_xor]

theorem beVal_xor {a b : Bytes} (h : a.length = b.length) : beVal (xorBytes a b) = beVal a ^^^ beVal b := by
  induction a generalizing b with
  | nil => cases b with
    | nil => rfl
    | cons => simp at h
  | cons x t ih =>
    cases b with
    | nil => simp at h
    | cons y u =>
      have hl : t.length = u.length := by simpa using h
      have e := ih hl
      have hx : (xorBytes t u).length = t.length := by rw [xor_length, hl, Nat.min_self]
      show beVal ((x ^^^ y) :: xorBytes t u) = _
      rw [beVal, beVal, beVal, e, hx, ← hl, UInt8.toNat_xor, pow256, xor_split]
      · rw [← pow256]; exact beVal_lt t
      · rw [← pow256, hl]; exact beVal_lt u

theorem beVal_clearTop {z : Nat} (hz : z ≤ 8) (b : Bytes) (hb : b ≠ []) : beVal (clearTop z b) = beVal b % 2 ^ (8 * b.length - z) := by
  cases b with
  | nil => exact absurd rfl hb
  | cons x t =>
    rw [clearTop, beVal, beVal, toNat_ofNat (lt_of_le_of_lt (Nat.mod_le _ _) x.toNat_lt), List.length_cons,
      show 8 * (t.length + 1) - z = 8 * t.length + (8 - z) by omega, pow_add, ← pow256, Nat.mod_mul]
    have ht := beVal_lt t
    have hp : 0 < 256 ^ t.length := Nat.pow_pos (by omega)
    rw [Nat.mul_comm x.toNat, Nat.mul_add_mod, Nat.mod_eq_of_lt ht, Nat.mul_add_div hp, Nat.div_eq_of_lt ht, Nat.add_zero]
    ring

theorem flatten_length {ts : List Bytes} (h : ∀ t ∈ ts, t.length = 64) : ts.flatten.length = 64 * ts.length := by
  induction ts with
  | nil => rfl
  | cons t ts ih =>
    rw [List.flatten_cons, List.length_append, h t (by simp), ih (fun t ht => h t (by simp [ht])), List.length_cons]; omega

theorem mgf1_iff {V : Variant 64} (hV : IsSha512 V) {seed mask : Bytes} (hs : seed.length = 64) (hm : mask.length ≤ 2 ^ 38) :
    Mgf1 V seed mask ↔ mask = mgf1 seed mask.length := by
  have hd : ∀ c t : Bytes, c.length = 4 → (Digest V (seed ++ c) t ↔ t = sha512 (seed ++ c)) := fun c t hc =>
    S512.digest V hV _ t (by rw [List.length_append, hs, hc]; decide)
  unfold Mgf1
  constructor
  · rintro ⟨ts, rest, hf, hr, ht⟩
    have h64 : ∀ t ∈ ts, t.length = 64 := by
      intro t hmem
      obtain ⟨i, hi⟩ := List.mem_iff_getElem?.1 hmem
      obtain ⟨c, h1, _, h3⟩ := ht i t hi
      rw [(hd c t h1).1 h3, sha512_length]
    have hl := flatten_length h64
    rw [hf, List.length_append] at hl
    have hn : ts.length = (mask.length + 63) / 64 := by omega
    have hts : ts = (List.range ((mask.length + 63) / 64)).map fun i => sha512 (seed ++ beBytes 4 i) := by
      apply List.ext_getElem (by rw [List.length_map, List.length_range, hn])
      intro i h1 h2
      obtain ⟨c, hc, hv, h3⟩ := ht i _ (List.getElem?_eq_getElem h1)
      rw [(hd c _ hc).1 h3, List.getElem_map, List.getElem_range]
      have : c = beBytes 4 i := by rw [← hv, ← beNat_eq, ← hc, beBytes_beNat]
      rw [this]
    rw [mgf1, List.flatMap_def, ← hts, hf, List.take_left' rfl]
  · intro h
    refine ⟨(List.range ((mask.length + 63) / 64)).map fun i => sha512 (seed ++ beBytes 4 i),
      ((List.range ((mask.length + 63) / 64)).flatMap fun i => sha512 (seed ++ beBytes 4 i)).drop mask.length, ?_, ?_, ?_⟩
    · conv_rhs => rw [h]
      rw [mgf1_length, mgf1, List.take_append_drop, List.flatMap_def]
    · rw [List.length_drop, List.length_flatMap]
      simp only [sha512_length]
      simp
      omega
    · intro i t hi
      obtain ⟨h1, rfl⟩ := List.getElem?_eq_some_iff.1 hi
      rw [List.length_map, List.length_range] at h1
      refine ⟨beBytes 4 i, Verif.beBytes_length _ _, ?_, ?_⟩
      · rw [beBytes_val]; exact Nat.mod_eq_of_lt (by norm_num at hm ⊢; omega)
      · rw [hd _ _ (Verif.beBytes_length _ _), List.getElem_map, List.getElem_range]

theorem pss_iff {V : Variant 64} (hV : IsSha512 V) {bits : Nat} {m salt em : Bytes} (hm : 8 * m.length < 2 ^ 128) (hs : salt.length = 64)
    (hb : bits ≤ 2 ^ 40) : Pss V bits m salt em ↔ pssEncode bits m salt = some em := by
  have hl1 := sha512_length m
  have hl2 := sha512_length (List.replicate 8 0 ++ sha512 m ++ salt)
  have hd2 : ∀ h, Digest V (List.replicate 8 0 ++ sha512 m ++ salt) h ↔ h = sha512 (List.replicate 8 0 ++ sha512 m ++ salt) := fun h =>
    S512.digest V hV _ h (by simp only [List.length_append, List.length_replicate, hl1, hs]; decide)
  have hem : emLen bits = (bits + 7) / 8 := rfl
  unfold Pss
  constructor
  · rintro ⟨hm', h, mask, masked, z, h1, h2, h3, h4, h5, h6, h7, h8, h9⟩
    rw [S512.digest V hV m hm' hm] at h3
    subst h3
    rw [hd2] at h4
    subst h4
    have hl : em.length = z + 130 := by
      rw [h9]; simp only [List.length_append, h7, hl2, hs, List.length_cons, List.length_nil]
    have he : emLen bits = em.length := by omega
    rw [mgf1_iff hV hl2 (by rw [h6]; omega)] at h5
    have hz : emLen bits - salt.length - 66 = z := by omega
    unfold pssEncode
    rw [if_neg (by omega), hz]
    simp only
    rw [Option.some.injEq, h9]
    congr 2
    have hml : mask.length = emLen bits - 65 := by omega
    rw [hml] at h5
    rw [← h5]
    have hdl : (List.replicate z 0 ++ [1] ++ salt : Bytes).length = mask.length := by
      rw [h6]; simp only [List.length_append, List.length_replicate, List.length_cons, List.length_nil]
    have hxl : (xorBytes (List.replicate z 0 ++ [1] ++ salt) mask).length = z + 1 + salt.length := by
      rw [xor_length, hdl, Nat.min_self, h6]
    apply beVal_inj (by rw [clearTop_length, hxl, h7])
    rw [beVal_clearTop (by omega) _ (by intro h0; rw [h0] at hxl; simp at hxl; omega), beVal_xor hdl, h8, hxl, h7, he]
  · intro h
    have hl := pssEncode_length h
    unfold pssEncode at h
    split at h
    · cases h
    · rename_i hk
      simp only [Option.some.injEq] at h
      generalize hz : emLen bits - salt.length - 66 = z at h
      generalize hh : sha512 (List.replicate 8 0 ++ sha512 m ++ salt) = hsh at h hl2
      have hmk := mgf1_length hsh (emLen bits - 65)
      have hml : emLen bits - 65 = z + 1 + salt.length := by omega
      rw [hml] at h hmk
      have hdl : (List.replicate z 0 ++ [1] ++ salt : Bytes).length = (mgf1 hsh (z + 1 + salt.length)).length := by
        rw [hmk]; simp only [List.length_append, List.length_replicate, List.length_cons, List.length_nil]
      have hxl : (xorBytes (List.replicate z 0 ++ [1] ++ salt) (mgf1 hsh (z + 1 + salt.length))).length = z + 1 + salt.length := by
        rw [xor_length, hdl, Nat.min_self, hmk]
      refine ⟨sha512 m, hsh, mgf1 hsh (z + 1 + salt.length), _, z, ?_, ?_, (S512.digest V hV m _ hm).2 rfl, (hd2 _).2 hh.symm, ?_, hmk, ?_, ?_, h.symm⟩
      · omega
      · omega
      · rw [mgf1_iff hV hl2 (by rw [hmk]; omega), hmk]
      · rw [clearTop_length, hxl]
      · rw [clearTop_length, beVal_clearTop (by omega) _ (by intro h0; rw [h0] at hxl; simp at hxl; omega), beVal_xor hdl, hl]

theorem verifyPss_iff {V : Variant 64} (hV : IsSha512 V) (L : Lib) (k : Pub) {m : Bytes} (sig : Bytes) (hm : 8 * m.length < 2 ^ 128)
    (hn : Nat.log2 k.n ≤ 2 ^ 40) : verifyPss L k m sig = true ↔ VerifiesPss V L.sigLen L.topByte k.n k.e m sig := by
  unfold VerifiesPss verifyPss pubOp
  simp only [octets_iff, emBits_iff]
  by_cases hc : L.sigLen (size k.n) sig.length = true ∧ beNat sig < k.n
  · rw [if_pos hc]
    simp only [Bool.and_eq_true]
    rw [pssVerify_iff (Verif.beBytes_length _ _)]
    have hn0 : k.n ≠ 0 := by omega
    constructor
    · rintro ⟨ht, salt, hs, he⟩
      refine ⟨_, _, _, salt, ⟨hn0, rfl⟩, ⟨hn0, rfl⟩, hc.1, by rw [← beNat_eq]; exact hc.2, hs, (pss_iff hV hm hs hn).2 he, ?_⟩
      rw [beBytes_val, Verif.beBytes_length, ← beNat_eq, ← powMod_eq]
      cases hT : L.topByte
      · simp
      · rw [hT] at ht
        simp only [if_true]
        rw [Nat.mod_eq_of_lt (by simpa using ht)]
    · rintro ⟨_, _, em, salt, ⟨_, rfl⟩, ⟨_, rfl⟩, _, _, hs, he, hv⟩
      rw [pss_iff hV hm hs hn] at he
      have hl := pssEncode_length he
      rw [← beNat_eq, ← powMod_eq, hl] at hv
      have hlt := beVal_lt em
      rw [hl] at hlt
      have heq : beBytes (emLen (Nat.log2 k.n)) (powMod k.n (beNat sig) k.e) = em := by
        apply beVal_inj (by rw [Verif.beBytes_length, hl])
        rw [beBytes_val]
        cases hT : L.topByte
        · rw [hT] at hv; simpa using hv
        · rw [hT] at hv
          simp only [if_true] at hv
          rw [hv, Nat.mod_eq_of_lt hlt]
      refine ⟨?_, salt, hs, by rw [heq]; exact he⟩
      cases hT : L.topByte
      · simp
      · rw [hT] at hv
        simp only [if_true] at hv
        simpa [hv] using hlt
  · rw [if_neg hc]
    simp only [Bool.false_eq_true, false_iff]
    rintro ⟨_, _, _, _, ⟨_, rfl⟩, _, h1, h2, _⟩
    exact hc ⟨h1, by rw [beNat_eq]; exact h2⟩

/-! ### The private operation -/

theorem privOp_iff {L : Lib} {rnd : Bytes} {k : Priv} {em : Nat} {s : Bytes} (hn : 0 < k.n) (h : privOp L rnd k em = some s) :
    s.length = size k.n ∧ beVal s = L.raw rnd k em % k.n ∧ beVal s < k.n ∧ beVal s ^ k.e % k.n = em := by
  have hl := privOp_length h
  unfold privOp at h
  simp only at h
  split at h
  · rename_i he
    have hs := Option.some.inj h
    have hlt : L.raw rnd k em % k.n < k.n := Nat.mod_lt _ hn
    have hv : beVal s = L.raw rnd k em % k.n := by
      rw [← hs, beBytes_val, Nat.mod_eq_of_lt (lt_trans hlt (size_lt _))]
    refine ⟨hl, hv, by rw [hv]; exact hlt, ?_⟩
    rw [hv, ← powMod_eq, he]
  · cases h

/-- The public operation of a key with two primes loses nothing. -/
theorem Priv.Sound.inj {k : Priv} (h : k.Sound) {a b : Nat} (ha : a < k.n) (hb : b < k.n) (he : a ^ k.e % k.n = b ^ k.e % k.n) : a = b := by
  have hco : Nat.Coprime k.p k.q := (Nat.coprime_primes h.pp h.qp).2 h.ne
  have key : ∀ r : Nat, r.Prime → r ∣ k.n → k.d * k.e % (r - 1) = 1 → a ≡ b [MOD r] := by
    intro r hr hd h1
    have h2 : a ^ k.e ≡ b ^ k.e [MOD r] := Nat.ModEq.of_dvd hd he
    have h3 : ((a : ZMod r)) ^ k.e = (b : ZMod r) ^ k.e := by
      have := (ZMod.natCast_eq_natCast_iff _ _ _).2 h2
      simpa using this
    apply modEq_of_zmod
    rw [← pow_one_mod hr h1, ← pow_one_mod (c := b) hr h1, Nat.mul_comm, pow_mul, pow_mul, h3]
  have := (Nat.modEq_and_modEq_iff_modEq_mul hco).1
    ⟨key _ h.pp (h.n ▸ Nat.dvd_mul_right _ _) h.dp, key _ h.qp (h.n ▸ Nat.dvd_mul_left _ _) h.dq⟩
  rw [h.n] at this
  exact Nat.ModEq.eq_of_lt_of_lt this ha hb

end Verif.Rsa
