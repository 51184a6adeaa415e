import Verif.Spec.Rfc6979
import Verif.Proofs.EcDom
import Verif.Props.C61
/-!
The nonce of the model is that of RFC 6979.
-/
namespace Verif.Ec
open Sha2 Spec.Ecdsa Spec.Sha Spec.Rfc6979

section
variable {mac : Bytes → Bytes → Bytes} {M : Bytes → Bytes → Bytes → Prop} {len : Nat}

theorem nonceLoop_iff (hM : ∀ k t tag, k.length = len → t.length ≤ 3 * len + 1 → (M k t tag ↔ tag = mac k t))
    (hl : ∀ k t, (mac k t).length = len) {n : Nat} (f : Nat) (K V : Bytes) (hK : K.length = len) (hV : V.length = len) (c : Nat) :
    nonceLoop mac n f K V = some c ↔ ∃ i, i < f ∧ Candidate M n K V i c := by
  induction f generalizing K V with
  | zero => simp [nonceLoop]
  | succ f ih =>
    have h1 := hM K V (mac K V) hK (by omega)
    have h2 := hM K (mac K V ++ [0]) (mac K (mac K V ++ [0])) hK (by rw [List.length_append, hl]; simp; omega)
    have h3 := hM (mac K (mac K V ++ [0])) (mac K V) (mac (mac K (mac K V ++ [0])) (mac K V)) (hl _ _) (by rw [hl]; omega)
    have ih := ih (mac K (mac K V ++ [0])) (mac (mac K (mac K V ++ [0])) (mac K V)) (hl _ _) (hl _ _)
    simp only [nonceLoop, beNat_eq]
    split
    · rename_i h
      constructor
      · intro e
        injection e with e; subst e
        exact ⟨0, by omega, .take (h1.2 rfl) h.1 h.2⟩
      · rintro ⟨i, _, hc⟩
        cases hc with
        | take ht _ _ => rw [(hM _ _ _ hK (by omega)).1 ht]
        | next ht ho _ _ _ =>
          rw [(hM _ _ _ hK (by omega)).1 ht] at ho
          omega
    · rename_i h
      rw [ih]
      constructor
      · rintro ⟨i, hi, hc⟩
        exact ⟨i + 1, by omega, .next (h1.2 rfl) (by omega) (h2.2 rfl) (h3.2 rfl) hc⟩
      · rintro ⟨i, hi, hc⟩
        cases hc with
        | take ht h4 h5 =>
          rw [(hM _ _ _ hK (by omega)).1 ht] at h4 h5
          exact absurd ⟨h4, h5⟩ h
        | next ht ho hk hv hc =>
          have e1 := (hM _ _ _ hK (by omega)).1 ht
          subst e1
          have e2 := (hM _ _ _ hK (by rw [List.length_append, hl]; simp; omega)).1 hk
          subst e2
          have e3 := (hM _ _ _ (hl _ _) (by rw [hl]; omega)).1 hv
          subst e3
          exact ⟨_, by omega, hc⟩

theorem octets_iff {n : Nat} {b : Bytes} (h : n < 256 ^ len) : Octets len n b ↔ b = beBytes len n := by
  constructor
  · rintro ⟨h1, h2⟩
    have h3 := octets_beBytes h
    exact beVal_inj (h1.trans h3.1.symm) (h2.trans h3.2.symm)
  · rintro rfl
    exact octets_beBytes h

theorem nonce_iff {C : Curve} (hC : C.Full) (hM : ∀ k t tag, k.length = C.len → t.length ≤ 3 * C.len + 1 → (M k t tag ↔ tag = mac k t))
    (hl : ∀ k t, (mac k t).length = C.len) {d : Nat} (hd : d < C.n) (h1 : Bytes) (k : Nat) :
    C.nonce mac d h1 = some k ↔ ∃ i, i < 1000 ∧ Nonce C.dom M d h1 i k := by
  have hn := hC.nlen
  have hn0 : 0 < C.n := by omega
  have hz : beVal h1 % C.n < 256 ^ C.len := lt_of_lt_of_le (Nat.mod_lt _ hn0) hn
  have hbl : ∀ x, (beBytes C.len x).length = C.len := Verif.beBytes_length _
  unfold Curve.nonce Nonce
  simp only [beNat_eq, ← List.append_assoc]
  rw [nonceLoop_iff (M := M) hM hl 1000 _ _ (hl _ _) (hl _ _)]
  constructor
  · rintro ⟨i, hi, hc⟩
    refine ⟨i, hi, beBytes C.len d, beBytes C.len (beVal h1 % C.n),
      mac (List.replicate C.len 0) (List.replicate C.len 1 ++ [0] ++ beBytes C.len d ++ beBytes C.len (beVal h1 % C.n)),
      mac (mac (List.replicate C.len 0) (List.replicate C.len 1 ++ [0] ++ beBytes C.len d ++ beBytes C.len (beVal h1 % C.n)))
        (List.replicate C.len 1), _, _, (octets_iff (show d < 256 ^ C.len by omega)).2 rfl, (octets_iff hz).2 rfl, ?_, ?_, ?_, ?_, hc⟩
    · refine (hM _ _ _ (by simp) ?_).2 (by simp)
      simp [hbl]; omega
    · exact (hM _ _ _ (hl _ _) (by simp; omega)).2 rfl
    · refine (hM _ _ _ (hl _ _) ?_).2 (by simp)
      simp [hbl, hl]; omega
    · exact (hM _ _ _ (hl _ _) (by rw [hl]; omega)).2 rfl
  · rintro ⟨i, hi, x, z, K₁, V₁, K₂, V₂, hx, hz', a1, a2, a3, a4, hc⟩
    have hx : Octets C.len d x := hx
    have hz' : Octets C.len (beVal h1 % C.n) z := hz'
    obtain rfl := (octets_iff (show d < 256 ^ C.len by omega)).1 hx
    obtain rfl := (octets_iff hz).1 hz'
    have a1 := (hM _ _ _ (by simp) (by simp [hbl]; omega)).1 a1
    subst a1
    have a2 := (hM _ _ _ (hl _ _) (by simp; omega)).1 a2
    subst a2
    have a3 := (hM _ _ _ (hl _ _) (by simp [hbl, hl]; omega)).1 a3
    subst a3
    have a4 := (hM _ _ _ (hl _ _) (by rw [hl]; omega)).1 a4
    subst a4
    refine ⟨i, hi, ?_⟩
    exact hc

end

/-! ### HMAC with SHA-384 -/

theorem hmac384_iff (V : Variant 64) (hV : IsSha384 V) (k text tag : Bytes) (hk : k.length ≤ 128) (ht : 8 * (128 + text.length) < 2 ^ 128) :
    Hmac384 V k text tag ↔ tag = hmacOf sha384 128 k text := by
  have hkl : (k ++ List.replicate (128 - k.length) (0 : UInt8)).length = 128 := by simp; omega
  have h1 : ∀ x : UInt8, 8 * ((k ++ List.replicate (128 - k.length) (0 : UInt8)).map (· ^^^ x) ++ text).length < 2 ^ 128 := by
    intro x
    rw [List.length_append, List.length_map, hkl]; exact ht
  have h2 : ∀ (x : UInt8) t, 8 * ((k ++ List.replicate (128 - k.length) (0 : UInt8)).map (· ^^^ x) ++ sha384 t).length < 2 ^ 128 := by
    intro x t
    rw [List.length_append, List.length_map, hkl, S384.sha_length]; decide
  unfold Hmac384 hmacOf
  simp only [if_neg (show ¬ 128 < k.length by omega)]
  constructor
  · rintro ⟨kb, inner, ⟨hl, z, ⟨_, rfl⟩ | ⟨h', _⟩⟩, hi, ho⟩
    · rw [List.length_append, List.length_replicate] at hl
      obtain rfl : z = 128 - k.length := by omega
      rw [(C61_sha384 V hV _ _ (h1 _)).1 hi] at ho
      exact (C61_sha384 V hV _ _ (h2 _ _)).1 ho
    · omega
  · rintro rfl
    exact ⟨_, _, ⟨hkl, _, Or.inl ⟨hk, rfl⟩⟩, (C61_sha384 V hV _ _ (h1 _)).2 rfl, (C61_sha384 V hV _ _ (h2 _ _)).2 rfl⟩

/-! ### Signing, with the nonce in view -/

variable {C : Curve} {D : Domain} [hF : Fact D.p.Prime] {hash : Bytes → Bytes} {nonce : Bytes → Nat → Bytes → Option Nat}

theorem d_sign_iff (h : C.Full) (hD : D = C.dom) (hnonce : ∀ r d h k, nonce r d h = some k → 0 < k ∧ k < C.n) (rnd : Bytes)
    (d : C.Scalar) (m sig : Bytes) : (ecdsaWith C hash nonce).sign rnd d m = some sig ↔
      ∃ k r s, nonce rnd d.1 (hash m) = some k ∧ D.SigBytes r s sig ∧ D.Signs d.1 k (beVal (hash m)) r s := by
  subst hD
  have hs : (ecdsaWith C hash nonce).sign rnd d m = match nonce rnd d.1 (hash m) with
    | none => none
    | some k => (C.signWith k (beNat (hash m)) d.1).map fun rs => beBytes C.len rs.1 ++ beBytes C.len rs.2 := rfl
  have hl := h.nlen
  rw [hs]
  constructor
  · intro hs
    split at hs
    · cases hs
    rename_i k hk
    have hk' := hnonce _ _ _ _ hk
    rw [Option.map_eq_some_iff] at hs
    obtain ⟨⟨r, s⟩, hrs, rfl⟩ := hs
    have hr := signWith_range h.toGood hrs
    refine ⟨k, r, s, hk, ⟨_, _, rfl, octets_beBytes ?_, octets_beBytes ?_⟩, beNat_eq _ ▸ (signs_iff h hk' _ _ _ _).1 hrs⟩
    · show r < 256 ^ C.len; omega
    · show s < 256 ^ C.len; omega
  · rintro ⟨k, r, s, hk, ⟨x, y, rfl, hx, hy⟩, hsg⟩
    have hrs := (signs_iff h (hnonce _ _ _ _ hk) _ _ _ _).2 hsg
    have hr := signWith_range h.toGood hrs
    rw [hk]
    simp only [beNat_eq, hrs, Option.map_some, Option.some.injEq]
    have hx : Octets C.len r x := hx
    have hy : Octets C.len s y := hy
    rw [(octets_iff (show r < 256 ^ C.len by omega)).1 hx, (octets_iff (show s < 256 ^ C.len by omega)).1 hy]

theorem d_signs_iff (h : C.Full) (hD : D = C.dom) {k : Nat} (hk : 0 < k ∧ k < C.n) (z d r s : Nat) :
    C.signWith k z d = some (r, s) ↔ D.Signs d k z r s := by
  subst hD; exact signs_iff h hk z d r s

/-- Two signatures with one nonce give the private key away. -/
theorem signs_reuse (hn : D.n.Prime) {d k z z' r r' s s' : Nat} (h : D.Signs d k z r s) (h' : D.Signs d k z' r' s')
    (hd : d < D.n) (hz : z % D.n ≠ z' % D.n) : r = r' ∧ ∀ x, x < D.n →
      ((x : ZMod D.n) * (r * ((s' : ZMod D.n) - s)) = s * z' - s' * z ↔ x = d) := by
  obtain ⟨⟨hk0, hkn⟩, hr0, hs0, hsn, G, x, y, hxy, hG, hP, hx, he⟩ := h
  obtain ⟨_, _, hs0', hsn', G', x', y', hxy', hG', hP', hx', he'⟩ := h'
  have eG : G = G' := by
    obtain ⟨_, rfl⟩ := hG
    obtain ⟨_, rfl⟩ := hG'
    rfl
  subst eG
  rw [hP] at hP'
  injection hP' with ex ey
  subst ex
  have er : r = r' := hx.symm.trans hx'
  subst er
  have hFn : Fact D.n.Prime := ⟨hn⟩
  have hrn : (r : ZMod D.n) ≠ 0 := by
    rw [Ne, ZMod.natCast_eq_zero_iff]
    intro hd
    have := Nat.le_of_dvd hr0 hd
    have : r < D.n := by rw [← hx]; exact Nat.mod_lt _ hn.pos
    omega
  have hkn' : (k : ZMod D.n) ≠ 0 := by
    rw [Ne, ZMod.natCast_eq_zero_iff]
    intro hd; have := Nat.le_of_dvd hk0 hd; omega
  have e1 : (k * s : ZMod D.n) = z + r * d := by
    have := (ZMod.natCast_eq_natCast_iff' _ _ _).2 he
    push_cast at this; exact this
  have e2 : (k * s' : ZMod D.n) = z' + r * d := by
    have := (ZMod.natCast_eq_natCast_iff' _ _ _).2 he'
    push_cast at this; exact this
  have hss : (s' : ZMod D.n) - s ≠ 0 := by
    intro h0
    apply hz
    rw [← ZMod.natCast_eq_natCast_iff']
    have : (k * s' : ZMod D.n) - k * s = 0 := by rw [← mul_sub, h0, mul_zero]
    rw [e1, e2] at this
    have h3 : (z' : ZMod D.n) - z = 0 := by rw [← this]; ring
    exact (sub_eq_zero.1 h3).symm
  have hd' : (d : ZMod D.n) * (r * ((s' : ZMod D.n) - s)) = s * z' - s' * z := by
    apply mul_left_cancel₀ hkn'
    have : (k : ZMod D.n) * (d * (r * ((s' : ZMod D.n) - s))) = (r * d) * (k * s' - k * s) := by ring
    rw [this, e1, e2]
    have : (k : ZMod D.n) * (s * z' - s' * z) = (k * s) * z' - (k * s') * z := by ring
    rw [this, e1, e2]
    ring
  refine ⟨rfl, fun x hxn => ⟨fun hx => ?_, fun hx => by rw [hx, hd']⟩⟩
  have := mul_right_cancel₀ (mul_ne_zero hrn hss) (hx.trans hd'.symm)
  rw [ZMod.natCast_eq_natCast_iff', Nat.mod_eq_of_lt hxn, Nat.mod_eq_of_lt hd] at this
  exact this

end Verif.Ec
