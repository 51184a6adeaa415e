import Verif.Proofs.Asn1
import Verif.Proofs.Rsa
/-! The key structures of Model/Der.lean and Model/Rsa.lean against Spec/Asn1.lean. -/
namespace Verif.Der
open Sha2 Spec.Sha
open Spec (Asn1.Elem Asn1.Integer Asn1.AlgorithmIdentifier Asn1.PrivateKeyInfo Asn1.SubjectPublicKeyInfo Asn1.EcPrivateKey)

variable {L : Lib}

/-- What is made of the parameters of an algorithm. -/
def paramOid (L : Lib) : Option (UInt8 × Bytes) → Option Str
  | none => none
  | some (t, p) => if t = 6 then oidText L p else none

/-- The tag of parameters is one that is read. -/
def TagOk (L : Lib) (params : Option (UInt8 × Bytes)) : Prop := ∀ t p, params = some (t, p) → L.anyTag t = true

theorem algId_iff {a : Bytes} (ha : Fits L a) {s : Str} {p : Option Str} :
    algId L a = some (s, p) ↔ ∃ o params, Asn1.AlgorithmIdentifier o params a ∧ oidText L o = some s ∧ TagOk L params ∧ p = paramOid L params := by
  have hlen : ∀ {t : UInt8} {c x r : Bytes}, a = x ++ r → Asn1.Elem t c x → Fits L c := by
    rintro t c x r rfl h
    have := elem_length h
    exact fits_of_le ha (by rw [List.length_append]; omega)
  unfold algId Asn1.AlgorithmIdentifier
  simp only [Option.bind_eq_bind, Option.bind_eq_some_iff]
  constructor
  · rintro ⟨⟨o, r⟩, h1, s', h2, h3⟩
    obtain ⟨rfl, hf⟩ := read_iff.1 h1
    simp only at h3
    split at h3
    · next hr =>
      simp only [Option.some.injEq, Prod.mk.injEq] at h3
      obtain ⟨rfl, rfl⟩ := h3
      rw [hr, List.append_nil]
      exact ⟨o, none, ⟨_, (elem_iff hf.2).2 rfl, rfl⟩, h2, (fun _ _ h => by cases h), rfl⟩
    · rw [Option.bind_eq_some_iff] at h3
      obtain ⟨⟨t, c, r'⟩, h4, h5⟩ := h3
      obtain ⟨rfl, hf'⟩ := readAny_iff.1 h4
      simp only at h5
      split at h5
      · cases h5
      · next hc =>
        simp only [Option.some.injEq, Prod.mk.injEq] at h5
        obtain ⟨rfl, rfl⟩ := h5
        have hr' : r' = [] := by by_contra hh; exact hc (Or.inl hh)
        have ht : L.anyTag t = true := by
          cases htt : L.anyTag t
          · exact absurd (Or.inr htt) hc
          · rfl
        subst hr'
        rw [List.append_nil]
        refine ⟨o, some (t, c), ⟨_, (elem_iff hf.2).2 rfl, _, (elem_iff hf'.2).2 rfl, rfl⟩, h2, ?_, rfl⟩
        rintro t' p' h
        simp only [Option.some.injEq, Prod.mk.injEq] at h
        rw [← h.1]; exact ht
  · rintro ⟨o, params, ⟨x, hx, hp⟩, h2, ht, rfl⟩
    match params, hp with
    | none, hp =>
      have hf := hlen (r := []) (by rw [List.append_nil]; exact hp) hx
      rw [elem_iff hf.2] at hx
      refine ⟨(o, []), read_iff.2 ⟨by rw [List.append_nil, hp, hx], hf⟩, s, h2, ?_⟩
      simp [paramOid]
    | some (t, p), ⟨y, hy, hp⟩ =>
      have hf := hlen hp hx
      have hf' : Fits L p := by
        have := elem_length hy
        exact fits_of_le ha (by rw [hp, List.length_append]; omega)
      rw [elem_iff hf.2] at hx
      rw [elem_iff hf'.2] at hy
      refine ⟨(o, y), read_iff.2 ⟨by rw [hp, hx], hf⟩, s, h2, ?_⟩
      have hy0 : y ≠ [] := by rw [hy]; unfold tlv; simp
      simp only
      rw [if_neg hy0, Option.bind_eq_some_iff]
      refine ⟨(t, p, []), readAny_iff.2 ⟨by rw [List.append_nil, hy], hf'⟩, ?_⟩
      simp only
      rw [if_neg (by simp [ht t p rfl])]
      rfl

/-- A document whose outer SEQUENCE has the contents `c`. -/
def Doc (L : Lib) (b c : Bytes) : Prop := Asn1.Elem 0x30 c b ∧ Fits L c

theorem doc_iff {b c : Bytes} : readAll L 0x30 b = some c ↔ Doc L b c := by
  rw [readAll_iff]
  constructor
  · rintro ⟨h, hf⟩; exact ⟨(elem_iff hf.2).2 h, hf⟩
  · rintro ⟨h, hf⟩; exact ⟨(elem_iff hf.2).1 h, hf⟩

theorem read_spec {t : UInt8} {b c r : Bytes} (hb : Fits L b) : read L t b = some (c, r) ↔ ∃ x, Asn1.Elem t c x ∧ b = x ++ r := by
  rw [read_iff]
  constructor
  · rintro ⟨h, hf⟩; exact ⟨_, (elem_iff hf.2).2 rfl, h⟩
  · rintro ⟨x, hx, rfl⟩
    have := elem_length hx
    have hf : Fits L c := fits_of_le hb (by rw [List.length_append]; omega)
    exact ⟨by rw [(elem_iff hf.2).1 hx], hf⟩

theorem readUint_spec {b r : Bytes} {n : Nat} (hb : Fits L b) : readUint L b = some (n, r) ↔ ∃ x, Asn1.Integer n x ∧ b = x ++ r := by
  rw [readUint_iff]
  constructor
  · rintro ⟨rfl, _⟩
    have h2 := hb.2
    rw [List.length_append] at h2
    exact ⟨_, (integer_iff (by omega)).2 rfl, rfl⟩
  · rintro ⟨x, hx, rfl⟩
    have h2 := hb.2
    rw [List.length_append] at h2
    rw [integer_iff (by omega)] at hx
    subst hx
    refine ⟨rfl, fits_of_le hb ?_⟩
    have := tlv_length 2 (uintBytes n)
    rw [List.length_append]; omega

theorem fits_right {x r : Bytes} (h : Fits L (x ++ r)) : Fits L r := fits_of_le h (by simp)
theorem fits_left {x r : Bytes} (h : Fits L (x ++ r)) : Fits L x := fits_of_le h (by simp)
theorem fits_elem {t : UInt8} {c x : Bytes} (h : Fits L x) (he : Asn1.Elem t c x) : Fits L c := fits_of_le h (elem_length he).le

theorem pki_iff {b : Bytes} {k : Pki} : pkiOfDer L b = some k ↔ ∃ c v o params rest, Doc L b c ∧
    Asn1.PrivateKeyInfo v o params k.privateKey rest c ∧ v ≤ 1 ∧ L.pkiRest v rest = true ∧ TagOk L params ∧
    oidText L o = some k.oid ∧ k.paramsOid = paramOid L params := by
  unfold pkiOfDer Asn1.PrivateKeyInfo
  simp only [Option.bind_eq_bind, Option.bind_eq_some_iff]
  constructor
  · rintro ⟨c, h1, ⟨v, r⟩, h2, ⟨a, r2⟩, h3, ⟨s, p⟩, h4, ⟨key, r3⟩, h5, h6⟩
    simp only at h2 h3 h4 h5 h6
    have hd := doc_iff.1 h1
    have hf := hd.2
    obtain ⟨x, hx, rfl⟩ := (readUint_spec hf).1 h2
    obtain ⟨y, hy, rfl⟩ := (read_spec (fits_right hf)).1 h3
    obtain ⟨z, hz, rfl⟩ := (read_spec (fits_right (fits_right hf))).1 h5
    obtain ⟨o, params, ha, ho, ht, rfl⟩ := (algId_iff (fits_elem (fits_left (fits_right hf)) hy)).1 h4
    split at h6
    · cases h6
    · next hc =>
      obtain rfl := Option.some.inj h6
      refine ⟨_, v, o, params, r3, hd, ⟨x, a, y, z, hx, ha, hy, hz, by simp only [List.append_assoc]⟩, ?_, ?_, ht, ho, rfl⟩
      · by_contra hh; exact hc (Or.inl (by omega))
      · cases hr : L.pkiRest v r3
        · exact absurd (Or.inr hr) hc
        · rfl
  · rintro ⟨c, v, o, params, rest, hd, ⟨x, a, y, z, hx, ha, hy, hz, rfl⟩, hv, hr, ht, ho, hp⟩
    simp only [List.append_assoc] at hd
    have hf := hd.2
    refine ⟨_, doc_iff.2 hd, (v, _), (readUint_spec hf).2 ⟨x, hx, rfl⟩, (a, _), (read_spec (fits_right hf)).2 ⟨y, hy, rfl⟩, (k.oid, k.paramsOid),
      (algId_iff (fits_elem (fits_left (fits_right hf)) hy)).2 ⟨o, params, ha, ho, ht, hp⟩, (k.privateKey, rest),
      (read_spec (fits_right (fits_right hf))).2 ⟨z, hz, rfl⟩, ?_⟩
    simp only
    rw [if_neg (by rw [hr]; simp; omega)]

theorem bitString_whole {s k : Bytes} : bitString s = some (some k) ↔ s = 0 :: k := by
  cases s with
  | nil => simp [bitString]
  | cons u t =>
    rw [bitString]
    constructor
    · intro h
      split at h
      · cases h
      · split at h
        · next h0 => rw [h0]; simp only [Option.some.injEq] at h; rw [h]
        · cases h
    · intro h
      obtain ⟨rfl, rfl⟩ := List.cons.inj h
      simp

theorem spki_iff {b : Bytes} {k : Spki} {key : Bytes} (hk : k.publicKey = some key) : spkiOfDer L b = some k ↔ ∃ c o params, Doc L b c ∧
    Asn1.SubjectPublicKeyInfo o params key c ∧ TagOk L params ∧ oidText L o = some k.oid ∧ k.paramsOid = paramOid L params := by
  unfold spkiOfDer Asn1.SubjectPublicKeyInfo
  simp only [Option.bind_eq_bind, Option.bind_eq_some_iff]
  constructor
  · rintro ⟨c, h1, ⟨a, r⟩, h2, ⟨s, p⟩, h3, w, h4, kk, h5, h6⟩
    simp only at h2 h3 h4 h5 h6
    obtain rfl := Option.some.inj h6
    simp only at hk
    subst hk
    have hd := doc_iff.1 h1
    have hf := hd.2
    obtain ⟨y, hy, rfl⟩ := (read_spec hf).1 h2
    obtain ⟨o, params, ha, ho, ht, rfl⟩ := (algId_iff (fits_elem (fits_left hf) hy)).1 h3
    obtain ⟨rfl, hfw⟩ := readAll_iff.1 h4
    rw [bitString_whole] at h5
    subst h5
    exact ⟨_, o, params, hd, ⟨a, y, _, ha, hy, (elem_iff hfw.2).2 rfl, rfl⟩, ht, ho, rfl⟩
  · rintro ⟨c, o, params, hd, ⟨a, y, z, ha, hy, hz, rfl⟩, ht, ho, hp⟩
    have hf := hd.2
    have hfw := fits_elem (fits_right hf) hz
    refine ⟨_, doc_iff.2 hd, (a, _), (read_spec hf).2 ⟨y, hy, rfl⟩, (k.oid, k.paramsOid),
      (algId_iff (fits_elem (fits_left hf) hy)).2 ⟨o, params, ha, ho, ht, hp⟩, 0 :: key, readAll_iff.2 ⟨(elem_iff hfw.2).1 hz, hfw⟩, some key,
      bitString_whole.2 rfl, ?_⟩
    rw [← hk]

theorem sec1_iff {b key : Bytes} (hb : Fits L b) : sec1 L b = some key ↔ ∃ rest, Asn1.EcPrivateKey key rest b ∧ L.sec1Rest rest = true := by
  unfold sec1 Asn1.EcPrivateKey
  simp only [Option.bind_eq_bind, Option.bind_eq_some_iff]
  constructor
  · rintro ⟨c, h1, ⟨v, r⟩, h2, ⟨k, r2⟩, h3, h4⟩
    simp only at h2 h3 h4
    have hd := doc_iff.1 h1
    have hf := hd.2
    obtain ⟨x, hx, rfl⟩ := (readUint_spec hf).1 h2
    obtain ⟨y, hy, rfl⟩ := (read_spec (fits_right hf)).1 h3
    split at h4
    · cases h4
    · next hc =>
      obtain rfl := Option.some.inj h4
      have hv : v = 1 := by by_contra hh; exact hc (Or.inl hh)
      subst hv
      refine ⟨r2, ⟨x, y, hx, hy, by rw [List.append_assoc]; exact hd.1⟩, ?_⟩
      cases hr : L.sec1Rest r2
      · exact absurd (Or.inr hr) hc
      · rfl
  · rintro ⟨rest, ⟨x, y, hx, hy, he⟩, hr⟩
    rw [List.append_assoc] at he
    have hf := fits_elem hb he
    refine ⟨_, doc_iff.2 ⟨he, hf⟩, (1, _), (readUint_spec hf).2 ⟨x, hx, rfl⟩, (key, rest), (read_spec (fits_right hf)).2 ⟨y, hy, rfl⟩, ?_⟩
    simp [hr]

end Verif.Der

namespace Verif.Rsa
open Sha2 Der
open Spec (Asn1.Integer Asn1.RsaPublicKey Asn1.RsaPrivateKey)

theorem pubOfDer_iff {L : Der.Lib} {b : Bytes} {k : Pub} : pubOfDer L b = some k ↔ ∃ c, Doc L b c ∧ Asn1.RsaPublicKey k.n k.e c := by
  unfold pubOfDer Asn1.RsaPublicKey
  simp only [Option.bind_eq_bind, Option.bind_eq_some_iff]
  constructor
  · rintro ⟨c, h1, ⟨n, r⟩, h2, ⟨e, r2⟩, h3, h4⟩
    simp only at h2 h3 h4
    have hd := doc_iff.1 h1
    have hf := hd.2
    obtain ⟨x, hx, rfl⟩ := (readUint_spec hf).1 h2
    obtain ⟨y, hy, rfl⟩ := (readUint_spec (fits_right hf)).1 h3
    split at h4
    · next hr =>
      subst hr
      obtain rfl := Option.some.inj h4
      rw [List.append_nil] at hd
      exact ⟨_, hd, x, y, hx, hy, rfl⟩
    · cases h4
  · rintro ⟨c, hd, x, y, hx, hy, rfl⟩
    have hf := hd.2
    refine ⟨_, doc_iff.2 hd, (k.n, y), (readUint_spec hf).2 ⟨x, hx, rfl⟩, (k.e, []),
      (readUint_spec (fits_right hf)).2 ⟨y, hy, by rw [List.append_nil]⟩, ?_⟩
    simp

theorem privOfDer_iff {L : Der.Lib} {b : Bytes} {k : Priv} : privOfDer L b = some k ↔
    ∃ c dp dq qi, Doc L b c ∧ Asn1.RsaPrivateKey k.n k.e k.d k.p k.q dp dq qi c := by
  unfold privOfDer Asn1.RsaPrivateKey
  simp only [Option.bind_eq_bind, Option.bind_eq_some_iff]
  constructor
  · rintro ⟨c, h1, ⟨v, r1⟩, h2, ⟨n, r2⟩, h3, ⟨e, r3⟩, h4, ⟨d, r4⟩, h5, ⟨p, r5⟩, h6, ⟨q, r6⟩, h7, ⟨dp, r7⟩, h8, ⟨dq, r8⟩, h9, ⟨qi, r9⟩, h10, h11⟩
    simp only at h2 h3 h4 h5 h6 h7 h8 h9 h10 h11
    have hd := doc_iff.1 h1
    have f1 := hd.2
    obtain ⟨x1, i1, rfl⟩ := (readUint_spec f1).1 h2
    have f2 := fits_right f1
    obtain ⟨x2, i2, rfl⟩ := (readUint_spec f2).1 h3
    have f3 := fits_right f2
    obtain ⟨x3, i3, rfl⟩ := (readUint_spec f3).1 h4
    have f4 := fits_right f3
    obtain ⟨x4, i4, rfl⟩ := (readUint_spec f4).1 h5
    have f5 := fits_right f4
    obtain ⟨x5, i5, rfl⟩ := (readUint_spec f5).1 h6
    have f6 := fits_right f5
    obtain ⟨x6, i6, rfl⟩ := (readUint_spec f6).1 h7
    have f7 := fits_right f6
    obtain ⟨x7, i7, rfl⟩ := (readUint_spec f7).1 h8
    have f8 := fits_right f7
    obtain ⟨x8, i8, rfl⟩ := (readUint_spec f8).1 h9
    have f9 := fits_right f8
    obtain ⟨x9, i9, rfl⟩ := (readUint_spec f9).1 h10
    split at h11
    · next hr =>
      obtain ⟨rfl, rfl⟩ := hr
      obtain rfl := Option.some.inj h11
      refine ⟨_, dp, dq, qi, hd, [x1, x2, x3, x4, x5, x6, x7, x8, x9], ?_, ?_⟩
      · exact .cons i1 (.cons i2 (.cons i3 (.cons i4 (.cons i5 (.cons i6 (.cons i7 (.cons i8 (.cons i9 .nil))))))))
      · simp
    · cases h11
  · rintro ⟨c, dp, dq, qi, hd, bs, hb, rfl⟩
    cases hb with
    | cons i1 hb => cases hb with
    | cons i2 hb => cases hb with
    | cons i3 hb => cases hb with
    | cons i4 hb => cases hb with
    | cons i5 hb => cases hb with
    | cons i6 hb => cases hb with
    | cons i7 hb => cases hb with
    | cons i8 hb => cases hb with
    | cons i9 hb =>
      cases hb
      simp only [List.flatten_cons, List.flatten_nil] at hd
      have f1 := hd.2
      have f2 := fits_right f1
      have f3 := fits_right f2
      have f4 := fits_right f3
      have f5 := fits_right f4
      have f6 := fits_right f5
      have f7 := fits_right f6
      have f8 := fits_right f7
      have f9 := fits_right f8
      refine ⟨_, doc_iff.2 hd, (0, _), (readUint_spec f1).2 ⟨_, i1, rfl⟩, (_, _), (readUint_spec f2).2 ⟨_, i2, rfl⟩,
        (_, _), (readUint_spec f3).2 ⟨_, i3, rfl⟩, (_, _), (readUint_spec f4).2 ⟨_, i4, rfl⟩, (_, _), (readUint_spec f5).2 ⟨_, i5, rfl⟩,
        (_, _), (readUint_spec f6).2 ⟨_, i6, rfl⟩, (_, _), (readUint_spec f7).2 ⟨_, i7, rfl⟩, (_, _), (readUint_spec f8).2 ⟨_, i8, rfl⟩,
        (_, _), (readUint_spec f9).2 ⟨_, i9, rfl⟩, ?_⟩
      simp

end Verif.Rsa
