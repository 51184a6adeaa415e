import Verif.Proofs.Der
import Verif.Proofs.Text
import Verif.Spec.Asn1
/-! Reading of Model/Der.lean against the relations of Spec/Asn1.lean. -/
namespace Verif.Der
open Sha2 Spec.Sha
open Spec (Asn1.Length Asn1.Elem Asn1.IntContents Asn1.Integer Asn1.Sub Asn1.Oid)

/-! ### Elements -/

theorem beVal_head {t : Bytes} (h : t.head? ≠ some 0) (h0 : t ≠ []) : 256 ^ (t.length - 1) ≤ beVal t := by
  cases t with
  | nil => exact absurd rfl h0
  | cons x s =>
    rw [beVal, List.length_cons, Nat.add_sub_cancel]
    have : x.toNat ≠ 0 := by
      intro hx; apply h
      rw [List.head?_cons, show x = 0 from UInt8.toNat_inj.1 hx]
    have := Nat.mul_le_mul_right (256 ^ s.length) (show 1 ≤ x.toNat by omega)
    omega

theorem length_iff {n : Nat} (hn : n < 2 ^ 32) (b : Bytes) : Asn1.Length n b ↔ b = lenBytes n := by
  unfold Asn1.Length lenBytes
  by_cases h : n < 128
  · rw [if_pos h]
    constructor
    · rintro (⟨_, x, rfl, hx⟩ | ⟨h', _⟩)
      · rw [← hx, ofNat_toNat']
      · omega
    · rintro rfl
      exact Or.inl ⟨h, _, rfl, toNat_ofNat (by omega)⟩
  · rw [if_neg h]
    have hn0 : n ≠ 0 := by omega
    have h4 : Nat.log2 n / 8 < 4 := by
      have h1 := log2_ge hn0
      have : 256 ^ (Nat.log2 n / 8) < 256 ^ 4 := lt_of_le_of_lt h1 (by norm_num; omega)
      exact (Nat.pow_lt_pow_iff_right (by omega)).1 this
    constructor
    · rintro (⟨h', _⟩ | ⟨_, x, t, rfl, hx, ht, hv⟩)
      · omega
      · have t0 : t ≠ [] := by rintro rfl; simp [beVal] at hv; omega
        have h1 := beVal_head ht t0
        have h2 := beVal_lt t
        have hl : 0 < t.length := List.length_pos_of_ne_nil t0
        rw [hv] at h1 h2
        have hk : Nat.log2 n / 8 = t.length - 1 := bytes_unique h1 (by rw [Nat.sub_add_cancel hl]; exact h2)
        rw [hk, Nat.sub_add_cancel hl, ← hx, ofNat_toNat']
        congr 1
        refine beVal_inj (by rw [Verif.beBytes_length]) ?_
        rw [beBytes_val, hv, Nat.mod_eq_of_lt h2]
    · rintro rfl
      refine Or.inr ⟨by omega, _, _, rfl, ?_, ?_, ?_⟩
      · rw [Verif.beBytes_length, toNat_ofNat (by omega)]
      · intro hh
        have hv := beBytes_val (Nat.log2 n / 8 + 1) n
        rw [Nat.mod_eq_of_lt (log2_lt n)] at hv
        have hl := Verif.beBytes_length (Nat.log2 n / 8 + 1) n
        generalize beBytes (Nat.log2 n / 8 + 1) n = t at hh hv hl
        cases t with
        | nil => cases hh
        | cons x s =>
          rw [List.head?_cons, Option.some.injEq] at hh
          subst hh
          rw [beVal] at hv
          have hlt := beVal_lt s
          rw [List.length_cons] at hl
          have hge := log2_ge hn0
          rw [show s.length = Nat.log2 n / 8 by omega] at hlt
          simp at hv
          omega
      · rw [beBytes_val, Nat.mod_eq_of_lt (log2_lt n)]

theorem elem_iff {tag : UInt8} {c b : Bytes} (hc : c.length < 2 ^ 32) : Asn1.Elem tag c b ↔ b = tlv tag c := by
  unfold Asn1.Elem tlv
  constructor
  · rintro ⟨l, hl, rfl⟩; rw [(length_iff hc l).1 hl]
  · rintro rfl; exact ⟨_, (length_iff hc _).2 rfl, rfl⟩

theorem elem_length {tag : UInt8} {c b : Bytes} (h : Asn1.Elem tag c b) : c.length < b.length := by
  obtain ⟨l, _, rfl⟩ := h
  simp only [List.length_append, List.length_cons]; omega

theorem tlv_length (tag : UInt8) (c : Bytes) : c.length < (tlv tag c).length := by
  unfold tlv
  simp only [List.length_append, List.length_cons]; omega

theorem int_iff {n : Nat} {c : Bytes} : Asn1.IntContents n c ↔ c = uintBytes n := by
  rw [← decUint_iff]
  unfold Asn1.IntContents
  match c with
  | [] => simp [decUint]
  | [a] =>
    simp only [decUint]
    constructor
    · rintro ⟨hv, x, t, he, hx, _⟩
      obtain ⟨rfl, rfl⟩ := List.cons.inj he
      rw [if_pos hx, ← hv]; simp [beVal]
    · intro h
      split at h
      · next ha =>
        rw [← Option.some.inj h]
        exact ⟨by simp [beVal], a, [], rfl, ha, fun _ y hy => by cases hy⟩
      · cases h
  | a :: b :: t =>
    simp only [decUint]
    constructor
    · rintro ⟨hv, x, s, he, hx, h0⟩
      obtain ⟨rfl, rfl⟩ := List.cons.inj he
      rw [if_neg, beNat_eq, hv]
      rintro (h | ⟨h, h'⟩)
      · omega
      · have := h0 h b rfl; omega
    · intro h
      split at h
      · cases h
      · next hn =>
        rw [← Option.some.inj h, beNat_eq]
        refine ⟨rfl, a, b :: t, rfl, by omega, fun ha y hy => ?_⟩
        rw [List.head?_cons, Option.some.injEq] at hy
        subst hy
        by_contra hlt
        exact hn (Or.inr ⟨ha, by omega⟩)

theorem integer_iff {n : Nat} {b : Bytes} (hb : b.length < 2 ^ 32) :
    Asn1.Integer n b ↔ b = tlv 2 (uintBytes n) := by
  unfold Asn1.Integer
  constructor
  · rintro ⟨c, hc, he⟩
    rw [int_iff] at hc
    subst hc
    exact (elem_iff (by have := elem_length he; omega)).1 he
  · rintro rfl
    exact ⟨_, int_iff.2 rfl, (elem_iff (by have := tlv_length 2 (uintBytes n); omega)).2 rfl⟩

theorem fits_of_le {L : Lib} {c c' : Bytes} (h : Fits L c) (hl : c'.length ≤ c.length) : Fits L c' :=
  ⟨le_trans hl h.1, lt_of_le_of_lt hl h.2⟩

/-! ### Object identifiers -/

/-- The number of a group read so far. -/
def accum (a : Nat) (g : Bytes) : Nat := g.foldl (fun a x => a * 128 + x.toNat % 128) a

theorem arcs_group {hi : Bytes} (hh : ∀ x ∈ hi, 128 ≤ UInt8.toNat x) {lo : UInt8} (hl : lo.toNat < 128) (a : Nat) (mid : Bool) (r : Bytes) :
    arcs a mid (hi ++ [lo] ++ r) = (arcs 0 false r).map (accum a (hi ++ [lo]) :: ·) := by
  induction hi generalizing a mid with
  | nil =>
    rw [List.nil_append, List.singleton_append, arcs, if_pos hl]
    simp only [accum, List.foldl_cons, List.foldl_nil, Nat.mod_eq_of_lt hl]
  | cons x t ih =>
    have hx := hh x (by simp)
    have hx' := x.toNat_lt
    rw [List.cons_append, List.cons_append, arcs, if_neg (by omega), ih fun y hy => hh y (by simp [hy])]
    simp only [accum, List.foldl_cons]
    rw [show x.toNat - 128 = x.toNat % 128 by omega]

theorem arcs_take {a : Nat} {mid : Bool} {c : Bytes} {ns : List Nat} (h : arcs a mid c = some ns) (h0 : c ≠ [] ∨ mid = true) :
    ∃ hi lo r ms, c = hi ++ [lo] ++ r ∧ (∀ x ∈ hi, 128 ≤ UInt8.toNat x) ∧ lo.toNat < 128 ∧ ns = accum a (hi ++ [lo]) :: ms ∧
      arcs 0 false r = some ms := by
  induction c generalizing a mid with
  | nil =>
    rcases h0 with h0 | h0
    · exact absurd rfl h0
    · rw [arcs, h0] at h; cases h
  | cons x t ih =>
    rw [arcs] at h
    split at h
    · next hx =>
      rw [Option.map_eq_some_iff] at h
      obtain ⟨ms, hm, rfl⟩ := h
      exact ⟨[], x, t, ms, rfl, by simp, hx, by simp [accum, Nat.mod_eq_of_lt hx], hm⟩
    · next hx =>
      obtain ⟨hi, lo, r, ms, rfl, h1, h2, h3, h4⟩ := ih h (Or.inr rfl)
      refine ⟨x :: hi, lo, r, ms, rfl, ?_, h2, ?_, h4⟩
      · intro y hy
        rcases List.mem_cons.1 hy with rfl | hy
        · omega
        · exact h1 y hy
      · have hx' := x.toNat_lt
        rw [h3]
        simp only [accum, List.cons_append, List.foldl_cons]
        rw [show x.toNat - 128 = x.toNat % 128 by omega]

theorem arcs_iff {c : Bytes} {ns : List Nat} :
    arcs 0 false c = some ns ↔ ∃ gs, List.Forall₂ Asn1.Sub ns gs ∧ c = gs.flatten := by
  constructor
  · intro h
    induction hc : c.length using Nat.strong_induction_on generalizing c ns with
    | _ k ih =>
      by_cases h0 : c = []
      · subst h0
        rw [arcs] at h
        obtain rfl := Option.some.inj h
        exact ⟨[], .nil, rfl⟩
      · obtain ⟨hi, lo, r, ms, rfl, h1, h2, rfl, h4⟩ := arcs_take h (Or.inl h0)
        obtain ⟨gs, hg, rfl⟩ := ih r.length (by rw [← hc]; simp only [List.length_append, List.length_cons]; omega) h4 rfl
        exact ⟨(hi ++ [lo]) :: gs, .cons ⟨hi, lo, rfl, h1, h2, rfl⟩ hg, rfl⟩
  · rintro ⟨gs, hg, rfl⟩
    induction hg with
    | nil => rfl
    | cons hs _ ih =>
      obtain ⟨hi, lo, rfl, h1, h2, rfl⟩ := hs
      rw [List.flatten_cons, arcs_group h1 h2, ih]
      rfl

/-- Dotted form. -/
def dotted (ns : List Nat) : Str := join (c! ".") (ns.map natStr)

theorem splitOn_join {c : Char} : ∀ {ls : List Str}, ls ≠ [] → (∀ l ∈ ls, c ∉ l) → splitOn c (join [c] ls) = ls
  | [], h, _ => absurd rfl h
  | [a], _, h => splitOn_no c (h a (by simp))
  | a :: b :: t, _, h => by
    rw [join_cons _ _ (by simp), List.append_assoc, List.singleton_append, splitOn_append c _ (h a (by simp)),
      splitOn_join (by simp) fun l hl => h l (by simp only [List.mem_cons] at hl ⊢; tauto)]

theorem dotted_inj {ns ms : List Nat} (hn : ns ≠ []) (hm : ms ≠ []) (h : dotted ns = dotted ms) : ns = ms := by
  have key : ∀ ks : List Nat, ∀ l ∈ ks.map natStr, '.' ∉ l := by
    intro ks l hl hc
    obtain ⟨k, _, rfl⟩ := List.mem_map.1 hl
    have := natStr_digits k '.' hc
    exact absurd this (by decide)
  have h1 := splitOn_join (c := '.') (ls := ns.map natStr) (by simpa using hn) (key ns)
  have h2 := splitOn_join (c := '.') (ls := ms.map natStr) (by simpa using hm) (key ms)
  have h : join ['.'] (ns.map natStr) = join ['.'] (ms.map natStr) := h
  rw [h, h2] at h1
  exact (List.map_injective_iff.2 (fun a b => natStr_inj)) h1.symm

theorem oid_iff {c : Bytes} {ns : List Nat} : Asn1.Oid ns c ↔
    ∃ n t, arcs 0 false c = some (n :: t) ∧
      ns = (if n < 40 then 0 else if n < 80 then 1 else 2) :: (n - 40 * (if n < 40 then 0 else if n < 80 then 1 else 2)) :: t := by
  constructor
  · intro h
    match ns, h with
    | a :: b :: t, ⟨h1, h2, hg⟩ =>
      refine ⟨40 * a + b, t, arcs_iff.2 hg, ?_⟩
      have : (if 40 * a + b < 40 then 0 else if 40 * a + b < 80 then 1 else 2) = a := by
        split
        · omega
        · split <;> omega
      rw [this]
      congr 2; omega
  · rintro ⟨n, t, h, rfl⟩
    refine ⟨?_, ?_, ?_⟩
    · split
      · omega
      · split <;> omega
    · split
      · intro _; omega
      · split <;> intro _ <;> omega
    · obtain ⟨gs, hg, he⟩ := arcs_iff.1 h
      refine ⟨gs, ?_, he⟩
      have : 40 * (if n < 40 then 0 else if n < 80 then 1 else 2) + (n - 40 * (if n < 40 then 0 else if n < 80 then 1 else 2)) = n := by
        split
        · omega
        · split <;> omega
      rwa [this]

theorem oid_unique {c : Bytes} {ns ms : List Nat} (h : Asn1.Oid ns c) (h' : Asn1.Oid ms c) : ns = ms := by
  obtain ⟨n, t, h1, rfl⟩ := oid_iff.1 h
  obtain ⟨m, s, h2, rfl⟩ := oid_iff.1 h'
  rw [h1, Option.some.injEq, List.cons.injEq] at h2
  rw [h2.1, h2.2]

theorem oid_ne {c : Bytes} {ns : List Nat} (h : Asn1.Oid ns c) : ns ≠ [] := by
  rintro rfl; exact h

theorem oidText_iff {L : Lib} {c : Bytes} {s : Str} : oidText L c = some s ↔ L.oidOk c = true ∧ ∃ ns, Asn1.Oid ns c ∧ s = dotted ns := by
  unfold oidText
  by_cases ho : L.oidOk c = true
  · rw [if_pos ho]
    constructor
    · intro h
      refine ⟨ho, ?_⟩
      split at h
      · next n t hn =>
        exact ⟨_, oid_iff.2 ⟨n, t, hn, rfl⟩, (Option.some.inj h).symm⟩
      · cases h
    · rintro ⟨_, ns, h, rfl⟩
      obtain ⟨n, t, h1, rfl⟩ := oid_iff.1 h
      rw [h1]
      rfl
  · rw [if_neg ho]
    constructor
    · intro h; cases h
    · rintro ⟨h, _⟩; exact absurd h ho

/-- The text of an identifier is a given one exactly if the identifier is. -/
theorem oidText_eq {L : Lib} {c : Bytes} {ns : List Nat} (hn : ns ≠ []) : oidText L c = some (dotted ns) ↔ L.oidOk c = true ∧ Asn1.Oid ns c := by
  rw [oidText_iff]
  constructor
  · rintro ⟨h, ms, hm, he⟩
    rw [dotted_inj hn (oid_ne hm) he]
    exact ⟨h, hm⟩
  · rintro ⟨h, hm⟩; exact ⟨h, ns, hm, rfl⟩

end Verif.Der
