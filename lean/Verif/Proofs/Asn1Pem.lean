import Verif.Proofs.Asn1Keys
import Verif.Proofs.Base64
/-! PEM texts of Model/Der.lean against Spec/Asn1.lean. -/
namespace Verif.Der
open Sha2
open Spec (Asn1.Lines Asn1.Pem)

variable {L : Lib}

theorem join_inter (c : Char) : ∀ ls : List Str, join [c] ls = List.intercalate [c] ls
  | [] => rfl
  | [a] => by simp [join, List.intercalate]
  | a :: b :: t => by
    rw [join, join_inter c (b :: t)]
    simp [List.intercalate, List.intersperse]

theorem join_splitOn (c : Char) (s : Str) : join [c] (splitOn c s) = s := by
  induction s with
  | nil => rfl
  | cons x t ih =>
    rw [splitOn]
    cases hs : splitOn c t with
    | nil => exact absurd hs (splitOn_ne_nil c t)
    | cons a r =>
      rw [hs] at ih
      split
      · next hx =>
        subst hx
        simp only [join, List.nil_append]
        rw [ih]; rfl
      · cases r with
        | nil => simp only [join] at ih ⊢; rw [ih]
        | cons b r => simp only [join, List.cons_append] at ih ⊢; rw [ih]

theorem splitOn_not_mem (c : Char) (s : Str) : ∀ l ∈ splitOn c s, c ∉ l := by
  induction s with
  | nil => intro l hl; simp [splitOn] at hl; subst hl; simp
  | cons x t ih =>
    intro l hl
    rw [splitOn] at hl
    cases hs : splitOn c t with
    | nil => exact absurd hs (splitOn_ne_nil c t)
    | cons a r =>
      rw [hs] at hl ih
      split at hl
      · rcases List.mem_cons.1 hl with rfl | h
        · simp
        · exact ih l h
      · next hx =>
        rcases List.mem_cons.1 hl with rfl | h
        · intro hm
          rcases List.mem_cons.1 hm with h | h
          · exact hx h.symm
          · exact ih a (by simp) h
        · exact ih l (by simp [h])

theorem chomp_iff {r l : Str} : (r = l ++ ['\r'] ∨ (r = l ∧ l.getLast? ≠ some '\r')) ↔ l = chomp r := by
  unfold chomp
  constructor
  · rintro (rfl | ⟨rfl, h⟩)
    · simp
    · rw [if_neg h]
  · intro h
    split at h
    · next hr =>
      left
      obtain ⟨ys, hy⟩ := List.getLast?_eq_some_iff.1 hr
      rw [h, hy]; simp
    · next hr => right; exact ⟨h.symm, by rw [h]; exact hr⟩

theorem lines_iff {s : Str} {ls : List Str} : Asn1.Lines s ls ↔ ls = (splitOn '\n' s).map chomp := by
  unfold Asn1.Lines
  constructor
  · rintro ⟨raw, h0, rfl, hn, hf⟩
    rw [← join_inter, splitOn_join h0 hn]
    induction hf with
    | nil => rfl
    | cons h _ ih =>
      rename_i a b l1 l2 hh
      rw [List.map_cons, ← chomp_iff.1 h]
      cases l1 with
      | nil => cases hh; rfl
      | cons y ys => rw [ih (by simp) (fun l hl => hn l (by simp [hl]))]
  · rintro rfl
    refine ⟨splitOn '\n' s, splitOn_ne_nil _ _, by rw [← join_inter, join_splitOn], splitOn_not_mem _ _, ?_⟩
    generalize splitOn '\n' s = raw
    induction raw with
    | nil => exact .nil
    | cons r t ih => exact .cons (chomp_iff.2 rfl) ih

theorem boundary_iff {kind l label : Str} : boundary kind l = some label ↔ l = c! "-----" ++ kind ++ [' '] ++ label ++ c! "-----" := by
  unfold boundary
  simp only
  generalize c! "-----" ++ kind ++ [' '] = a
  have h5 : (c! "-----").length = 5 := rfl
  constructor
  · intro h
    split at h
    · next hc =>
      obtain ⟨h1, h2, h3⟩ := hc
      obtain rfl := Option.some.inj h
      have e1 : l = a ++ l.drop a.length := by
        conv_lhs => rw [← List.take_append_drop a.length l, h2]
      have e2 : l.drop a.length = (l.drop a.length).take (l.length - a.length - 5) ++ c! "-----" := by
        conv_lhs => rw [← List.take_append_drop (l.length - a.length - 5) (l.drop a.length)]
        rw [List.drop_drop, show a.length + (l.length - a.length - 5) = l.length - 5 by omega, h3]
      rw [List.append_assoc, ← e2, ← e1]
    · cases h
  · rintro rfl
    rw [if_pos]
    · congr 1
      rw [List.append_assoc, List.drop_left]
      have : (a ++ (label ++ c! "-----")).length - a.length - 5 = label.length := by
        simp only [List.length_append, h5]; omega
      rw [this, List.take_left]
    · refine ⟨by simp only [List.length_append, h5]; omega, by rw [List.append_assoc, List.take_left], ?_⟩
      have : (a ++ label ++ c! "-----").length - 5 = (a ++ label).length := by simp only [List.length_append, h5]; omega
      rw [this, List.drop_left]

theorem body_iff {label : Str} : ∀ {t ls : List Str}, body label t = some ls ↔
    (∀ l ∈ ls, boundary (c! "END") l ≠ some label) ∧ ∃ z e, boundary (c! "END") z = some label ∧ (e = [] ∨ e = [[]]) ∧ t = ls ++ z :: e
  | [], ls => by
    rw [body]
    constructor
    · intro h; cases h
    · rintro ⟨_, z, e, _, _, h⟩; simp at h
  | l :: t, ls => by
    rw [body]
    constructor
    · intro h
      split at h
      · next hb =>
        split at h
        · next ht => obtain rfl := Option.some.inj h; exact ⟨by simp, l, t, hb, ht, rfl⟩
        · cases h
      · next hb =>
        rw [Option.map_eq_some_iff] at h
        obtain ⟨ls', h1, rfl⟩ := h
        obtain ⟨h2, z, e, hz, he, rfl⟩ := body_iff.1 h1
        refine ⟨fun x hx => ?_, z, e, hz, he, rfl⟩
        rcases List.mem_cons.1 hx with rfl | hx
        · exact hb
        · exact h2 x hx
    · rintro ⟨h1, z, e, hz, he, ht⟩
      cases ls with
      | nil =>
        obtain ⟨rfl, rfl⟩ := List.cons.inj ht
        rw [if_pos hz, if_pos he]
      | cons a r =>
        obtain ⟨rfl, rfl⟩ := List.cons.inj ht
        have hb : body label (r ++ z :: e) = some r := body_iff.2 ⟨fun x hx => h1 x (List.mem_cons_of_mem _ hx), z, e, hz, he, rfl⟩
        rw [if_neg (h1 l (by simp))]
        exact congrArg (Option.map (l :: ·)) hb

theorem encChar_ne_dash (n : Nat) : '-' ≠ Base64.encChar n := by
  by_cases h : n < 64
  · revert n; decide
  · unfold Base64.encChar
    rw [if_neg (by omega), if_neg (by omega), if_neg (by omega), if_neg (by omega)]
    decide

theorem encode_no_dash : ∀ b : Bytes, '-' ∉ Base64.encode b
  | [] => by simp [Base64.encode]
  | [a] => by simp [Base64.encode, encChar_ne_dash]
  | [a, b] => by simp [Base64.encode, encChar_ne_dash]
  | a :: b :: c :: t => by simp [Base64.encode, encChar_ne_dash, encode_no_dash t]

/-- The text of a key, exactly. -/
theorem pem_iff {s label : Str} {der : Bytes} : pem L s = some (label, der) ↔ ∃ ls c, Asn1.Pem label ls (L.preamble s) ∧
    L.widths (ls.map List.length) = true ∧ ls.flatten = Base64.encode der ∧ Doc L der c := by
  have key : pem L s = some (label, der) ↔ ∃ l t, (splitOn '\n' (L.preamble s)).map chomp = l :: t ∧ boundary (c! "BEGIN") l = some label ∧
      ∃ ls, body label t = some ls ∧ L.widths (ls.map List.length) = true ∧ Base64.decode true ls.flatten = some der ∧
        ∃ c, readAll L 0x30 der = some c := by
    unfold pem
    split
    · next h => rw [h]; simp
    · next l t h =>
      rw [h]
      simp only [Option.bind_eq_bind, Option.bind_eq_some_iff]
      constructor
      · rintro ⟨lb, h1, ls, h2, h3⟩
        split at h3
        · cases h3
        · next hw =>
          rw [Option.bind_eq_some_iff] at h3
          obtain ⟨d, h4, h5⟩ := h3
          rw [Option.bind_eq_some_iff] at h5
          obtain ⟨c, h6, h7⟩ := h5
          simp only [Option.some.injEq, Prod.mk.injEq] at h7
          obtain ⟨rfl, rfl⟩ := h7
          exact ⟨l, t, rfl, h1, ls, h2, by simpa using hw, h4, c, h6⟩
      · rintro ⟨l', t', he, h1, ls, h2, hw, h4, c, h6⟩
        obtain ⟨rfl, rfl⟩ := List.cons.inj he
        refine ⟨label, h1, ls, h2, ?_⟩
        rw [if_neg (by simp [hw]), Option.bind_eq_some_iff]
        exact ⟨der, h4, by rw [Option.bind_eq_some_iff]; exact ⟨c, h6, rfl⟩⟩
  rw [key]
  constructor
  · rintro ⟨l, t, h1, h2, ls, h3, h4, h5, c, h6⟩
    obtain ⟨_, z, e, hz, he, rfl⟩ := body_iff.1 h3
    refine ⟨ls, c, ⟨e, he, lines_iff.2 ?_⟩, h4, (Base64.encode_of_decode_strict _ _ h5).symm, doc_iff.1 h6⟩
    rw [h1, boundary_iff.1 h2, boundary_iff.1 hz]
    simp
  · rintro ⟨ls, c, ⟨e, he, hl⟩, h4, h5, h6⟩
    refine ⟨_, _, (lines_iff.1 hl).symm, boundary_iff.2 (by simp), ls, body_iff.2 ⟨?_, _, e, boundary_iff.2 (by simp), he, rfl⟩, h4, ?_, c, doc_iff.2 h6⟩
    · intro l hl' hb
      have hm : '-' ∈ l := by rw [boundary_iff.1 hb]; simp
      exact encode_no_dash der (by rw [← h5]; exact List.mem_flatten.2 ⟨l, hl', hm⟩)
    · rw [h5, Base64.decode_encode]

end Verif.Der
