import Verif.Spec.Agree
import Verif.Proofs.ParamsText
import Verif.Props.C05
/-!
C13 Label agreement, C51 names are keys, C53 decoded bytes only.
-/
namespace Verif
open Sfv Spec

theorem entryBytes_iff {e : Entry} {x : Bytes} : entryBytes e = some x ↔ ∃ ps, e = .item ⟨.bytes x, ps⟩ := by
  unfold entryBytes
  split
  · rename_i y ps; simp
  · rename_i h
    simp only [reduceCtorEq, false_iff, not_exists]
    intro ps he; exact h x ps he

theorem entryIsInner_iff {e : Entry} : entryIsInner e = true ↔ ∃ il, e = .inner il := by
  cases e <;> simp [entryIsInner]

theorem parseOne_ok {a : Dict} {kv : Str × Entry} {r : Str × SigHeaders} (h : parseOne a kv = .ok r) :
    r.1 = kv.1 ∧ r.2.name = kv.1 ∧ (∃ ps, (kv.1, .item ⟨.bytes r.2.signature, ps⟩) ∈ a) ∧ SigParams.ofEntry kv.2 = .ok r.2.params := by
  obtain ⟨p, hp, h⟩ := Res.bind_eq_ok.1 h
  split at h
  · rename_i b hb
    injection h with h; subst h
    refine ⟨rfl, rfl, ?_, hp⟩
    rw [Option.bind_eq_some_iff] at hb
    obtain ⟨e, he, hb⟩ := hb
    obtain ⟨ps, rfl⟩ := entryBytes_iff.1 hb
    exact ⟨ps, imGet_mem he⟩
  · cases h

/-- C13: `try_parse` succeeds with `l` exactly when both texts are dictionaries that agree in the sense above. -/
theorem C13_labels_agree (s t : Str) (l : List (Str × SigHeaders)) :
    SigHeaders.tryParse s t = .ok l ↔ ∃ a b, parseDict s = some a ∧ parseDict t = some b ∧ Agree a b l := by
  constructor
  · intro h
    rw [tryParse_eq] at h
    obtain ⟨b, hb, h⟩ := Res.bind_eq_ok.1 h
    obtain ⟨a, ha, h⟩ := Res.bind_eq_ok.1 h
    have hb := Res.ofOption_eq_ok.1 hb
    have ha := Res.ofOption_eq_ok.1 ha
    have nb := (parseDict_legal hb).1
    have na := (parseDict_legal ha).1
    obtain ⟨h1, h2, h3, h4, h5⟩ := pairParse_ok nb h
    refine ⟨a, b, ha, hb, ?_, ?_, ?_, ?_, ?_⟩
    · have hp : (a.map Prod.fst).Perm (b.map Prod.fst) :=
        (List.subperm_of_subset na h2).perm_of_length_le (by simp [h1])
      exact fun k => hp.mem_iff
    · intro kv hkv
      obtain ⟨x, hx⟩ := Option.isSome_iff_exists.1 (h3 kv hkv)
      exact ⟨x, entryBytes_iff.1 hx⟩
    · intro kv hkv; exact entryIsInner_iff.1 (h4 kv hkv)
    · exact (forall₂_map_eq h5 (fun kv r hx => (parseOne_ok hx).1.symm)).symm
    · intro kh hkh
      obtain ⟨kv, hkv, hx⟩ := forall₂_mem_right h5 kh hkh
      obtain ⟨e1, e2, e3, e4⟩ := parseOne_ok hx
      rw [e1]
      exact ⟨e2, e3, kv.2, hkv, e4⟩
  · rintro ⟨a, b, ha, hb, hA⟩
    have nb := (parseDict_legal hb).1
    have na := (parseDict_legal ha).1
    rw [tryParse_of ha hb]
    have hperm : (a.map Prod.fst).Perm (b.map Prod.fst) := (List.perm_ext_iff_of_nodup na nb).2 hA.labels
    have hlen : a.length = b.length := by simpa using hperm.length_eq
    have hcol : Res.collect (parseOne a) b = .ok l := by
      rw [Res.collect_ok_iff]
      have key : ∀ (b' : Dict) (l' : List (Str × SigHeaders)), (∀ x ∈ b', x ∈ b) → (∀ x ∈ l', x ∈ l) →
          l'.map Prod.fst = b'.map Prod.fst → List.Forall₂ (fun kv r => parseOne a kv = .ok r) b' l' := by
        intro b'
        induction b' with
        | nil => intro l' _ _ h; simp at h; subst h; exact .nil
        | cons kv b' ih =>
          intro l' h1 h2 h
          cases l' with
          | nil => simp at h
          | cons r l' =>
            simp only [List.map_cons, List.cons.injEq] at h
            refine .cons ?_ (ih l' (fun x hx => h1 x (by simp [hx])) (fun x hx => h2 x (by simp [hx])) h.2)
            obtain ⟨p1, ⟨ps, p2⟩, e, p3, p4⟩ := hA.pairing r (h2 r (by simp))
            obtain ⟨k, e'⟩ := kv
            obtain ⟨k2, ⟨n, sg, pr⟩⟩ := r
            simp only at h p1 p2 p3 p4
            obtain ⟨hk, _⟩ := h
            subst hk p1
            have he : e' = e := by
              have g1 := imGet_of_mem nb (h1 _ (List.mem_cons_self ..))
              have g2 := imGet_of_mem nb p3
              rw [g1] at g2; injection g2
            subst he
            unfold parseOne
            rw [p4, imGet_of_mem na p2]
            rfl
      exact key b l (fun _ h => h) (fun _ h => h) hA.order
    unfold pairParse
    rw [if_neg (by simpa using hlen), if_neg, if_neg, if_neg, hcol]
    · simp only [Res.bind_ok]
      rw [imOfList_of_nodup (by rw [hA.order]; exact nb)]
    · simp only [not_not, List.all_eq_true]
      intro kv hkv; exact entryIsInner_iff.2 (hA.inner kv hkv)
    · simp only [not_not, List.all_eq_true]
      intro kv hkv
      obtain ⟨x, hx⟩ := hA.bytes kv hkv
      rw [entryBytes_iff.2 hx]; rfl
    · simp only [not_not, List.all_eq_true]
      intro kv hkv
      exact imGet_isSome.2 ((hA.labels _).1 (List.mem_map_of_mem hkv))

/-- C13: every label of the result occurs once. -/
theorem C13_labels_distinct (s t : Str) (l : List (Str × SigHeaders)) (h : SigHeaders.tryParse s t = .ok l) :
    (l.map Prod.fst).Nodup := by
  obtain ⟨a, b, _, hb, hA⟩ := (C13_labels_agree s t l).1 h
  rw [hA.order]; exact (parseDict_legal hb).1

/-- C13: a label that is only in one of the two headers makes the parse fail with the error for a bad pair of headers; it does not
panic. -/
theorem C13_missing_label (s t : Str) (a b : Dict) (ha : parseDict s = some a) (hb : parseDict t = some b) (k : Str)
    (h : (k ∈ a.map Prod.fst ∧ k ∉ b.map Prod.fst) ∨ (k ∈ b.map Prod.fst ∧ k ∉ a.map Prod.fst)) :
    SigHeaders.tryParse s t = .err .buildSignatureHeader := by
  rw [tryParse_of ha hb]
  unfold pairParse
  split
  · rfl
  rename_i hlen
  rw [if_pos]
  intro hall
  simp only [List.all_eq_true] at hall
  have sub : a.map Prod.fst ⊆ b.map Prod.fst := by
    intro x hx
    obtain ⟨kv, hkv, rfl⟩ := List.mem_map.1 hx
    exact imGet_isSome.1 (hall kv hkv)
  rcases h with ⟨h1, h2⟩ | ⟨h1, h2⟩
  · exact h2 (sub h1)
  · have sp := (parseDict_legal ha).1.subperm sub
    have := sp.perm_of_length_le (by simp only [List.length_map]; omega)
    exact h2 (this.mem_iff.2 h1)

/-- C13: a text that is not a dictionary is refused with the error of the structured field parser. -/
theorem C13_not_a_dictionary (s t : Str) (h : parseDict s = none ∨ parseDict t = none) :
    SigHeaders.tryParse s t = .err .parseSFV := by
  rw [tryParse_eq]
  cases hb : parseDict t with
  | none => rfl
  | some b =>
    rw [h.resolve_right (by simp [hb])]; rfl

/-- C13: a label whose value is of the wrong kind in either header (something else than a byte sequence in Signature, something else
than an inner list in Signature-Input) makes the parse fail with the same error. -/
theorem C13_wrong_kind (s t : Str) (a b : Dict) (ha : parseDict s = some a) (hb : parseDict t = some b)
    (h : (∃ kv ∈ a, ∀ x ps, kv.2 ≠ .item ⟨.bytes x, ps⟩) ∨ (∃ kv ∈ b, ∀ il, kv.2 ≠ .inner il)) :
    SigHeaders.tryParse s t = .err .buildSignatureHeader := by
  rw [tryParse_of ha hb]
  unfold pairParse
  split
  · rfl
  split
  · rfl
  split
  · rfl
  rename_i hbytes
  rw [if_pos]
  intro hall
  simp only [not_not, List.all_eq_true] at hall hbytes
  rcases h with ⟨kv, hkv, h⟩ | ⟨kv, hkv, h⟩
  · obtain ⟨x, hx⟩ := Option.isSome_iff_exists.1 (hbytes kv hkv)
    obtain ⟨ps, e⟩ := entryBytes_iff.1 hx
    exact h x ps e
  · obtain ⟨il, e⟩ := entryIsInner_iff.1 (hall kv hkv)
    exact h il e

example : SigHeaders.tryParse (c! "a=:AQ==:") (c! "b=()") = .err .buildSignatureHeader := by decide
example : SigHeaders.tryParse (c! "a=:AQ==:, b=:AQ==:") (c! "b=()") = .err .buildSignatureHeader := by decide
example : SigHeaders.tryParse (c! "a=:AQ==:") (c! "a=1, b=()") = .err .buildSignatureHeader := by decide
example : SigHeaders.tryParse (c! "a=:AQ==:") (c! "a=1") = .err .buildSignatureHeader := by decide
example : SigHeaders.tryParse (c! "a=1") (c! "a=()") = .err .buildSignatureHeader := by decide
example : SigHeaders.tryParse (c! "A=:AQ==:") (c! "a=()") = .err .parseSFV := by decide

example : (SigHeaders.tryParse (c! "b=:AQ==:, a=:Ag==:") (c! "a=(\"@path\"), b=();created=1")) =
    .ok [(c! "a", ⟨c! "a", [2], { covered := [⟨.derived .path, []⟩] }⟩),
      (c! "b", ⟨c! "b", [1], { created := some 1, covered := [] }⟩)] := by decide
example : (SigHeaders.tryParse (c! "b=:AQ==:, c=:Ag==:") (c! "a=(\"@path\"), b=();created=1")) = .err .buildSignatureHeader := by
  decide

/-- C51: whatever the headers contain, every label read from them is a structured field key. So a signature stored under a name
that is not a key is never read back under that name. -/
theorem C51_only_keys_are_read (s t : Str) (l : List (Str × SigHeaders)) (h : SigHeaders.tryParse s t = .ok l) :
    ∀ kh ∈ l, LegalKey kh.1 ∧ LegalKey kh.2.name := by
  obtain ⟨a, b, _, hb, hA⟩ := (C13_labels_agree s t l).1 h
  intro kh hkh
  have hk : kh.1 ∈ b.map Prod.fst := by rw [← hA.order]; exact List.mem_map_of_mem hkh
  obtain ⟨kv, hkv, e⟩ := List.mem_map.1 hk
  have := ((parseDict_legal hb).2 kv hkv).1
  rw [e] at this
  exact ⟨this, by rw [(hA.pairing kh hkh).1]; exact this⟩

theorem C51_illegal_name_unreadable (h : SigHeaders) (hn : ¬ LegalKey h.name) (l : List (Str × SigHeaders))
    (hl : SigHeaders.tryParse h.signatureValue h.inputValue = .ok l) : ∀ kh ∈ l, kh.1 ≠ h.name := by
  intro kh hkh e
  exact hn (e ▸ (C51_only_keys_are_read _ _ l hl kh hkh).1)

-- both cases of the claim occur: an error, and another label
example : SigHeaders.tryParse (SigHeaders.signatureValue ⟨c! "Sig", [1], { covered := [] }⟩)
    (SigHeaders.inputValue ⟨c! "Sig", [1], { covered := [] }⟩) = .err .parseSFV := by decide
example : SigHeaders.tryParse (SigHeaders.signatureValue ⟨c! "  a", [1], { covered := [] }⟩)
    (SigHeaders.inputValue ⟨c! "  a", [1], { covered := [] }⟩) = .ok [(c! "a", ⟨c! "a", [1], { covered := [] }⟩)] := by decide

/-- C53: if two Signature texts hold the same labels with the same decoded bytes, parsing against any Signature-Input gives the
same outcome. -/
theorem C53_decoded_bytes_only (s s' t : Str) (a a' : Dict) (h : parseDict s = some a) (h' : parseDict s' = some a')
    (hab : a.map (fun kv => (kv.1, entryBytes kv.2)) = a'.map (fun kv => (kv.1, entryBytes kv.2))) :
    SigHeaders.tryParse s t = SigHeaders.tryParse s' t := by
  rw [tryParse_eq, tryParse_eq, h, h']
  cases hb : parseDict t with
  | none => rfl
  | some b =>
    simp only [Res.ofOption_some, Res.bind_ok]
    have hlen : a.length = a'.length := by simpa using congrArg List.length hab
    have all1 : ∀ (f : Str → Option Bytes → Bool), a.all (fun kv => f kv.1 (entryBytes kv.2)) = a'.all (fun kv => f kv.1 (entryBytes kv.2)) := by
      intro f
      have := congrArg (fun l => List.all l (fun kv : Str × Option Bytes => f kv.1 kv.2)) hab
      simpa [List.all_map, Function.comp_def] using this
    have get : ∀ k, (imGet a k).bind entryBytes = (imGet a' k).bind entryBytes := by
      intro k
      have key : ∀ a : Dict, (imGet a k).bind entryBytes = (imGet (a.map (fun kv => (kv.1, entryBytes kv.2))) k).bind id := by
        intro a
        induction a with
        | nil => rfl
        | cons x u ih =>
          simp only [imGet, List.map_cons]
          split
          · rfl
          · exact ih
      rw [key a, key a', hab]
    have one : parseOne a = parseOne a' := by
      funext kv; unfold parseOne; rw [get]
    unfold pairParse
    rw [hlen, all1 (fun k _ => (imGet b k).isSome), all1 (fun _ o => o.isSome), one]

-- padded, unpadded, and with a parameter
example : parseDict (c! "a=:AQ==:") ≠ parseDict (c! "a=:AQ:;x") ∧
    SigHeaders.tryParse (c! "a=:AQ==:") (c! "a=()") = SigHeaders.tryParse (c! "a=:AQ:;x") (c! "a=()") := by decide

end Verif
