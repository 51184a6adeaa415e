import Verif.Spec.Sign
import Verif.Proofs.Hyper
import Verif.Proofs.Canon
/-!
Signing, and reading back what was written.
-/
namespace Verif
open Sfv Spec

/-! ### The stages of signing -/

theorem inputValue_text (sh : SigHeaders) : sh.inputValue = sh.name ++ c! "=" ++ sh.params.disp := by
  unfold SigHeaders.inputValue; simp

theorem signatureValue_text (sh : SigHeaders) : sh.signatureValue = sh.name ++ c! "=:" ++ Base64.encode sh.signature ++ c! ":" := by
  unfold SigHeaders.signatureValue; simp

theorem sigLines_eq (sh : SigHeaders) : sigLines sh = [(hSignatureInput, utf8 sh.inputValue), (hSignature, utf8 sh.signatureValue)] := by
  rw [inputValue_text, signatureValue_text]; rfl

theorem hvOfStr_some {s : Str} {v : Bytes} (h : hvOfStr s = some v) : v = utf8 s := by
  unfold hvOfStr at h; split at h
  · injection h with h; exact h.symm
  · cases h

theorem hvOfStr_append {a b : Str} : (hvOfStr (a ++ b)).isSome ↔ (hvOfStr a).isSome ∧ (hvOfStr b).isSome := by
  unfold hvOfStr
  rw [utf8_append, List.all_append]
  cases h1 : (utf8 a).all hvByteOk <;> cases h2 : (utf8 b).all hvByteOk <;> simp

/-- When the first of the two lines of a signature can be written, so can the second. -/
theorem second_line_ok {sh : SigHeaders} (h : (hvOfStr sh.inputValue).isSome) : (hvOfStr sh.signatureValue).isSome := by
  rw [inputValue_text, List.append_assoc, hvOfStr_append] at h
  rw [signatureValue_text, List.append_assoc, List.append_assoc, hvOfStr_append]
  refine ⟨h.1, ?_⟩
  rw [hvOfStr_printable]; · rfl
  intro c hc
  rw [List.mem_append, List.mem_append] at hc
  rcases hc with hc | hc | hc
  · revert c; decide
  · exact encode_printable _ c hc
  · revert c; decide

theorem appendOne_eq (h : Headers) (sh : SigHeaders) :
    appendOne h sh = if (hvOfStr sh.inputValue).isSome then (h ++ sigLines sh, .ok ()) else (h, .err .invalidHeaderValue) := by
  unfold appendOne
  cases h1 : hvOfStr sh.inputValue with
  | none => simp
  | some v =>
    have h2 := second_line_ok (sh := sh) (by rw [h1]; rfl)
    cases h3 : hvOfStr sh.signatureValue with
    | none => rw [h3] at h2; cases h2
    | some w =>
      simp only [Option.isSome_some, if_true]
      rw [sigLines_eq, hvOfStr_some h1, hvOfStr_some h3]
      simp [Headers.append]

theorem appendAll_eq (h : Headers) (hs : List SigHeaders) :
    ((∀ sh ∈ hs, (hvOfStr sh.inputValue).isSome) ∧ appendAll h hs = (h ++ hs.flatMap sigLines, .ok ())) ∨
    (∃ l1 sh l2, hs = l1 ++ sh :: l2 ∧ (∀ x ∈ l1, (hvOfStr x.inputValue).isSome) ∧ hvOfStr sh.inputValue = none ∧
      appendAll h hs = (h ++ l1.flatMap sigLines, .err .invalidHeaderValue)) := by
  induction hs generalizing h with
  | nil => left; exact ⟨by simp, by simp [appendAll]⟩
  | cons a t ih =>
    unfold appendAll
    rw [appendOne_eq]
    by_cases ha : (hvOfStr a.inputValue).isSome
    · rw [if_pos ha]
      simp only
      rcases ih (h ++ sigLines a) with ⟨h1, h2⟩ | ⟨l1, sh, l2, rfl, h1, h2, h3⟩
      · left
        refine ⟨?_, by rw [h2]; simp⟩
        intro x hx
        rcases List.mem_cons.1 hx with rfl | hx
        · exact ha
        · exact h1 x hx
      · right
        refine ⟨a :: l1, sh, l2, rfl, ?_, h2, by rw [h3]; simp⟩
        intro x hx
        rcases List.mem_cons.1 hx with rfl | hx
        · exact ha
        · exact h1 x hx
    · rw [if_neg ha]
      right
      refine ⟨[], a, t, rfl, by simp, by simpa using ha, by simp⟩

theorem signBases_ok {m : Msg} {rf : Option Request} {l : List Signer} {bs : List (SigBase × SigningKey × Option Str)} :
    signBases m l rf = .ok bs ↔ List.Forall₂ (fun x b => buildBase m x.1 rf = .ok b.1 ∧ b.2 = x.2) l bs := by
  unfold signBases
  rw [Res.collect_ok_iff]
  constructor <;> intro h
  · refine h.imp ?_
    intro x b hb
    obtain ⟨y, h1, h2⟩ := Res.bind_eq_ok.1 hb
    injection h2 with h2; subst h2
    exact ⟨h1, rfl⟩
  · refine h.imp ?_
    rintro x ⟨b, c⟩ ⟨h1, h2⟩
    simp only at h1 h2
    subst h2
    rw [h1]; rfl

theorem signAll_ok {bs : List (SigBase × SigningKey × Option Str)} {hs : List SigHeaders} :
    signAll bs = .ok hs ↔ List.Forall₂ (fun b sh => b.1.headers b.2.1 b.2.2 = .ok sh) bs hs := by
  unfold signAll
  rw [Res.bind_eq_ok]
  constructor
  · rintro ⟨rs, g1, g2⟩
    have h1 := (gather_ok _ _).1 g1
    have h2 := Res.collect_ok_iff.1 g2
    clear g1 g2
    induction bs generalizing rs hs with
    | nil =>
      cases rs with
      | nil => cases h2; exact .nil
      | cons => simp at h1
    | cons b t ih =>
      cases rs with
      | nil => simp at h1
      | cons r rs =>
        cases h2 with
        | cons h3 h4 =>
          simp only [List.map_cons, List.cons.injEq] at h1
          refine .cons ?_ (ih _ h1.2 h4)
          rw [h1.1]
          cases r with
          | ok x => simp only at h3; injection h3 with h3; subst h3; rfl
          | error e => cases h3
  · intro h
    refine ⟨hs.map .ok, (gather_ok _ _).2 ?_, Res.collect_ok_iff.2 ?_⟩
    · induction h with
      | nil => rfl
      | cons h _ ih => rw [List.map_cons, List.map_cons, List.map_cons, h, ih]; rfl
    · rw [List.forall₂_map_left_iff, List.forall₂_same]
      intro x _; rfl

theorem headers_ok {b : SigBase} {k : SigningKey} {n : Option Str} {sh : SigHeaders} :
    b.headers k n = .ok sh ↔ sh.name = n.getD (c! "sig") ∧ sh.params = b.params ∧ k.sign b.bytes = .ok sh.signature := by
  unfold SigBase.headers SigBase.rawSignature
  rw [Res.bind_eq_ok]
  constructor
  · rintro ⟨s, h1, h2⟩
    injection h2 with h2; subst h2
    exact ⟨rfl, rfl, h1⟩
  · rintro ⟨h1, h2, h3⟩
    refine ⟨_, h3, ?_⟩
    rw [← h1, ← h2]

/-- The first two stages of signing succeed exactly when every signer contributes. -/
theorem sign_stage {m : Msg} {rf : Option Request} (hw : WfHeaders m.headers) (hf : ∀ r, rf = some r → WfHeaders r.headers)
    (l : List Signer) (hs : List SigHeaders) :
    (signBases m l rf >>= signAll) = .ok hs ↔ List.Forall₂ (SignedBy m rf) l hs := by
  have one : ∀ (x : Signer) (sh : SigHeaders), (∃ b, buildBase m x.1 rf = .ok b ∧ b.headers x.2.1 x.2.2 = .ok sh) ↔ SignedBy m rf x sh := by
    intro x sh
    simp only [headers_ok]
    constructor
    · rintro ⟨b, h1, h2, h3, h4⟩
      exact ⟨h2, by rw [h3, buildBase_params h1], b.disp, (buildBase_spec hw hf _).1 ⟨b, h1, rfl⟩, h4⟩
    · rintro ⟨h1, h2, t, h3, h4⟩
      obtain ⟨b, h5, h6⟩ := (buildBase_spec hw hf _).2 h3
      exact ⟨b, h5, h1, by rw [h2, buildBase_params h5], by unfold SigBase.bytes; rw [h6]; exact h4⟩
  rw [Res.bind_eq_ok]
  constructor
  · rintro ⟨bs, g1, g2⟩
    have h1 := signBases_ok.1 g1
    have h2 := signAll_ok.1 g2
    clear g1 g2
    induction h1 generalizing hs with
    | nil => cases h2; exact .nil
    | cons h _ ih =>
      cases h2 with
      | cons h3 h4 =>
        refine .cons ((one _ _).1 ⟨_, h.1, ?_⟩) (ih _ h4)
        rw [← h.2]; exact h3
  · intro h
    induction h with
    | nil => exact ⟨[], signBases_ok.2 .nil, signAll_ok.2 .nil⟩
    | @cons x sh _ _ h _ ih =>
      obtain ⟨b, h1, h2⟩ := (one _ _).2 h
      obtain ⟨bs, h3, h4⟩ := ih
      exact ⟨(b, x.2) :: bs, signBases_ok.2 (.cons ⟨h1, rfl⟩ (signBases_ok.1 h3)), signAll_ok.2 (.cons h2 (signAll_ok.1 h4))⟩

theorem setSignatures_ok {m : Msg} {rf : Option Request} (hw : WfHeaders m.headers) (hf : ∀ r, rf = some r → WfHeaders r.headers)
    (l : List Signer) (h' : Headers) :
    setSignatures m l rf = (h', .ok ()) ↔ ∃ hs, List.Forall₂ (SignedBy m rf) l hs ∧ (∀ sh ∈ hs, (hvOfStr sh.inputValue).isSome) ∧
      h' = m.headers ++ hs.flatMap sigLines := by
  unfold setSignatures
  constructor
  · intro h
    split at h
    · rename_i hs hst
      refine ⟨hs, (sign_stage hw hf l hs).1 hst, ?_⟩
      rcases appendAll_eq m.headers hs with ⟨h1, h2⟩ | ⟨l1, sh, l2, _, _, _, h3⟩
      · rw [h2] at h
        injection h with h _
        exact ⟨h1, h.symm⟩
      · rw [h3] at h
        injection h with _ h; cases h
    · injection h with _ h; cases h
    · injection h with _ h; cases h
  · rintro ⟨hs, h1, h2, rfl⟩
    have := (sign_stage hw hf l hs).2 h1
    simp only [this]
    rcases appendAll_eq m.headers hs with ⟨_, h3⟩ | ⟨l1, sh, l2, rfl, _, h3, _⟩
    · exact h3
    · have := h2 sh (by simp)
      rw [h3] at this; cases this

/-! ### Header lines after appending -/

theorem fieldLines_append (a b : Headers) (f : Str) : fieldLines (a ++ b) f = fieldLines a f ++ fieldLines b f := by
  simp [fieldLines]

theorem fieldLines_sigLines_other (hs : List SigHeaders) {f : Str} (h1 : lower f ≠ c! "signature") (h2 : lower f ≠ c! "signature-input") :
    fieldLines (hs.flatMap sigLines) f = [] := by
  unfold fieldLines
  rw [List.map_eq_nil_iff, List.filter_eq_nil_iff]
  intro kv hkv
  obtain ⟨sh, _, hkv⟩ := List.mem_flatMap.1 hkv
  simp only [sigLines, List.mem_cons, List.not_mem_nil, or_false] at hkv
  rcases hkv with rfl | rfl
  · simp only [decide_eq_true_eq]; intro e; exact h2 (e.symm.trans (by decide))
  · simp only [decide_eq_true_eq]; intro e; exact h1 (e.symm.trans (by decide))

theorem fieldLines_sigLines_input (hs : List SigHeaders) :
    fieldLines (hs.flatMap sigLines) (c! "signature-input") = hs.map (fun sh => utf8 sh.inputValue) := by
  induction hs with
  | nil => rfl
  | cons a t ih =>
    rw [List.flatMap_cons, fieldLines_append, ih, sigLines_eq]
    rfl

theorem fieldLines_sigLines_sig (hs : List SigHeaders) :
    fieldLines (hs.flatMap sigLines) (c! "signature") = hs.map (fun sh => utf8 sh.signatureValue) := by
  induction hs with
  | nil => rfl
  | cons a t ih =>
    rw [List.flatMap_cons, fieldLines_append, ih, sigLines_eq]
    rfl

theorem wf_sigLines {h : Headers} (hw : WfHeaders h) (hs : List SigHeaders) : WfHeaders (h ++ hs.flatMap sigLines) := by
  intro kv hkv
  rcases List.mem_append.1 hkv with hkv | hkv
  · exact hw kv hkv
  · obtain ⟨sh, _, hkv⟩ := List.mem_flatMap.1 hkv
    simp only [sigLines, List.mem_cons, List.not_mem_nil, or_false] at hkv
    have w1 : WfName (c! "signature-input") := ⟨by decide, by decide, by decide⟩
    have w2 : WfName (c! "signature") := ⟨by decide, by decide, by decide⟩
    rcases hkv with rfl | rfl
    · exact w1
    · exact w2

/-! ### Reading back -/

theorem safe_input_printable {sh : SigHeaders} (h : SafeHeaders sh) : ∀ c ∈ sh.inputValue, Printable c := by
  rw [inputValue_eq h.params]
  exact serMember_printable (inputMember_legal h).1 (inputMember_legal h).2

theorem safe_signature_printable {sh : SigHeaders} (h : LegalKey sh.name) : ∀ c ∈ sh.signatureValue, Printable c := by
  rw [signatureValue_eq]
  exact serMember_printable (sigMember_legal h).1 (sigMember_legal h).2

theorem join_snoc (sep : Str) (l : List Str) (x : Str) (h : l ≠ []) : join sep (l ++ [x]) = join sep l ++ sep ++ x := by
  induction l with
  | nil => exact absurd rfl h
  | cons a t ih =>
    cases t with
    | nil => rfl
    | cons b t =>
      show a ++ sep ++ join sep ((b :: t) ++ [x]) = _
      rw [ih (by simp)]
      simp [join]

theorem dropWhile_append_ne {p : Char → Bool} {s t : Str} (h : s.dropWhile p ≠ []) : (s ++ t).dropWhile p = s.dropWhile p ++ t := by
  induction s with
  | nil => exact absurd rfl h
  | cons a s ih =>
    rw [List.cons_append, List.dropWhile_cons, List.dropWhile_cons]
    rw [List.dropWhile_cons] at h
    split
    · rename_i ha; rw [if_pos ha] at h; exact ih h
    · rfl

/-- A dictionary text followed by one more member. -/
theorem parseDict_snoc {s : Str} {a : Dict} (h : parseDict s = some a) (hne : a ≠ []) {k : Str} {e : Entry} (hk : LegalKey k) (he : LegalEntry e) :
    parseDict (s ++ c! ", " ++ serMember (k, e)) = some (imInsert a k e) := by
  unfold parseDict at h
  split at h
  · rename_i xs hxs
    injection h with h
    have hs : s.dropWhile isSp ≠ [] := by
      intro e
      rw [e, parseSep_nil] at hxs
      injection hxs with hxs
      subst hxs
      exact hne (by rw [← h]; rfl)
    unfold parseDict
    rw [List.append_assoc, dropWhile_append_ne hs]
    show (match parseSep parseMember (s.dropWhile isSp ++ ',' :: (' ' :: serMember (k, e))) with
      | some l => some (imOfList l)
      | none => none) = _
    obtain ⟨c, t, hct, h1, h2⟩ := serMember_head e hk
    have hd : (' ' :: serMember (k, e)).dropWhile isOws = serMember (k, e) := by
      rw [List.dropWhile_cons, if_pos (by decide), hct, List.dropWhile_cons, if_neg (by simp [isOws, h1, h2])]
    have hp := parseSep_ser parseMember_prog [(k, e)] (fun x hx r hr => by
      simp at hx; subst hx; exact parseMember_ser hk he hr) (fun x hx => by simp at hx; subst hx; exact serMember_head e hk)
    have hp : parseSep parseMember (serMember (k, e)) = some [(k, e)] := hp
    rw [parseSep_append parseMember_prog parseMember_locC hs hxs (by rw [hd, hct]; simp), hd, hp]
    simp only
    rw [imOfList_append_one, h]
  · cases h

theorem imInsert_mem_self {κ ν : Type} [DecidableEq κ] {m : List (κ × ν)} (hn : (m.map Prod.fst).Nodup) {k : κ} {v : ν} {x : κ × ν} :
    x ∈ imInsert m k v ↔ (x.1 ≠ k ∧ x ∈ m) ∨ x = (k, v) := by
  have hn' := imInsert_nodup hn k v
  constructor
  · intro h
    by_cases hx : x.1 = k
    · right
      have h1 := imGet_of_mem hn' (k := x.1) (v := x.2) h
      rw [hx, imGet_insert_self] at h1
      injection h1 with h1
      rw [h1, ← hx]
    · rcases imInsert_mem h with h | h
      · exact Or.inl ⟨hx, h⟩
      · exact Or.inr h
  · rintro (⟨h1, h2⟩ | rfl)
    · have := imGet_of_mem hn (k := x.1) (v := x.2) h2
      rw [← imGet_insert_ne m v h1] at this
      exact imGet_mem this
    · exact imGet_mem (imGet_insert_self m k v)

theorem agree_insert {a b : Dict} {l : List (Str × SigHeaders)} (ha : (a.map Prod.fst).Nodup) (hb : (b.map Prod.fst).Nodup)
    (h : Agree a b l) {sh : SigHeaders} (hs : SafeHeaders sh) :
    Agree (imInsert a sh.name (sigMember sh).2) (imInsert b sh.name (inputMember sh).2) (imInsert l sh.name sh) := by
  have hl : (l.map Prod.fst).Nodup := by rw [h.order]; exact hb
  refine ⟨?_, ?_, ?_, ?_, ?_⟩
  · intro k
    rw [imInsert_keys, imInsert_keys]
    have := h.labels
    by_cases h1 : sh.name ∈ a.map Prod.fst
    · rw [if_pos h1, if_pos ((this _).1 h1)]; exact this k
    · rw [if_neg h1, if_neg (fun e => h1 ((this _).2 e)), List.mem_append, List.mem_append, this k]
  · intro kv hkv
    rcases imInsert_mem hkv with hkv | rfl
    · exact h.bytes kv hkv
    · exact ⟨_, _, rfl⟩
  · intro kv hkv
    rcases imInsert_mem hkv with hkv | rfl
    · exact h.inner kv hkv
    · exact ⟨_, rfl⟩
  · rw [imInsert_keys, imInsert_keys, h.order]
  · intro kh hkh
    rcases (imInsert_mem_self hl).1 hkh with ⟨hne, hkh⟩ | rfl
    · obtain ⟨h1, ⟨ps, h2⟩, e, h3, h4⟩ := h.pairing kh hkh
      exact ⟨h1, ⟨ps, (imInsert_mem_self ha).2 (Or.inl ⟨hne, h2⟩)⟩, e, (imInsert_mem_self hb).2 (Or.inl ⟨hne, h3⟩), h4⟩
    · exact ⟨rfl, ⟨[], (imInsert_mem_self ha).2 (Or.inr rfl)⟩, _, (imInsert_mem_self hb).2 (Or.inr rfl), ofEntry_paramsEntry hs.params⟩

theorem putIn_eq {l : List (Str × SigHeaders)} (hl : (l.map Prod.fst).Nodup) (sh : SigHeaders) : putIn l sh = imInsert l sh.name sh := by
  unfold putIn
  split
  · rename_i h
    induction l with
    | nil => simp at h
    | cons x t ih =>
      obtain ⟨k1, v1⟩ := x
      simp only [List.map_cons, List.nodup_cons] at hl
      simp only [imInsert, List.map_cons]
      split
      · rename_i hk
        subst hk
        congr 1
        rw [List.map_congr_left (g := fun kv => kv)]
        · simp
        · intro kv hkv
          rw [if_neg]
          intro e
          exact hl.1 (e ▸ List.mem_map_of_mem hkv)
      · rename_i hk
        congr 1
        apply ih hl.2
        simp only [List.map_cons, List.mem_cons] at h
        exact h.resolve_left (Ne.symm hk)
  · rename_i h; exact (imInsert_new sh h).symm

theorem lineTexts_snoc {ls : List Bytes} {ts : List Str} (h : LineTexts ls ts) {s : Str} (hs : ∀ c ∈ s, Printable c) :
    LineTexts (ls ++ [utf8 s]) (ts ++ [s]) := by
  unfold LineTexts at *
  exact List.rel_append h (.cons (hvToStr_utf8 hs) .nil)

/-- Writing one more signature. -/
theorem hasSignatures_put {h : Headers} {l : List (Str × SigHeaders)} (hl : HasSignatures h l) {sh : SigHeaders} (hs : SafeHeaders sh) :
    HasSignatures (h ++ sigLines sh) (imInsert l sh.name sh) ∧ (l.map Prod.fst).Nodup := by
  have hi := fieldLines_sigLines_input [sh]
  have hg := fieldLines_sigLines_sig [sh]
  simp only [List.flatMap_cons, List.flatMap_nil, List.append_nil, List.map_cons, List.map_nil] at hi hg
  rcases hl with ⟨h1, h2, rfl⟩ | ⟨hc, hne⟩
  · refine ⟨Or.inr ⟨?_, by simp [imInsert]⟩, by simp⟩
    have := (C13_labels_agree sh.signatureValue sh.inputValue [(sh.name, sh)]).1 (C07_headers_round_trip sh hs.name hs.params)
    obtain ⟨a, b, ha, hb, hA⟩ := this
    refine ⟨[sh.inputValue], [sh.signatureValue], a, b, ?_, ?_, by simp, by simp, ha, hb, hA⟩
    · rw [fieldLines_append, h1, hi]; exact .cons (hvToStr_utf8 (safe_input_printable hs)) .nil
    · rw [fieldLines_append, h2, hg]; exact .cons (hvToStr_utf8 (safe_signature_printable hs.name)) .nil
  · refine ⟨Or.inr ⟨?_, imInsert_ne_nil _ _ _⟩, carries_nodup hc⟩
    obtain ⟨ts, us, a, b, h1, h2, h3, h4, h5, h6, hA⟩ := hc
    have hbne : b ≠ [] := by
      intro e; subst e
      have := hA.order
      simp at this; exact hne this
    have hane : a ≠ [] := by
      intro e; subst e
      have := hA.labels
      cases b with
      | nil => exact hbne rfl
      | cons x t => exact absurd ((this x.1).2 (by simp)) (by simp)
    refine ⟨ts ++ [sh.inputValue], us ++ [sh.signatureValue], imInsert a sh.name (sigMember sh).2, imInsert b sh.name (inputMember sh).2,
      ?_, ?_, by simp, by simp, ?_, ?_, ?_⟩
    · rw [fieldLines_append, hi]; exact lineTexts_snoc h1 (safe_input_printable hs)
    · rw [fieldLines_append, hg]; exact lineTexts_snoc h2 (safe_signature_printable hs.name)
    · rw [join_snoc _ _ _ h4, signatureValue_eq]
      exact parseDict_snoc h5 hane (sigMember_legal hs.name).1 (sigMember_legal hs.name).2
    · rw [join_snoc _ _ _ h3, inputValue_eq hs.params]
      exact parseDict_snoc h6 hbne (inputMember_legal hs).1 (inputMember_legal hs).2
    · exact agree_insert (parseDict_legal h5).1 (parseDict_legal h6).1 hA hs

theorem hasSignatures_putAll {h : Headers} {l : List (Str × SigHeaders)} (hl : HasSignatures h l) {hs : List SigHeaders}
    (hsafe : ∀ sh ∈ hs, SafeHeaders sh) : HasSignatures (h ++ hs.flatMap sigLines) (hs.foldl putIn l) := by
  induction hs generalizing h l with
  | nil => simpa using hl
  | cons a t ih =>
    have h1 := hasSignatures_put hl (hsafe a (by simp))
    rw [List.flatMap_cons, ← List.append_assoc, List.foldl_cons, putIn_eq h1.2]
    exact ih h1.1 (fun sh hsh => hsafe sh (by simp [hsh]))

end Verif
