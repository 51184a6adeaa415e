import Verif.Proofs.RepairVerify
import Verif.Proofs.Sign
/-! Signing by the repaired library. -/
namespace Verif.Repair
open Sfv Spec Spec.Repaired

variable {m : Msg} {rf : Option Request}

theorem newLines_eq (sh : SigHeaders) : newLines sh = [(hSignatureInput, utf8 (inputValue sh)), (hSignature, utf8 sh.signatureValue)] := by
  unfold newLines inputValue
  rw [signatureValue_text, serInner_disp]
  simp [hSignatureInput, hSignature]

theorem appendOne_ok {h h' : Headers} {sh : SigHeaders} :
    appendOne h sh = .ok h' ↔ (hvOfStr (inputValue sh)).isSome ∧ (hvOfStr sh.signatureValue).isSome ∧ h' = h ++ newLines sh := by
  unfold appendOne
  cases h1 : hvOfStr (inputValue sh) with
  | none => simp [Res.ofOption]
  | some v =>
    cases h3 : hvOfStr sh.signatureValue with
    | none => simp [Res.ofOption]
    | some w =>
      simp only [Res.ofOption, Res.bind_ok, Res.ok.injEq, Option.isSome_some, true_and]
      rw [newLines_eq, hvOfStr_some h1, hvOfStr_some h3]
      simp [Headers.append, eq_comm]

theorem appendOne_ne_panic (h : Headers) (sh : SigHeaders) : appendOne h sh ≠ .panic := by
  unfold appendOne
  cases hvOfStr (inputValue sh) <;> cases hvOfStr sh.signatureValue <;> simp [Res.ofOption]

theorem appendAll_ok {h h' : Headers} {hs : List SigHeaders} :
    appendAll h hs = .ok h' ↔ (∀ sh ∈ hs, (hvOfStr (inputValue sh)).isSome ∧ (hvOfStr sh.signatureValue).isSome) ∧ h' = h ++ hs.flatMap newLines := by
  induction hs generalizing h with
  | nil =>
    unfold appendAll
    rw [Res.ok.injEq, List.flatMap_nil, List.append_nil]
    exact ⟨fun e => ⟨fun _ h => absurd h (by simp), e.symm⟩, fun e => e.2.symm⟩
  | cons a t ih =>
    unfold appendAll
    rw [Res.bind_eq_ok]
    constructor
    · rintro ⟨h1, e1, e2⟩
      obtain ⟨a1, a2, rfl⟩ := appendOne_ok.1 e1
      obtain ⟨b1, rfl⟩ := ih.1 e2
      refine ⟨?_, by simp⟩
      intro x hx
      rcases List.mem_cons.1 hx with rfl | hx
      · exact ⟨a1, a2⟩
      · exact b1 x hx
    · rintro ⟨e1, rfl⟩
      obtain ⟨a1, a2⟩ := e1 a (by simp)
      exact ⟨_, appendOne_ok.2 ⟨a1, a2, rfl⟩, ih.2 ⟨fun x hx => e1 x (by simp [hx]), by simp⟩⟩

theorem appendAll_ne_panic (h : Headers) (hs : List SigHeaders) : appendAll h hs ≠ .panic := by
  induction hs generalizing h with
  | nil => simp [appendAll]
  | cons a t ih => exact bind_ne_panic (appendOne_ne_panic h a) (fun h' _ => ih h')

theorem headersOf_ok {b : SigBase} {k : SigningKey} {n : Option Str} {sh : SigHeaders} :
    headersOf b k n = .ok sh ↔ sh.name = n.getD (c! "sig") ∧ sh.params = b.params ∧ k.sign (utf8 (baseDisp b)) = .ok sh.signature := by
  unfold headersOf
  rw [Res.bind_eq_ok]
  constructor
  · rintro ⟨s, h1, h2⟩
    injection h2 with h2; subst h2
    exact ⟨rfl, rfl, h1⟩
  · rintro ⟨h1, h2, h3⟩
    refine ⟨_, h3, ?_⟩
    rw [← h1, ← h2]

theorem gathered_ok {α : Type} {f : α → Res SigErr SigHeaders} {bs : List α} {hs : List SigHeaders} :
    (gather (ε' := HyperErr) (bs.map f) >>= fun rs => Res.collect (fun r : Except SigErr SigHeaders => match r with | .ok h => .ok h | .error e => .err (HyperErr.httpSig e)) rs) = .ok hs ↔
      List.Forall₂ (fun b sh => f b = .ok sh) bs hs := by
  rw [Res.bind_eq_ok]
  constructor
  · rintro ⟨rs, g1, g2⟩
    have h1 := (gather_ok _ _).1 g1
    have h2 := Res.collect_ok_iff.1 g2
    clear g1 g2
    induction bs generalizing rs hs with
    | nil =>
      cases rs with
      | nil => cases h2; exact .nil
      | cons => simp at h1
    | cons b t ih =>
      cases rs with
      | nil => simp at h1
      | cons r rs =>
        cases h2 with
        | cons h3 h4 =>
          simp only [List.map_cons, List.cons.injEq] at h1
          refine .cons ?_ (ih _ h1.2 h4)
          rw [h1.1]
          cases r with
          | ok x => simp only at h3; injection h3 with h3; subst h3; rfl
          | error e => cases h3
  · intro h
    refine ⟨hs.map .ok, (gather_ok _ _).2 ?_, Res.collect_ok_iff.2 ?_⟩
    · induction h with
      | nil => rfl
      | cons h _ ih => rw [List.map_cons, List.map_cons, List.map_cons, h, ih]; rfl
    · rw [List.forall₂_map_left_iff, List.forall₂_same]
      intro x _; rfl

theorem signAll_ok (hw : WfHeaders m.headers) (hf : ∀ r, rf = some r → WfHeaders r.headers) (l : List Signer) (hs : List SigHeaders) :
    signAll m l rf = .ok hs ↔ List.Forall₂ (Repaired.SignedBy m rf) l hs := by
  have one : ∀ (x : Signer) (sh : SigHeaders), (∃ b, buildBase m x.1 rf = .ok b ∧ headersOf b x.2.1 x.2.2 = .ok sh) ↔ Repaired.SignedBy m rf x sh := by
    intro x sh
    simp only [headersOf_ok]
    constructor
    · rintro ⟨b, h1, h2, h3, h4⟩
      exact ⟨h2, by rw [h3, buildBase_params h1], _, (buildBase_spec hw hf _).1 ⟨b, h1, rfl⟩, h4⟩
    · rintro ⟨h1, h2, t, h3, h4⟩
      obtain ⟨b, h5, h6⟩ := (buildBase_spec hw hf _).2 h3
      exact ⟨b, h5, h1, by rw [h2, buildBase_params h5], by rw [h6]; exact h4⟩
  unfold signAll
  rw [Res.bind_eq_ok]
  constructor
  · rintro ⟨bs, h1, h2⟩
    replace h1 := Res.collect_ok_iff.1 h1
    replace h2 := gathered_ok.1 h2
    induction h1 generalizing hs with
    | nil => cases h2; exact .nil
    | cons h _ ih =>
      cases h2 with
      | cons h3 h4 =>
        obtain ⟨b, e1, e2⟩ := Res.bind_eq_ok.1 h
        injection e2 with e2; subst e2
        exact .cons ((one _ _).1 ⟨_, e1, h3⟩) (ih _ h4)
  · intro h
    induction h with
    | nil => exact ⟨[], Res.collect_ok_iff.2 .nil, gathered_ok.2 .nil⟩
    | @cons x sh _ _ h _ ih =>
      obtain ⟨b, h1, h2⟩ := (one _ _).2 h
      obtain ⟨bs, h3, h4⟩ := ih
      exact ⟨(b, x.2) :: bs, Res.collect_ok_iff.2 (.cons (Res.bind_eq_ok.2 ⟨b, h1, rfl⟩) (Res.collect_ok_iff.1 h3)),
        gathered_ok.2 (.cons h2 (gathered_ok.1 h4))⟩

/-! ### What is carried afterwards -/

theorem headers_with (m : Msg) (h : Headers) : (m.withHeaders h).headers = h := by cases m <;> rfl

theorem carried_iff (hw : WfHeaders m.headers) (sh : SigHeaders) : carried m sh = true ↔ ∃ l, Carries m.headers l ∧ (sh.name, sh) ∈ l := by
  unfold carried
  constructor
  · intro h
    split at h
    · rename_i l e
      exact ⟨l, (extract_ok hw l).1 e, imGet_mem (by simpa using h)⟩
    · cases h
  · rintro ⟨l, hc, hm⟩
    rw [(extract_ok hw l).2 hc]
    simp [imGet_of_mem (carries_nodup hc) hm]

theorem wf_newLines {h : Headers} (hw : WfHeaders h) (hs : List SigHeaders) : WfHeaders (h ++ hs.flatMap newLines) := by
  intro kv hkv
  rcases List.mem_append.1 hkv with hkv | hkv
  · exact hw kv hkv
  · obtain ⟨sh, _, hkv⟩ := List.mem_flatMap.1 hkv
    simp only [newLines, List.mem_cons, List.not_mem_nil, or_false] at hkv
    have w1 : WfName (c! "signature-input") := ⟨by decide, by decide, by decide⟩
    have w2 : WfName (c! "signature") := ⟨by decide, by decide, by decide⟩
    rcases hkv with rfl | rfl
    · exact w1
    · exact w2

theorem setSignatures_ok (hw : WfHeaders m.headers) (hf : ∀ r, rf = some r → WfHeaders r.headers) (l : List Signer) (h' : Headers) :
    setSignatures m l rf = (h', .ok ()) ↔ ∃ hs, List.Forall₂ (Repaired.SignedBy m rf) l hs ∧
      (∀ sh ∈ hs, (hvOfStr (inputValue sh)).isSome ∧ (hvOfStr sh.signatureValue).isSome) ∧ h' = m.headers ++ hs.flatMap newLines ∧
      ∀ sh ∈ hs, ∃ l', Carries h' l' ∧ (sh.name, sh) ∈ l' := by
  have hc : ∀ hs : List SigHeaders, (hs.all (carried (m.withHeaders (m.headers ++ hs.flatMap newLines))) = true ↔
      ∀ sh ∈ hs, ∃ l', Carries (m.headers ++ hs.flatMap newLines) l' ∧ (sh.name, sh) ∈ l') := by
    intro hs
    rw [List.all_eq_true]
    refine forall₂_congr fun sh _ => ?_
    rw [carried_iff (by rw [headers_with]; exact wf_newLines hw hs), headers_with]
  unfold setSignatures
  constructor
  · intro h
    split at h
    · rename_i hs h2 e
      obtain ⟨hs', e1, e2⟩ := Res.bind_eq_ok.1 e
      obtain ⟨h2', e3, e4⟩ := Res.bind_eq_ok.1 e2
      injection e4 with e4; injection e4 with e5 e6; subst e5 e6
      obtain ⟨e7, rfl⟩ := appendAll_ok.1 e3
      split at h
      · rename_i ha
        injection h with h _; subst h
        exact ⟨hs', (signAll_ok hw hf l hs').1 e1, e7, rfl, (hc hs').1 ha⟩
      · injection h with _ h; cases h
    · injection h with _ h; cases h
    · injection h with _ h; cases h
  · rintro ⟨hs, h1, h2, rfl, h3⟩
    have e1 := (signAll_ok hw hf l hs).2 h1
    have e2 : appendAll m.headers hs = .ok _ := appendAll_ok.2 ⟨h2, rfl⟩
    simp only [e1, e2, Res.bind_ok]
    rw [if_pos ((hc hs).2 h3)]

/-- Nothing is added unless it succeeds. -/
theorem setSignatures_unchanged (m : Msg) (l : List Signer) (rf : Option Request) :
    (setSignatures m l rf).2 = .ok () ∨ (setSignatures m l rf).1 = m.headers := by
  unfold setSignatures
  split
  · split
    · exact Or.inl rfl
    · exact Or.inr rfl
  · exact Or.inr rfl
  · exact Or.inr rfl

theorem setSignatures_ne_panic (m : Msg) (l : List Signer) (rf : Option Request) (hk : ∀ x ∈ l, ∀ d, x.2.1.sign d ≠ .panic) :
    (setSignatures m l rf).2 ≠ .panic := by
  have hs : signAll m l rf ≠ .panic := by
    refine bind_ne_panic ?_ ?_
    · intro h
      obtain ⟨_, l2, _, _, x, _, h⟩ := Res.collect_eq_panic.1 h
      rcases Res.bind_eq_panic.1 h with h | ⟨b, _, h⟩
      · exact buildBase_ne_panic _ _ _ h
      · cases h
    · intro bs hbs
      refine bind_ne_panic ?_ ?_
      · intro h
        obtain ⟨r, hr, e⟩ := List.mem_map.1 ((gather_panic _).1 h)
        have hmem : ∃ x ∈ l, r.2 = x.2 := by
          obtain ⟨x, hx, hb⟩ := forall₂_mem_right (Res.collect_ok_iff.1 hbs) r hr
          obtain ⟨b, _, e2⟩ := Res.bind_eq_ok.1 hb
          injection e2 with e2; subst e2
          exact ⟨x, hx, rfl⟩
        obtain ⟨x, hx, hx2⟩ := hmem
        unfold headersOf at e
        rcases Res.bind_eq_panic.1 e with h | ⟨b, _, h⟩
        · rw [hx2] at h; exact hk x hx _ h
        · cases h
      · intro rs _ h
        obtain ⟨_, _, _, _, x, _, h⟩ := Res.collect_eq_panic.1 h
        cases x <;> cases h
  unfold setSignatures
  split
  · split <;> simp
  · simp
  · rename_i h
    refine absurd h (bind_ne_panic hs ?_)
    intro hs' _
    exact bind_ne_panic (appendAll_ne_panic _ _) (by simp)

/-! ### Writable signatures are carried -/

/-- A signature that can be written. -/
structure WritableHeaders (sh : SigHeaders) : Prop where
  name : LegalKey sh.name
  params : Writable sh.params

theorem inputValue_member (sh : SigHeaders) : inputValue sh = serMember (inputMember sh) := by
  unfold inputValue inputMember
  rw [serMember_other _ (by intro p; simp [paramsEntry]), disp_eq]

theorem input_printable {sh : SigHeaders} (h : WritableHeaders sh) : ∀ c ∈ inputValue sh, Printable c := by
  rw [inputValue_member]
  exact serMember_printable h.name (paramsEntry_writable h.params)

theorem fieldLines_new_input (hs : List SigHeaders) :
    fieldLines (hs.flatMap newLines) (c! "signature-input") = hs.map (fun sh => utf8 (inputValue sh)) := by
  induction hs with
  | nil => rfl
  | cons a t ih =>
    rw [List.flatMap_cons, fieldLines_append, ih, newLines_eq, List.map_cons]
    rfl

theorem fieldLines_new_sig (hs : List SigHeaders) :
    fieldLines (hs.flatMap newLines) (c! "signature") = hs.map (fun sh => utf8 sh.signatureValue) := by
  induction hs with
  | nil => rfl
  | cons a t ih =>
    rw [List.flatMap_cons, fieldLines_append, ih, newLines_eq, List.map_cons]
    rfl

theorem fieldLines_new_other (hs : List SigHeaders) {f : Str} (h1 : lower f ≠ c! "signature") (h2 : lower f ≠ c! "signature-input") :
    fieldLines (hs.flatMap newLines) f = [] := by
  induction hs with
  | nil => rfl
  | cons a t ih =>
    rw [List.flatMap_cons, fieldLines_append, ih, List.append_nil]
    have := fieldLines_sigLines_other [a] h1 h2
    unfold newLines fieldLines
    unfold sigLines fieldLines at this
    simp only [List.flatMap_cons, List.flatMap_nil, List.append_nil] at this
    simp only [List.filter_cons, List.filter_nil] at this ⊢
    split at this <;> split at this <;> simp_all

theorem agree_put {a b : Dict} {l : List (Str × SigHeaders)} (ha : (a.map Prod.fst).Nodup) (hb : (b.map Prod.fst).Nodup)
    (h : Agree a b l) {sh : SigHeaders} (hs : WritableHeaders sh) :
    Agree (imInsert a sh.name (sigMember sh).2) (imInsert b sh.name (inputMember sh).2) (imInsert l sh.name sh) := by
  have hl : (l.map Prod.fst).Nodup := by rw [h.order]; exact hb
  refine ⟨?_, ?_, ?_, ?_, ?_⟩
  · intro k
    rw [imInsert_keys, imInsert_keys]
    have := h.labels
    by_cases h1 : sh.name ∈ a.map Prod.fst
    · rw [if_pos h1, if_pos ((this _).1 h1)]; exact this k
    · rw [if_neg h1, if_neg (fun e => h1 ((this _).2 e)), List.mem_append, List.mem_append, this k]
  · intro kv hkv
    rcases imInsert_mem hkv with hkv | rfl
    · exact h.bytes kv hkv
    · exact ⟨_, _, rfl⟩
  · intro kv hkv
    rcases imInsert_mem hkv with hkv | rfl
    · exact h.inner kv hkv
    · exact ⟨_, rfl⟩
  · rw [imInsert_keys, imInsert_keys, h.order]
  · intro kh hkh
    rcases (imInsert_mem_self hl).1 hkh with ⟨hne, hkh⟩ | rfl
    · obtain ⟨h1, ⟨ps, h2⟩, e, h3, h4⟩ := h.pairing kh hkh
      exact ⟨h1, ⟨ps, (imInsert_mem_self ha).2 (Or.inl ⟨hne, h2⟩)⟩, e, (imInsert_mem_self hb).2 (Or.inl ⟨hne, h3⟩), h4⟩
    · exact ⟨rfl, ⟨[], (imInsert_mem_self ha).2 (Or.inr rfl)⟩, _, (imInsert_mem_self hb).2 (Or.inr rfl), ofEntry_writable hs.params⟩

theorem parse_member {k : Str} {e : Entry} (hk : LegalKey k) (he : LegalEntry e) : parseDict (serMember (k, e)) = some [(k, e)] := by
  refine parseDict_ser (d := [(k, e)]) ⟨by simp, ?_⟩ rfl
  intro kv hkv
  rw [List.mem_singleton.1 hkv]
  exact ⟨hk, he⟩

/-- Writing one more signature. -/
theorem has_put {h : Headers} {l : List (Str × SigHeaders)} (hl : HasSignatures h l) {sh : SigHeaders} (hs : WritableHeaders sh) :
    HasSignatures (h ++ newLines sh) (imInsert l sh.name sh) ∧ (l.map Prod.fst).Nodup := by
  have hi := fieldLines_new_input [sh]
  have hg := fieldLines_new_sig [sh]
  simp only [List.flatMap_cons, List.flatMap_nil, List.append_nil, List.map_cons, List.map_nil] at hi hg
  rcases hl with ⟨h1, h2, rfl⟩ | ⟨hc, hne⟩
  · refine ⟨Or.inr ⟨?_, by simp [imInsert]⟩, by simp⟩
    have hA : Agree [] [] [] := ⟨by simp, by simp, by simp, rfl, by simp⟩
    refine ⟨[inputValue sh], [sh.signatureValue], _, _, ?_, ?_, by simp, by simp, ?_, ?_, agree_put (by simp) (by simp) hA hs⟩
    · rw [fieldLines_append, h1, hi]; exact .cons (hvToStr_utf8 (input_printable hs)) .nil
    · rw [fieldLines_append, h2, hg]; exact .cons (hvToStr_utf8 (safe_signature_printable hs.name)) .nil
    · show parseDict sh.signatureValue = _
      rw [signatureValue_eq]; exact parse_member hs.name (sigMember_legal hs.name).2
    · show parseDict (inputValue sh) = _
      rw [inputValue_member]; exact parse_member hs.name (paramsEntry_writable hs.params)
  · refine ⟨Or.inr ⟨?_, imInsert_ne_nil _ _ _⟩, carries_nodup hc⟩
    obtain ⟨ts, us, a, b, h1, h2, h3, h4, h5, h6, hA⟩ := hc
    have hbne : b ≠ [] := by
      intro e; subst e
      have := hA.order
      simp at this; exact hne this
    have hane : a ≠ [] := by
      intro e; subst e
      have := hA.labels
      cases b with
      | nil => exact hbne rfl
      | cons x t => exact absurd ((this x.1).2 (by simp)) (by simp)
    refine ⟨ts ++ [inputValue sh], us ++ [sh.signatureValue], imInsert a sh.name (sigMember sh).2, imInsert b sh.name (inputMember sh).2,
      ?_, ?_, by simp, by simp, ?_, ?_, ?_⟩
    · rw [fieldLines_append, hi]; exact lineTexts_snoc h1 (input_printable hs)
    · rw [fieldLines_append, hg]; exact lineTexts_snoc h2 (safe_signature_printable hs.name)
    · rw [join_snoc _ _ _ h4, signatureValue_eq]
      exact parseDict_snoc h5 hane (sigMember_legal hs.name).1 (sigMember_legal hs.name).2
    · rw [join_snoc _ _ _ h3, inputValue_member]
      exact parseDict_snoc h6 hbne hs.name (paramsEntry_writable hs.params)
    · exact agree_put (parseDict_legal h5).1 (parseDict_legal h6).1 hA hs

theorem has_putAll {h : Headers} {l : List (Str × SigHeaders)} (hl : HasSignatures h l) {hs : List SigHeaders}
    (hsafe : ∀ sh ∈ hs, WritableHeaders sh) : HasSignatures (h ++ hs.flatMap newLines) (hs.foldl putIn l) := by
  induction hs generalizing h l with
  | nil => simpa using hl
  | cons a t ih =>
    have h1 := has_put hl (hsafe a (by simp))
    rw [List.flatMap_cons, ← List.append_assoc, List.foldl_cons, putIn_eq h1.2]
    exact ih h1.1 (fun sh hsh => hsafe sh (by simp [hsh]))

theorem mem_foldl_putIn {l : List (Str × SigHeaders)} {hs : List SigHeaders} {kv : Str × SigHeaders} (hkv : kv ∈ l)
    (h : ∀ sh ∈ hs, sh.name ≠ kv.1) : kv ∈ hs.foldl putIn l := by
  induction hs generalizing l with
  | nil => exact hkv
  | cons a t ih =>
    rw [List.foldl_cons]
    refine ih ?_ (fun sh hsh => h sh (by simp [hsh]))
    unfold putIn
    split
    · refine List.mem_map.2 ⟨kv, hkv, ?_⟩
      rw [if_neg (Ne.symm (h a (by simp)))]
    · exact List.mem_append_left _ hkv

theorem mem_putAll {l : List (Str × SigHeaders)} {hs : List SigHeaders} (hd : (hs.map SigHeaders.name).Nodup) {sh : SigHeaders} (h : sh ∈ hs) :
    (sh.name, sh) ∈ hs.foldl putIn l := by
  induction hs generalizing l with
  | nil => cases h
  | cons a t ih =>
    rw [List.map_cons, List.nodup_cons] at hd
    rw [List.foldl_cons]
    rcases List.mem_cons.1 h with rfl | h
    · refine mem_foldl_putIn ?_ (fun x hx e => hd.1 (List.mem_map.2 ⟨x, hx, e⟩))
      unfold putIn
      split
      · rename_i hm
        obtain ⟨kv, h1, h2⟩ := List.mem_map.1 hm
        exact List.mem_map.2 ⟨kv, h1, by rw [if_pos h2]⟩
      · simp
    · exact ih hd.2 h

end Verif.Repair
