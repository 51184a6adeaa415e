import Verif.Spec.Forward
import Verif.Proofs.Chain
import Verif.Proofs.Forward
import Verif.Props.C10
import Verif.Props.C16
import Verif.Props.C04
import Verif.Props.C80
/-!
C88: what signatures put in by somebody else on the way do to verification. Readable ones with new labels are harmless, whatever they
contain; one unreadable member stops the verification of all signatures.
-/
namespace Verif
open Sfv Spec

/-! ### Two dictionaries one after the other -/

theorem parseDict_text {s : Str} {a : Dict} (h : parseDict s = some a) : ∃ xs, parseSep parseMember (s.dropWhile isSp) = some xs ∧ a = imOfList xs := by
  unfold parseDict at h
  split at h
  · rename_i xs hxs; injection h with h; exact ⟨xs, hxs, h.symm⟩
  · cases h

theorem parseDict_concat {s t : Str} {a b : Dict} (ha : parseDict s = some a) (hb : parseDict t = some b) (hane : a ≠ []) (hbne : b ≠ [])
    (hd : ∀ k ∈ b.map Prod.fst, k ∉ a.map Prod.fst) : parseDict (s ++ c! ", " ++ t) = some (a ++ b) := by
  obtain ⟨xs, hxs, rfl⟩ := parseDict_text ha
  obtain ⟨ys, hys, rfl⟩ := parseDict_text hb
  have nil : parseSep parseMember [] = some [] := by decide
  have hs : s.dropWhile isSp ≠ [] := by
    intro e; rw [e, nil] at hxs; injection hxs with hxs; subst hxs; exact hane rfl
  have ht : t.dropWhile isSp ≠ [] := by
    intro e; rw [e, nil] at hys; injection hys with hys; subst hys; exact hbne rfl
  have hto : t.dropWhile isOws = t.dropWhile isSp := by
    cases hd : t.dropWhile isSp with
    | nil => exact absurd hd ht
    | cons c w =>
      rw [hd] at hys
      have hs : isSp c = false := by
        have := List.head?_dropWhile_not isSp t
        rw [hd] at this; simpa using this
      have hc : isOws c = false := by
        cases ho : isOws c with
        | false => rfl
        | true =>
          have : c = '\t' := by simp only [isSp, isOws] at *; simp_all
          subst this
          rw [parseMember_start (by decide)] at hys; cases hys
      have e := List.takeWhile_append_dropWhile (p := isSp) (l := t)
      rw [hd] at e
      rw [← e]
      rw [List.dropWhile_append_of_pos]
      · rw [List.dropWhile_cons, if_neg (by simp [hc])]
      · intro x hx
        have := List.mem_takeWhile_imp hx
        simp only [isSp, isOws] at this ⊢; simp_all
  unfold parseDict
  have e : s ++ c! ", " ++ t = s ++ ',' :: (' ' :: t) := by simp
  have hsp : (' ' :: t).dropWhile isOws = t.dropWhile isSp := by rw [List.dropWhile_cons, if_pos (by decide), hto]
  rw [e, dropWhile_append_of (Or.inl hs), parseSep_append parseMember_prog parseMember_locC hs hxs (by rw [hsp]; exact ht), hsp, hys]
  show some (imOfList (xs ++ ys)) = _
  rw [imOfList_eq, imInsertAll_append, ← imOfList_eq]
  have := Rfc.imInsertAll_disjoint (m := imOfList xs) (l := ys) (by
    intro k hk; exact hd k ((imOfList_keys_mem).2 hk)) []
  rw [List.append_nil] at this
  rw [this]; rfl

theorem agree_append {a b a' b' : Dict} {l l' : List (Str × SigHeaders)} (h : Agree a b l) (h' : Agree a' b' l') : Agree (a ++ a') (b ++ b') (l ++ l') := by
  refine ⟨?_, ?_, ?_, ?_, ?_⟩
  · intro k
    rw [List.map_append, List.map_append, List.mem_append, List.mem_append, h.labels, h'.labels]
  · intro kv hkv
    rcases List.mem_append.1 hkv with hk | hk
    · exact h.bytes kv hk
    · exact h'.bytes kv hk
  · intro kv hkv
    rcases List.mem_append.1 hkv with hk | hk
    · exact h.inner kv hk
    · exact h'.inner kv hk
  · rw [List.map_append, List.map_append, h.order, h'.order]
  · intro kh hk
    rcases List.mem_append.1 hk with hk | hk
    · obtain ⟨h1, ⟨ps, h2⟩, e, h3, h4⟩ := h.pairing kh hk
      exact ⟨h1, ⟨ps, by simp [h2]⟩, e, by simp [h3], h4⟩
    · obtain ⟨h1, ⟨ps, h2⟩, e, h3, h4⟩ := h'.pairing kh hk
      exact ⟨h1, ⟨ps, by simp [h2]⟩, e, by simp [h3], h4⟩

theorem agree_ne {a b : Dict} {l : List (Str × SigHeaders)} (h : Agree a b l) (hne : l ≠ []) : a ≠ [] ∧ b ≠ [] := by
  have hb : b ≠ [] := by
    rintro rfl
    have := h.order
    simp at this; exact hne this
  refine ⟨?_, hb⟩
  rintro rfl
  cases b with
  | nil => exact hb rfl
  | cons x t => exact absurd ((h.labels x.1).2 (by simp)) (by simp)

/-- C88: header lines that carry signatures, followed by others that do, with other labels, carry them all: first those of the first. -/
theorem C88_append {h e : Headers} {l l' : List (Str × SigHeaders)} (hl : Wire.Carries h l) (hl' : Wire.Carries e l') (hne : l ≠ []) (hne' : l' ≠ [])
    (hd : ∀ k ∈ l'.map Prod.fst, k ∉ l.map Prod.fst) : Wire.Carries (h ++ e) (l ++ l') := by
  rw [wireCarries_iff] at *
  obtain ⟨ts, us, a, b, h1, h2, h3, h4, h5, h6, h7⟩ := hl
  obtain ⟨ts', us', a', b', g1, g2, g3, g4, g5, g6, g7⟩ := hl'
  have n := agree_ne h7 hne
  have n' := agree_ne g7 hne'
  refine ⟨ts ++ ts', us ++ us', a ++ a', b ++ b', ?_, ?_, by simp [h3], by simp [h4], ?_, ?_, agree_append h7 g7⟩
  · rw [fieldLines_append]; exact List.rel_append h1 g1
  · rw [fieldLines_append]; exact List.rel_append h2 g2
  · rw [join_append_ne _ _ _ h4 g4]
    refine parseDict_concat h5 g5 n.1 n'.1 ?_
    intro k hk hk'
    rw [g7.labels, ← g7.order] at hk
    rw [h7.labels, ← h7.order] at hk'
    exact hd k hk hk'
  · rw [join_append_ne _ _ _ h3 g3]
    refine parseDict_concat h6 g6 n.2 n'.2 ?_
    intro k hk hk'
    rw [← g7.order] at hk
    rw [← h7.order] at hk'
    exact hd k hk hk'

section
variable {m : Msg} {rf : Option Request} {e : Headers} {l l' : List (Str × SigHeaders)} {now : UInt64} {k : VerifyingKey} {id : Option Str}

/-- C88: a signature of the message is accepted after lines were added exactly when it was before, if its components are the same. -/
theorem C88_accepts {sh : SigHeaders} (h : ∀ i ∈ sh.params.covered, Wire.SameFor m (m.withHeaders (m.headers ++ e)) rf rf i) :
    Accepts now (m.withHeaders (m.headers ++ e)) rf k id sh ↔ Accepts now m rf k id sh := by
  unfold Accepts
  simp only [← wireBaseOf_iff, C80_base h]

/-- C88: in particular if only signature fields were added and it does not cover them. -/
theorem C88_untouched {p : SigParams} (hp : NotSelf p) (he : ∀ kv ∈ e, kv.1 = c! "signature" ∨ kv.1 = c! "signature-input") :
    ∀ i ∈ p.covered, Wire.SameFor m (m.withHeaders (m.headers ++ e)) rf rf i := by
  intro i hi
  by_cases hr : CParam.req ∈ i.params
  · cases m with
    | req r => exact .never hr (by intro s r' h; cases h) (by intro s r' h; cases h)
    | res s =>
      cases rf with
      | none => exact .never hr (by simp) (by simp)
      | some r =>
        refine .there hr rfl rfl rfl rfl ?_
        unfold Wire.SamePart
        cases i.name with
        | field f => exact Or.inl rfl
        | derived d => cases d <;> first | rfl | exact ⟨rfl, rfl⟩
  · refine .here hr ?_
    have hn := hp i hi hr
    unfold Wire.SamePart
    cases hi : i.name with
    | field f =>
      left
      have hf := hn.2 f hi
      rw [linesOf_eq, linesOf_eq, headers_withHeaders, fieldLines_append]
      have : fieldLines e f = [] := by
        unfold fieldLines
        rw [List.map_eq_nil_iff, List.filter_eq_nil_iff]
        intro kv hkv
        simp only [decide_eq_true_eq]
        intro h
        rcases he kv hkv with h' | h'
        · rw [h'] at h; exact hf.1 (h.symm.trans (by decide))
        · rw [h'] at h; exact hf.2 (h.symm.trans (by decide))
      rw [this, List.append_nil]
    | derived d =>
      have : d ≠ .signatureParams := fun e => hn.1 (by rw [hi, e])
      cases d <;> cases m <;> first | exact absurd rfl this | rfl | exact ⟨rfl, rfl⟩

/-- C88: somebody adds lines that carry the signatures `l'` with new labels and that leave the components of the old signatures
alone. With a key that panics on none of them, verification finds the same old signature as before; only if there was none does it look at the
new ones. -/
theorem C88_verify (hw : WfHeaders m.headers) (he : WfHeaders e) (hf : ∀ r, rf = some r → WfHeaders r.headers)
    (hl : Wire.Carries m.headers l) (hl' : Wire.Carries e l') (hne : l ≠ []) (hne' : l' ≠ [])
    (hd : ∀ k ∈ l'.map Prod.fst, k ∉ l.map Prod.fst)
    (hc : ∀ kv ∈ l, ∀ i ∈ kv.2.params.covered, Wire.SameFor m (m.withHeaders (m.headers ++ e)) rf rf i)
    (hk : ∀ kv ∈ l ++ l', ∀ b, k.verify b kv.2.signature ≠ .panic) (n : Str) :
    verifySignature now (m.withHeaders (m.headers ++ e)) k id rf = .ok n ↔
      verifySignature now m k id rf = .ok n ∨
      ((∀ n', verifySignature now m k id rf ≠ .ok n') ∧ FirstWith (Accepts now (m.withHeaders (m.headers ++ e)) rf k id) l' n) := by
  have hw' : WfHeaders (m.withHeaders (m.headers ++ e)).headers := by
    rw [headers_withHeaders]
    intro kv hkv
    rcases List.mem_append.1 hkv with h | h
    · exact hw kv h
    · exact he kv h
  have hcar : Carries (m.withHeaders (m.headers ++ e)).headers (l ++ l') := by
    rw [headers_withHeaders]; exact wireCarries_iff.1 (C88_append hl hl' hne hne' hd)
  have nocrash : ∀ m', ∀ kv ∈ l ++ l', ¬ Crashes now m' rf k id kv.2 := by
    rintro m' kv hkv ⟨t, _, _, _, h⟩; exact hk kv hkv _ h
  have old : ∀ n, verifySignature now m k id rf = .ok n ↔ FirstWith (Accepts now m rf k id) l n := by
    intro n
    rw [C10_ok_iff hw hf]
    constructor
    · rintro ⟨l0, h1, _, h2⟩
      rw [carries_unique hw h1 (wireCarries_iff.1 hl)] at h2; exact h2
    · intro h; exact ⟨l, wireCarries_iff.1 hl, fun kv hkv => nocrash _ kv (by simp [hkv]), h⟩
  have new : verifySignature now (m.withHeaders (m.headers ++ e)) k id rf = .ok n ↔
      FirstWith (Accepts now (m.withHeaders (m.headers ++ e)) rf k id) (l ++ l') n := by
    rw [C10_ok_iff hw' hf]
    constructor
    · rintro ⟨l0, h1, _, h2⟩
      rw [carries_unique hw' h1 hcar] at h2; exact h2
    · intro h; exact ⟨_, hcar, nocrash _, h⟩
  have same : ∀ kv ∈ l, (Accepts now (m.withHeaders (m.headers ++ e)) rf k id kv.2 ↔ Accepts now m rf k id kv.2) :=
    fun kv hkv => C88_accepts (hc kv hkv)
  rw [new, old]
  simp only [ne_eq, old]
  constructor
  · rintro ⟨l1, sh, l2, e1, h1, h2⟩
    rcases List.append_eq_append_iff.1 e1 with ⟨w, rfl, e2⟩ | ⟨w, rfl, e2⟩
    · refine Or.inr ⟨?_, w, sh, l2, e2, h1, fun kv hkv => h2 kv (by simp [hkv])⟩
      rintro n' ⟨a1, sh', a2, rfl, h3, _⟩
      exact h2 (n', sh') (by simp) ((same _ (by simp)).2 h3)
    · cases w with
      | nil =>
        simp only [List.nil_append] at e2
        refine Or.inr ⟨?_, [], sh, l2, e2.symm, h1, by simp⟩
        rintro n' ⟨a1, sh', a2, e3, h3, _⟩
        have mem : (n', sh') ∈ l1 ++ [] := by rw [e3]; simp
        exact h2 (n', sh') (by simpa using mem) ((same _ mem).2 h3)
      | cons x w =>
        rw [List.cons_append] at e2
        injection e2 with e2 e3
        subst e2
        exact Or.inl ⟨l1, sh, w, rfl, (same (n, sh) (by simp)).1 h1, fun kv hkv h => h2 kv hkv ((same kv (by simp [hkv])).2 h)⟩
  · rintro (⟨l1, sh, l2, rfl, h1, h2⟩ | ⟨h0, l1, sh, l2, rfl, h1, h2⟩)
    · exact ⟨l1, sh, l2 ++ l', by simp, (same (n, sh) (by simp)).2 h1, fun kv hkv h => h2 kv hkv ((same kv (by simp [hkv])).1 h)⟩
    · refine ⟨l ++ l1, sh, l2, by simp, h1, ?_⟩
      intro kv hkv h
      rcases List.mem_append.1 hkv with hkv | hkv
      · -- the first accepted one would have been found
        have : ∃ n', FirstWith (Accepts now m rf k id) l n' := by
          exact first_of_mem ⟨kv, hkv, (same kv hkv).1 h⟩
        obtain ⟨n', h'⟩ := this
        exact h0 n' h'
      · exact h2 kv hkv h
end

/-! ### One unreadable member -/

/-- What somebody can add: a signature that covers a derived component that does not exist. -/
def badLines (x : Str) : Headers :=
  [(c! "signature-input", utf8 (x ++ c! "=(\"@x\")")), (c! "signature", utf8 (x ++ c! "=:AA==:"))]

theorem badLines_input (x : Str) : fieldLines (badLines x) (c! "signature-input") = [utf8 (x ++ c! "=(\"@x\")")] := by
  simp [badLines, fieldLines, lower]

theorem badLines_sig (x : Str) : fieldLines (badLines x) (c! "signature") = [utf8 (x ++ c! "=:AA==:")] := by
  simp [badLines, fieldLines, lower]

theorem badLines_wf (x : Str) : WfHeaders (badLines x) := by
  intro kv hkv
  simp only [badLines, List.mem_cons, List.not_mem_nil, or_false] at hkv
  have w1 : WfName (c! "signature-input") := ⟨by decide, by decide, by decide⟩
  have w2 : WfName (c! "signature") := ⟨by decide, by decide, by decide⟩
  rcases hkv with rfl | rfl
  · exact w1
  · exact w2

def badInput : Entry := .inner ⟨[⟨.str (c! "@x"), []⟩], []⟩
def badSig : Entry := .item ⟨.bytes [0], []⟩

theorem badInput_text (x : Str) : x ++ c! "=(\"@x\")" = serMember (x, badInput) := by
  rw [serMember_other _ (by intro p; simp [badInput])]
  have : serEntry badInput = c! "(\"@x\")" := by decide
  rw [this]

theorem badSig_text (x : Str) : x ++ c! "=:AA==:" = serMember (x, badSig) := by
  rw [serMember_other _ (by intro p; simp [badSig])]
  have : serEntry badSig = c! ":AA==:" := by decide
  rw [this]

theorem badInput_legal : LegalEntry badInput := by
  refine ⟨?_, by simp [LegalParams]⟩
  intro i hi
  rw [List.mem_singleton.1 hi]
  exact ⟨by simp only [LegalBare]; decide, by simp [LegalParams]⟩

theorem badSig_legal : LegalEntry badSig := ⟨trivial, by simp [LegalParams]⟩

/-- A member that panics, put into a dictionary whose other members can be read. -/
theorem insert_bad {a b : Dict} {l : List (Str × SigHeaders)} (hb : (b.map Prod.fst).Nodup) (h : Agree a b l) (x : Str) :
    (∀ k, k ∈ (imInsert a x badSig).map Prod.fst ↔ k ∈ (imInsert b x badInput).map Prod.fst) ∧
    (∀ kv ∈ imInsert a x badSig, ∃ y ps, kv.2 = .item ⟨.bytes y, ps⟩) ∧ (∀ kv ∈ imInsert b x badInput, ∃ il, kv.2 = .inner il) ∧
    ∃ b1 kv b2, imInsert b x badInput = b1 ++ kv :: b2 ∧ (∀ y ∈ b1, ∃ p, SigParams.ofEntry y.2 = .ok p) ∧ SigParams.ofEntry kv.2 = .panic := by
  refine ⟨?_, ?_, ?_, ?_⟩
  · intro k
    have e : ∀ k, (k ∈ a.map Prod.fst ↔ k ∈ b.map Prod.fst) := h.labels
    rw [imInsert_keys, imInsert_keys]
    by_cases hx : x ∈ a.map Prod.fst
    · rw [if_pos hx, if_pos ((e x).1 hx)]; exact e k
    · rw [if_neg hx, if_neg (fun hc => hx ((e x).2 hc)), List.mem_append, List.mem_append, e]
  · intro kv hkv
    rcases imInsert_mem hkv with hkv | rfl
    · exact h.bytes kv hkv
    · exact ⟨_, _, rfl⟩
  · intro kv hkv
    rcases imInsert_mem hkv with hkv | rfl
    · exact h.inner kv hkv
    · exact ⟨_, rfl⟩
  · have hmem : (x, badInput) ∈ imInsert b x badInput := imGet_mem (imGet_insert_self b x badInput)
    obtain ⟨b1, b2, e⟩ := List.append_of_mem hmem
    refine ⟨b1, _, b2, e, ?_, (by decide : SigParams.ofEntry badInput = .panic)⟩
    intro y hy
    have nd := imInsert_nodup hb x badInput
    rw [e, List.map_append, List.nodup_append] at nd
    have hne : y ≠ (x, badInput) := by
      rintro rfl
      exact nd.2.2 x (List.mem_map_of_mem (f := Prod.fst) hy) x (by simp) rfl
    have hyb : y ∈ b := by
      rcases imInsert_mem (m := b) (k := x) (v := badInput) (x := y) (by rw [e]; simp [hy]) with h | h
      · exact h
      · exact absurd h hne
    have : y.1 ∈ l.map Prod.fst := by rw [h.order]; exact List.mem_map_of_mem hyb
    obtain ⟨kh, hkh, e1⟩ := List.mem_map.1 this
    obtain ⟨_, _, en, hen, hok⟩ := h.pairing kh hkh
    rw [e1] at hen
    have := imGet_of_mem hb hen
    have h2 := imGet_of_mem hb (k := y.1) (v := y.2) hyb
    rw [h2] at this
    injection this with this
    rw [this]; exact ⟨_, hok⟩

/-- Reading the signatures panics. -/
theorem bad_panics {m : Msg} {l : List (Str × SigHeaders)} (hl : HasSignatures m.headers l) (hw : WfHeaders m.headers) {x : Str} (hx : LegalKey x) :
    extractSignatureHeaders (m.withHeaders (m.headers ++ badLines x)) = .panic := by
  have hw' : WfHeaders (m.withHeaders (m.headers ++ badLines x)).headers := by
    rw [headers_withHeaders]
    intro kv hkv
    rcases List.mem_append.1 hkv with h | h
    · exact hw kv h
    · exact badLines_wf x kv h
  have pi : ∀ c ∈ x ++ c! "=(\"@x\")", Printable c := by rw [badInput_text]; exact serMember_printable hx badInput_legal
  have ps : ∀ c ∈ x ++ c! "=:AA==:", Printable c := by rw [badSig_text]; exact serMember_printable hx badSig_legal
  have key : ∃ ts us a b a0 b0 l0, SigTexts (m.headers ++ badLines x) ts us ∧ parseDict (join (c! ", ") us) = some a ∧ parseDict (join (c! ", ") ts) = some b ∧
      a = imInsert a0 x badSig ∧ b = imInsert b0 x badInput ∧ (b0.map Prod.fst).Nodup ∧ Agree a0 b0 l0 := by
    rcases hl with ⟨h1, h2, rfl⟩ | ⟨⟨ts, us, a, b, h1, h2, h3, h4, h5, h6, hA⟩, hne⟩
    · refine ⟨[x ++ c! "=(\"@x\")"], [x ++ c! "=:AA==:"], _, _, [], [], [], ⟨?_, ?_, by simp, by simp⟩, ?_, ?_, rfl, rfl, by simp,
        ⟨by simp, by simp, by simp, rfl, by simp⟩⟩
      · rw [fieldLines_append, h1, badLines_input]; exact .cons (hvToStr_utf8 pi) .nil
      · rw [fieldLines_append, h2, badLines_sig]; exact .cons (hvToStr_utf8 ps) .nil
      · rw [badSig_text]
        exact parseDict_members (l := [(x, badSig)]) (by intro kv hkv; rw [List.mem_singleton.1 hkv]; exact ⟨hx, badSig_legal⟩)
      · rw [badInput_text]
        exact parseDict_members (l := [(x, badInput)]) (by intro kv hkv; rw [List.mem_singleton.1 hkv]; exact ⟨hx, badInput_legal⟩)
    · have n := agree_ne hA hne
      refine ⟨ts ++ [x ++ c! "=(\"@x\")"], us ++ [x ++ c! "=:AA==:"], _, _, a, b, l, ⟨?_, ?_, by simp, by simp⟩, ?_, ?_, rfl, rfl,
        (parseDict_legal h6).1, hA⟩
      · rw [fieldLines_append, badLines_input]; exact lineTexts_snoc h1 pi
      · rw [fieldLines_append, badLines_sig]; exact lineTexts_snoc h2 ps
      · rw [join_snoc _ _ _ h4, badSig_text]; exact parseDict_snoc h5 n.1 hx badSig_legal
      · rw [join_snoc _ _ _ h3, badInput_text]; exact parseDict_snoc h6 n.2 hx badInput_legal
  obtain ⟨ts, us, a, b, a0, b0, l0, h1, h2, h3, rfl, rfl, h5, h6⟩ := key
  rw [extract_of_texts hw' (ts := ts) (us := us) (by rw [headers_withHeaders]; exact h1)]
  obtain ⟨g1, g2, g3, g4⟩ := insert_bad h5 h6 x
  rw [(C16_headers_panic_iff _ _).2 ⟨_, _, h2, h3, g1, g2, g3, g4⟩]
  rfl

/-- C88: whatever signatures a message carries, after somebody added one that covers `@x`, with any label, reading and verifying panic:
for all keys, key ids and times. -/
theorem C88_panic {m : Msg} {l : List (Str × SigHeaders)} (hl : HasSignatures m.headers l) (hw : WfHeaders m.headers) {x : Str} (hx : LegalKey x)
    (now : UInt64) (k : VerifyingKey) (id : Option Str) (rf : Option Request) (rsa : Bool) (keys : List (VerifyingKey × Option Str)) :
    verifySignature now (m.withHeaders (m.headers ++ badLines x)) k id rf = .panic ∧
    verifySignatures now (m.withHeaders (m.headers ++ badLines x)) keys rf = .panic ∧
    getSignatureParams (m.withHeaders (m.headers ++ badLines x)) = .panic ∧
    getAlgKeyIds rsa (m.withHeaders (m.headers ++ badLines x)) = .panic := by
  have h := bad_panics hl hw hx
  refine ⟨?_, ?_, ?_, ?_⟩
  · rw [verifySignature_eq, h]; rfl
  · rw [verifySignatures_eq, h]; rfl
  · unfold getSignatureParams; rw [h]; rfl
  · unfold getAlgKeyIds; rw [h]; rfl

/-- C88: after somebody added a line `?` to Signature-Input, reading and verifying fail for all keys, key ids and times. -/
theorem C88_error {m : Msg} {l : List (Str × SigHeaders)} (hl : Wire.Carries m.headers l) (hw : WfHeaders m.headers)
    (now : UInt64) (k : VerifyingKey) (id : Option Str) (rf : Option Request) (rsa : Bool) (keys : List (VerifyingKey × Option Str)) :
    verifySignature now (m.withHeaders (m.headers ++ [(c! "signature-input", utf8 (c! "?"))])) k id rf = .err (.httpSig .parseSFV) ∧
    verifySignatures now (m.withHeaders (m.headers ++ [(c! "signature-input", utf8 (c! "?"))])) keys rf = .err (.httpSig .parseSFV) ∧
    getSignatureParams (m.withHeaders (m.headers ++ [(c! "signature-input", utf8 (c! "?"))])) = .err (.httpSig .parseSFV) ∧
    getAlgKeyIds rsa (m.withHeaders (m.headers ++ [(c! "signature-input", utf8 (c! "?"))])) = .err (.httpSig .parseSFV) := by
  have h : extractSignatureHeaders (m.withHeaders (m.headers ++ [(c! "signature-input", utf8 (c! "?"))])) = .err (.httpSig .parseSFV) := by
    obtain ⟨ts, us, a, b, h1, h2, h3, h4, h5, h6, hA⟩ := wireCarries_iff.1 hl
    have hw' : WfHeaders (m.withHeaders (m.headers ++ [(c! "signature-input", utf8 (c! "?"))])).headers := by
      rw [headers_withHeaders]
      intro kv hkv
      rcases List.mem_append.1 hkv with h | h
      · exact hw kv h
      · rw [List.mem_singleton.1 h]; exact ⟨by decide, by decide, by decide⟩
    rw [extract_of_texts hw' (ts := ts ++ [c! "?"]) (us := us) ⟨?_, ?_, by simp, h4⟩]
    · have : parseDict (join (c! ", ") (ts ++ [c! "?"])) = none := by
        cases hp : parseDict (join (c! ", ") (ts ++ [c! "?"])) with
        | none => rfl
        | some b' =>
          rw [join_snoc _ _ _ h3] at hp
          obtain ⟨xs, ys, _, _, _, h, _⟩ := parseDict_two hp h6
          rw [show (c! "?").dropWhile isOws = c! "?" from by decide, parseMember_start (by decide)] at h
          cases h
      unfold SigHeaders.tryParse
      rw [this]; rfl
    · rw [headers_withHeaders, fieldLines_append]
      exact lineTexts_snoc h1 (by decide)
    · rw [headers_withHeaders, fieldLines_append]
      have : fieldLines [(c! "signature-input", utf8 (c! "?"))] (c! "signature") = [] := by decide
      rw [this, List.append_nil]; exact h2
  refine ⟨?_, ?_, ?_, ?_⟩
  · rw [verifySignature_eq, h]; rfl
  · rw [verifySignatures_eq, h]; rfl
  · unfold getSignatureParams; rw [h]; rfl
  · unfold getAlgKeyIds; rw [h]; rfl

/-! ### Examples -/

/-- Two more signatures for the example message: one with a component that the message does not have, one that `vKey` accepts. -/
def moreLines : Headers :=
  [(c! "signature", utf8 (c! "d=:AQ==:, e=:Aw==:")), (c! "signature-input", utf8 (c! "d=(\"x-none\");keyid=\"k1\"")),
    (c! "signature-input", utf8 (c! "e=(\"@method\");keyid=\"k3\""))]

def moreSigs : List (Str × SigHeaders) :=
  [(c! "d", ⟨c! "d", [1], { keyid := some (c! "k1"), covered := [⟨.field (c! "x-none"), []⟩] }⟩),
   (c! "e", ⟨c! "e", [3], { keyid := some (c! "k3"), covered := [⟨.derived .method, []⟩] }⟩)]

theorem moreLines_wf : WfHeaders moreLines := by
  intro kv hkv
  simp only [moreLines, List.mem_cons, List.not_mem_nil, or_false] at hkv
  rcases hkv with rfl | rfl | rfl <;> exact ⟨by decide, by decide, by decide⟩

set_option maxRecDepth 10000 in
theorem moreLines_carries : Wire.Carries moreLines moreSigs :=
  wireCarries_iff.2 ((extractSignatureHeaders_ok (m := .req { vReq with headers := moreLines }) moreLines_wf _).1 (by decide))

-- the hypotheses are met: `c` is still found, and with the key id of `e`, which no old signature has, `e` is found
set_option maxRecDepth 10000 in
example : verifySignature 101 (.req { vReq with headers := vReq.headers ++ moreLines }) vKey none none = .ok (c! "c") ∧
    verifySignature 101 (.req vReq) vKey (some (c! "k3")) none = .err .noSignatureHeaders ∧
    verifySignature 101 (.req { vReq with headers := vReq.headers ++ moreLines }) vKey (some (c! "k3")) none = .ok (c! "e") := by
  have key := fun id => C88_verify (m := .req vReq) (rf := none) (now := 101) (k := vKey) (id := id) vReq_wf moreLines_wf (by simp)
    (wireCarries_iff.2 vReq_carries) moreLines_carries (by simp [vSigs]) (by simp [moreSigs]) (by decide)
    (fun kv hkv => C88_untouched (by
      simp only [vSigs, List.mem_cons, List.not_mem_nil, or_false] at hkv
      rcases hkv with rfl | rfl | rfl <;> intro i hi _ <;> simp only [List.mem_cons, List.not_mem_nil, or_false] at hi
      · rcases hi with rfl | rfl
        · exact ⟨by simp, by intro f hf; injection hf with hf; subst hf; decide⟩
        · exact ⟨by simp, by intro f hf; cases hf⟩
      · subst hi; exact ⟨by simp, by intro f hf; cases hf⟩
      · subst hi; exact ⟨by simp, by intro f hf; injection hf with hf; subst hf; decide⟩)
      (by decide))
    (by
      intro kv hkv b
      have h : kv.2.signature ≠ [] := by revert kv; decide
      unfold vKey
      simp only [h, if_false]
      split <;> simp)
  exact ⟨(key none _).2 (Or.inl vReq_outcomes.2.1), vReq_outcomes.2.2.2.2, by decide⟩

-- and one bad member: before, signature `c` was found; after, nothing can be read
example : verifySignature 101 (.req { vReq with headers := vReq.headers ++ badLines (c! "zz") }) vKey none none = .panic :=
  (C88_panic (m := .req vReq) (Or.inr ⟨vReq_carries, by simp [vSigs]⟩) vReq_wf (x := c! "zz") (by decide) 101 vKey none none true []).1
example : verifySignature 101 (.req { vReq with headers := vReq.headers ++ [(c! "signature-input", utf8 (c! "?"))] }) vKey none none =
    .err (.httpSig .parseSFV) := (C88_error (m := .req vReq) (wireCarries_iff.2 vReq_carries) vReq_wf 101 vKey none none true []).1

end Verif
