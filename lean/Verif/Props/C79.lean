import Verif.Proofs.Chain
import Verif.Props.C09
import Verif.Props.C72
/-!
C79: signatures over signatures (RFC 9421 section 4.3). A later signer, say a proxy, covers `"signature";key="a"` and
`"signature-input";key="a"`.
-/
namespace Verif
open Spec Sfv Ex

section
variable {m : Msg} {rf : Option Request} {now : UInt64}

theorem applied_nonkey_mono {k : Str} {ps : List CParam} {vs ws out : List Str}
    (hw : ∀ w ∈ ws, ∃ n e, parseDict w = some [(n, e)] ∧ n ≠ k) : Applied (.key k :: ps) (vs ++ ws) out ↔ Applied (.key k :: ps) vs out := by
  constructor
  · intro h; cases h with | key h1 h2 => exact .key ((members_append hw).1 h1) h2
  · intro h; cases h with | key h1 h2 => exact .key ((members_append hw).2 h1) h2

/-- C79: signatures with other labels leave the value of a component as it is, also of one that is a member of a signature field. -/
theorem C79_value (hs : List SigHeaders) (hsafe : ∀ sh ∈ hs, SafeHeaders sh) {i : CId} (hi : OtherLabel (hs.map SigHeaders.name) i) (v : Str) :
    HasValue (m.withHeaders (m.headers ++ hs.flatMap sigLines)) rf i v ↔ HasValue m rf i v := by
  unfold HasValue
  by_cases hr : CParam.req ∈ i.params
  · rw [if_pos hr, if_pos hr]
    cases m with
    | req r => constructor <;> (rintro ⟨s, r, h, _⟩; cases h)
    | res s =>
      constructor
      · rintro ⟨s', r, _, h⟩; exact ⟨s, r, rfl, h⟩
      · rintro ⟨s', r, _, h⟩; exact ⟨_, r, rfl, h⟩
  · rw [if_neg hr, if_neg hr]
    obtain ⟨h1, h2⟩ := hi.resolve_left hr
    cases hn : i.name with
    | derived d =>
      have hd : d ≠ .signatureParams := fun e => h1 (by rw [hn, e])
      cases m <;> cases d <;> simp_all [ValueIn, Msg.withHeaders, RequestValue, ResponseValue]
    | field f =>
      have e : ∀ m' : Msg, ValueIn m' i v ↔ FieldValue m'.headers f i.params v := by
        intro m'; unfold ValueIn; rw [hn]
      rw [e, e, headers_withHeaders]
      unfold FieldValue
      rw [fieldLines_append]
      by_cases hf : lower f = c! "signature" ∨ lower f = c! "signature-input"
      · obtain ⟨k, ps, hp, hk⟩ := h2 f hn hf
        have lines : ∃ ws, LineTexts (fieldLines (hs.flatMap sigLines) f) ws ∧ ∀ w ∈ ws, ∃ n e, parseDict w = some [(n, e)] ∧ n ≠ k := by
          rcases hf with hf | hf
          · have : fieldLines (hs.flatMap sigLines) f = fieldLines (hs.flatMap sigLines) (c! "signature") := by
              unfold fieldLines; rw [hf]; rfl
            rw [this, fieldLines_sigLines_sig]
            refine ⟨hs.map SigHeaders.signatureValue, ?_, ?_⟩
            · unfold LineTexts
              rw [List.forall₂_map_left_iff, List.forall₂_map_right_iff, List.forall₂_same]
              intro sh hsh; exact hvToStr_utf8 (safe_signature_printable (hsafe sh hsh).name)
            · intro w hw
              obtain ⟨sh, hsh, rfl⟩ := List.mem_map.1 hw
              exact ⟨_, _, signatureLine_dict (hsafe sh hsh).name, fun e => hk (e ▸ List.mem_map_of_mem hsh)⟩
          · have : fieldLines (hs.flatMap sigLines) f = fieldLines (hs.flatMap sigLines) (c! "signature-input") := by
              unfold fieldLines; rw [hf]; rfl
            rw [this, fieldLines_sigLines_input]
            refine ⟨hs.map SigHeaders.inputValue, ?_, ?_⟩
            · unfold LineTexts
              rw [List.forall₂_map_left_iff, List.forall₂_map_right_iff, List.forall₂_same]
              intro sh hsh; exact hvToStr_utf8 (safe_input_printable (hsafe sh hsh))
            · intro w hw
              obtain ⟨sh, hsh, rfl⟩ := List.mem_map.1 hw
              exact ⟨_, _, inputLine_dict (hsafe sh hsh), fun e => hk (e ▸ List.mem_map_of_mem hsh)⟩
        obtain ⟨ws, hw1, hw2⟩ := lines
        rw [hp]
        constructor
        · rintro ⟨ts, out, a, b, c⟩
          obtain ⟨us, a', rfl⟩ := (lineTexts_append hw1 ts).1 a
          exact ⟨us, out, a', (applied_nonkey_mono hw2).1 b, c⟩
        · rintro ⟨us, out, a, b, c⟩
          exact ⟨us ++ ws, out, (lineTexts_append hw1 _).2 ⟨us, a, rfl⟩, (applied_nonkey_mono hw2).2 b, c⟩
      · rw [not_or] at hf
        rw [fieldLines_sigLines_other hs hf.1 hf.2, List.append_nil]

/-- C79: so the signature base stays the same. -/
theorem C79_base (hs : List SigHeaders) (hsafe : ∀ sh ∈ hs, SafeHeaders sh) {p : SigParams}
    (hp : ∀ i ∈ p.covered, OtherLabel (hs.map SigHeaders.name) i) (t : Str) :
    BaseOf (m.withHeaders (m.headers ++ hs.flatMap sigLines)) rf p t ↔ BaseOf m rf p t := by
  have key : ∀ (l : List CId), (∀ i ∈ l, i ∈ p.covered) → ∀ vs,
      List.Forall₂ (HasValue (m.withHeaders (m.headers ++ hs.flatMap sigLines)) rf) l vs ↔ List.Forall₂ (HasValue m rf) l vs := by
    intro l
    induction l with
    | nil => intro _ vs; constructor <;> (intro h; cases h; exact .nil)
    | cons a t ih =>
      intro hl vs
      constructor <;> intro h <;> cases h with
      | cons h1 h2 =>
        first
        | exact .cons ((C79_value hs hsafe (hp a (hl a (by simp))) _).1 h1) ((ih (fun i hi => hl i (by simp [hi])) _).1 h2)
        | exact .cons ((C79_value hs hsafe (hp a (hl a (by simp))) _).2 h1) ((ih (fun i hi => hl i (by simp [hi])) _).2 h2)
  unfold BaseOf
  simp only [key p.covered (fun _ h => h)]

/-- Signing one after the other: every signature is over the base of the final message. -/
theorem chain_lines (hw : WfHeaders m.headers) (hf : ∀ r, rf = some r → WfHeaders r.headers) {l : List Signer}
    (hsafe : ∀ x ∈ l, SafeParams x.1 ∧ LegalKey x.label) (hc : Chained l) {h' : Headers} (h : signEach m rf l = (h', .ok ())) :
    ∃ hs, h' = m.headers ++ hs.flatMap sigLines ∧ List.Forall₂ (SignedBy (m.withHeaders h') rf) l hs := by
  induction l generalizing m h' with
  | nil => injection h with h _; subst h; exact ⟨[], by simp, .nil⟩
  | cons x t ih =>
    unfold signEach at h
    split at h
    · rename_i h1 e
      have e : setSignatures m [x] rf = (h1, .ok ()) := e
      obtain ⟨hs1, a, _, rfl⟩ := (setSignatures_ok hw hf _ _).1 e
      cases a with
      | @cons _ sh _ _ a b =>
        cases b
        have hw1 : WfHeaders (m.withHeaders (m.headers ++ [sh].flatMap sigLines)).headers := by
          rw [headers_withHeaders]; exact wf_sigLines hw _
        obtain ⟨hs, e1, e2⟩ := ih hw1 (fun y hy => hsafe y (by simp [hy])) hc.2 h
        rw [headers_withHeaders, List.append_assoc, ← List.flatMap_append] at e1
        rw [withHeaders_twice] at e2
        refine ⟨sh :: hs, by simpa using e1, .cons ⟨a.name, a.params, ?_⟩ e2⟩
        obtain ⟨tx, b1, b2⟩ := a.signature
        refine ⟨tx, ?_, b2⟩
        have names : (sh :: hs).map SigHeaders.name = x.label :: t.map Signer.label := by
          rw [List.map_cons, a.name]
          congr 1
          clear e1 h e ih hc hsafe
          induction e2 with
          | nil => rfl
          | cons h _ ih => rw [List.map_cons, List.map_cons, ih, h.name]
        have safe : ∀ y ∈ sh :: hs, SafeHeaders y := by
          have := signed_safe (m := m.withHeaders h') (rf := rf) e2 (fun y hy => hsafe y (by simp [hy]))
          intro y hy
          rcases List.mem_cons.1 hy with rfl | hy
          · exact ⟨by rw [a.name]; exact (hsafe x (by simp)).2, by rw [a.params]; exact (hsafe x (by simp)).1⟩
          · exact this y hy
        rw [e1]
        exact (C79_base (sh :: hs) safe (by rw [names]; exact hc.1) tx).2 b1
    · rename_i hno
      rw [h] at hno
      exact absurd rfl (hno h')

/-- C79: signers one after the other, with new labels, each of which may cover the signatures so far, label by label. In the end the
message carries the old signatures, as they were, and the new ones, and each of the new ones is over the signature base of the message
as it is in the end. -/
theorem C79_chain (hw : WfHeaders m.headers) (hf : ∀ r, rf = some r → WfHeaders r.headers) {l0 : List (Str × SigHeaders)}
    (h0 : HasSignatures m.headers l0) {l : List Signer} (hne : l ≠ []) (hsafe : ∀ x ∈ l, SafeParams x.1 ∧ LegalKey x.label) (hc : Chained l)
    (hnd : (l0.map Prod.fst ++ l.map Signer.label).Nodup) {h' : Headers} (h : signEach m rf l = (h', .ok ())) :
    ∃ hs, List.Forall₂ (SignedBy (m.withHeaders h') rf) l hs ∧ Carries h' (l0 ++ hs.map fun sh => (sh.name, sh)) ∧ WfHeaders h' := by
  obtain ⟨hs, rfl, h2⟩ := chain_lines hw hf hsafe hc h
  refine ⟨hs, h2, ?_, wf_sigLines hw _⟩
  have names : hs.map SigHeaders.name = l.map Signer.label := by
    clear h hc hsafe hne hnd
    generalize m.withHeaders (m.headers ++ hs.flatMap sigLines) = m' at h2
    induction h2 with
    | nil => rfl
    | cons h _ ih => rw [List.map_cons, List.map_cons, ih, h.name]
  have := hasSignatures_putAll h0 (signed_safe h2 hsafe)
  rw [foldl_putIn_fresh (by rw [names]; exact hnd)] at this
  rcases this with ⟨_, _, h4⟩ | ⟨h3, _⟩
  · exfalso
    apply hne
    have : hs = [] := by simp only [List.append_eq_nil_iff, List.map_eq_nil_iff] at h4; exact h4.2
    subst this; cases h2; rfl
  · exact h3

/-- C79: what was signed before and does not cover the new labels is accepted after as it was before. -/
theorem C79_old (hs : List SigHeaders) (hsafe : ∀ sh ∈ hs, SafeHeaders sh) {sh : SigHeaders}
    (hp : ∀ i ∈ sh.params.covered, OtherLabel (hs.map SigHeaders.name) i) (vk : VerifyingKey) (id : Option Str) :
    Accepts now (m.withHeaders (m.headers ++ hs.flatMap sigLines)) rf vk id sh ↔ Accepts now m rf vk id sh := by
  unfold Accepts
  simp only [C79_base hs hsafe hp]

/-- C79: verification by key id finds each of the new signatures, if no other signature has that key id. -/
theorem C79_verify (hw : WfHeaders m.headers) (hf : ∀ r, rf = some r → WfHeaders r.headers) {l0 : List (Str × SigHeaders)}
    (h0 : HasSignatures m.headers l0) {l : List Signer} (hsafe : ∀ x ∈ l, SafeParams x.1 ∧ LegalKey x.label) (hc : Chained l)
    (hnd : (l0.map Prod.fst ++ l.map Signer.label).Nodup) {h' : Headers} (h : signEach m rf l = (h', .ok ()))
    {x : Signer} (hx : x ∈ l) {vk : VerifyingKey} (hk : KeyPair x.2.1 vk) (ht : ∀ e, x.1.expires = some e → now ≤ e)
    {id : Str} (hid : x.1.keyid = some id) (hold : ∀ kv ∈ l0, kv.2.params.keyid ≠ some id)
    (huniq : ∀ y ∈ l, y.1.keyid = some id → y = x) :
    verifySignature now (m.withHeaders h') vk (some id) rf = .ok x.label := by
  obtain ⟨hs, h1, h2, h3⟩ := C79_chain hw hf h0 (by rintro rfl; cases hx) hsafe hc hnd h
  have hw' : WfHeaders (m.withHeaders h').headers := by rw [headers_withHeaders]; exact h3
  have h2' : Carries (m.withHeaders h').headers (l0 ++ hs.map fun sh => (sh.name, sh)) := by rw [headers_withHeaders]; exact h2
  have only : ∀ kv ∈ l0 ++ hs.map (fun sh => (sh.name, sh)), ForKey (some id) kv.2 → kv.1 = x.label ∧
      ∃ t, BaseOf (m.withHeaders h') rf kv.2.params t ∧ kv.2.params = x.1 ∧ x.2.1.sign (utf8 t) = .ok kv.2.signature := by
    intro kv hkv hfor
    have hfor := hfor id rfl
    rcases List.mem_append.1 hkv with hkv | hkv
    · exact absurd hfor (hold kv hkv)
    · obtain ⟨sh, hsh, rfl⟩ := List.mem_map.1 hkv
      obtain ⟨y, hy, hb⟩ := forall₂_mem_right h1 _ hsh
      simp only at hfor ⊢
      rw [hb.params] at hfor
      have := huniq y hy hfor
      subst this
      obtain ⟨t, t1, t2⟩ := hb.signature
      exact ⟨hb.name, t, by rw [hb.params]; exact t1, hb.params, t2⟩
  have acc : ∃ kv ∈ l0 ++ hs.map (fun sh => (sh.name, sh)), Accepts now (m.withHeaders h') rf vk (some id) kv.2 := by
    obtain ⟨sh, hsh, hb⟩ := forall₂_mem_left h1 _ hx
    obtain ⟨t, t1, t2⟩ := hb.signature
    refine ⟨(sh.name, sh), List.mem_append_right _ (List.mem_map_of_mem (f := fun sh : SigHeaders => (sh.name, sh)) hsh), t, ?_, ?_, ?_, hk _ _ t2⟩
    · show BaseOf _ rf sh.params t
      rw [hb.params]; exact t1
    · intro i hi; injection hi with hi; subst hi
      show sh.params.keyid = _
      rw [hb.params]; exact hid
    · intro e he
      have he : sh.params.expires = some e := he
      rw [hb.params] at he; exact ht e he
  obtain ⟨n, hn⟩ := first_of_mem acc
  obtain ⟨sh, hm, t, a1, a2, a3, a4⟩ := firstWith_mem hn
  have hnx := (only (n, sh) hm a2).1
  simp only at hnx
  subst hnx
  refine (C10_ok_iff hw' hf _).2 ⟨_, h2', ?_, hn⟩
  rintro kv hkv ⟨t, c1, c2, c3, c4⟩
  obtain ⟨_, t', d1, d2, d3⟩ := only kv hkv c2
  have : t = t' := by
    obtain ⟨b, e1, e2⟩ := (buildBase_spec hw' hf t).2 c1
    obtain ⟨b', e1', e2'⟩ := (buildBase_spec hw' hf t').2 d1
    rw [e1] at e1'; injection e1' with e1'; subst e1'; rw [← e2, ← e2']
  subst this
  rw [hk _ _ d3] at c4; cases c4

/-! ### What a signature over a signature binds -/

/-- The component that is the signature, or the parameters, of label `a`. -/
def signatureOf (a : Str) : CId := ⟨.field (c! "signature"), [.key a]⟩
def inputOf (a : Str) : CId := ⟨.field (c! "signature-input"), [.key a]⟩

theorem value_entry {f a v : Str} (h : HasValue m rf ⟨.field f, [.key a]⟩ v) :
    ∃ (ts : List Str) (ds : List Dict), LineTexts (fieldLines m.headers f) ts ∧ List.Forall₂ (fun v d => parseDict v = some d) ts ds ∧
      parseList v = some (ds.filterMap (fun d => d.lookup a)) := by
  unfold HasValue at h
  rw [if_neg (by simp)] at h
  obtain ⟨ts, out, h1, h2, rfl⟩ := h
  cases h2 with
  | key h3 h4 =>
    cases h4
    obtain ⟨ds, h5, h6⟩ := members_read h3
    exact ⟨ts, ds, h1, h5, h6⟩

theorem lineTexts_unique {ls : List Bytes} {ts us : List Str} (h : LineTexts ls ts) (h' : LineTexts ls us) : ts = us := by
  have := (lineTexts_append (a := []) h us).1 h'
  obtain ⟨w, h1, rfl⟩ := this
  cases h1; rfl

theorem agree_signature {a b : Dict} {l : List (Str × SigHeaders)} (hA : Agree a b l) (ha : (a.map Prod.fst).Nodup) {k : Str} (s : Bytes) :
    (∃ sh, (k, sh) ∈ l ∧ sh.signature = s) ↔ ∃ ps, a.lookup k = some (.item ⟨.bytes s, ps⟩) := by
  constructor
  · rintro ⟨sh, h1, rfl⟩
    obtain ⟨_, ⟨ps, h2⟩, _⟩ := hA.pairing _ h1
    exact ⟨ps, by rw [← imGet_lookup]; exact imGet_of_mem ha h2⟩
  · rintro ⟨ps, h⟩
    have hm := imGet_mem (by rw [imGet_lookup]; exact h : imGet a k = _)
    have hk : k ∈ l.map Prod.fst := by rw [hA.order, ← hA.labels]; exact List.mem_map_of_mem (f := Prod.fst) hm
    obtain ⟨⟨k', sh⟩, h1, rfl⟩ := List.mem_map.1 hk
    obtain ⟨_, ⟨ps', h2⟩, _⟩ := hA.pairing _ h1
    have := imGet_of_mem ha h2
    rw [imGet_lookup, h] at this
    injection this with this
    injection this with this
    injection this with this
    injection this with this
    exact ⟨sh, h1, this.symm⟩

theorem agree_params {a b : Dict} {l : List (Str × SigHeaders)} (hA : Agree a b l) (hb : (b.map Prod.fst).Nodup) {k : Str} (p : SigParams) :
    (∃ sh, (k, sh) ∈ l ∧ sh.params = p) ↔ ∃ e, b.lookup k = some e ∧ SigParams.ofEntry e = .ok p := by
  constructor
  · rintro ⟨sh, h1, rfl⟩
    obtain ⟨_, _, e, h2, h3⟩ := hA.pairing _ h1
    exact ⟨e, by rw [← imGet_lookup]; exact imGet_of_mem hb h2, h3⟩
  · rintro ⟨e, h, h3⟩
    have hm := imGet_mem (by rw [imGet_lookup]; exact h : imGet b k = _)
    have hk : k ∈ l.map Prod.fst := by rw [hA.order]; exact List.mem_map_of_mem (f := Prod.fst) hm
    obtain ⟨⟨k', sh⟩, h1, rfl⟩ := List.mem_map.1 hk
    obtain ⟨_, _, e', h2, h4⟩ := hA.pairing _ h1
    have := imGet_of_mem hb h2
    rw [imGet_lookup, h] at this
    injection this with this; subst this
    rw [h3] at h4; injection h4 with h4
    exact ⟨sh, h1, h4.symm⟩

/-- The value of the component says what the signature with that label is, if there is one. -/
theorem signature_read {l : List (Str × SigHeaders)} (hl : HasSignatures m.headers l) {a v : Str} (h : HasValue m rf (signatureOf a) v) :
    ∃ es, parseList v = some es ∧ ∀ s, (∃ sh, (a, sh) ∈ l ∧ sh.signature = s) ↔ ∃ ps, es.getLast? = some (.item ⟨.bytes s, ps⟩) := by
  obtain ⟨ts, ds, h1, h2, h3⟩ := value_entry h
  refine ⟨_, h3, ?_⟩
  intro s
  rcases hl with ⟨_, e2, rfl⟩ | ⟨hc, _⟩
  · rw [e2] at h1; cases h1; cases h2; simp
  · obtain ⟨ti, us, da, db, c1, c2, c3, c4, c5, c6, hA⟩ := hc
    have := lineTexts_unique c2 h1; subst this
    rw [agree_signature hA (parseDict_legal c5).1, lookup_joined h2 c4 c5]

theorem input_read {l : List (Str × SigHeaders)} (hl : HasSignatures m.headers l) {a v : Str} (h : HasValue m rf (inputOf a) v) :
    ∃ es, parseList v = some es ∧ ∀ p, (∃ sh, (a, sh) ∈ l ∧ sh.params = p) ↔ ∃ e, es.getLast? = some e ∧ SigParams.ofEntry e = .ok p := by
  obtain ⟨ts, ds, h1, h2, h3⟩ := value_entry h
  refine ⟨_, h3, ?_⟩
  intro p
  rcases hl with ⟨e1, _, rfl⟩ | ⟨hc, _⟩
  · rw [e1] at h1; cases h1; cases h2; simp
  · obtain ⟨ti, us, da, db, c1, c2, c3, c4, c5, c6, hA⟩ := hc
    have := lineTexts_unique c1 h1; subst this
    rw [agree_params hA (parseDict_legal c6).1, lookup_joined h2 c3 c6]

/-- C79: two messages with the same value of `"signature";key="a"` carry the same signature with label `a`, or both carry none. -/
theorem C79_binds_signature {m' : Msg} {rf' : Option Request} {l l' : List (Str × SigHeaders)} (hl : HasSignatures m.headers l)
    (hl' : HasSignatures m'.headers l') {a v : Str} (h : HasValue m rf (signatureOf a) v) (h' : HasValue m' rf' (signatureOf a) v) (s : Bytes) :
    (∃ sh, (a, sh) ∈ l ∧ sh.signature = s) ↔ ∃ sh, (a, sh) ∈ l' ∧ sh.signature = s := by
  obtain ⟨es, e1, e2⟩ := signature_read hl h
  obtain ⟨es', e1', e2'⟩ := signature_read hl' h'
  rw [e1] at e1'; injection e1' with e1'; subst e1'
  rw [e2, e2']

/-- C79: two messages with the same value of `"signature-input";key="a"` carry the same parameters with label `a`, or both carry none. -/
theorem C79_binds_params {m' : Msg} {rf' : Option Request} {l l' : List (Str × SigHeaders)} (hl : HasSignatures m.headers l)
    (hl' : HasSignatures m'.headers l') {a v : Str} (h : HasValue m rf (inputOf a) v) (h' : HasValue m' rf' (inputOf a) v) (p : SigParams) :
    (∃ sh, (a, sh) ∈ l ∧ sh.params = p) ↔ ∃ sh, (a, sh) ∈ l' ∧ sh.params = p := by
  obtain ⟨es, e1, e2⟩ := input_read hl h
  obtain ⟨es', e1', e2'⟩ := input_read hl' h'
  rw [e1] at e1'; injection e1' with e1'; subst e1'
  rw [e2, e2']

/-- C79, for a key with which only the signings in `S` were made: an accepted message whose signature covers the signature and the
parameters of label `a` carries with that label exactly what the signed message carried. -/
theorem C79_bound {vk : VerifyingKey} {S : Signing → Prop} (hS : OnlySigned vk S) (hwf : ∀ x, S x → x.Wf ∧ SafeParams x.p)
    (hm : WfMsg m) (hf : ∀ r, rf = some r → WfRequest r) (hsafe : ∀ l, Carries m.headers l → ∀ kv ∈ l, SafeParams kv.2.params)
    {id : Option Str} {n : Str} (h : verifySignature now m vk id rf = .ok n) :
    ∃ l sh x, Carries m.headers l ∧ (n, sh) ∈ l ∧ S x ∧ x.p = sh.params ∧
      ∀ a, signatureOf a ∈ sh.params.covered → inputOf a ∈ sh.params.covered → ∀ lx, HasSignatures x.m.headers lx →
        ∀ y : SigHeaders, (a, y) ∈ l ↔ (a, y) ∈ lx := by
  obtain ⟨l, sh, h1, h2, x, hx, e, hv⟩ := C09_safe hS hwf hm hf hsafe h
  refine ⟨l, sh, x, h1, h2, hx, e, ?_⟩
  intro a ha hi lx hlx y
  have hl : HasSignatures m.headers l := Or.inr ⟨h1, by rintro rfl; cases h2⟩
  obtain ⟨v, v1, v2⟩ := hv _ ha
  obtain ⟨w, w1, w2⟩ := hv _ hi
  have hs := C79_binds_signature hl hlx v1 v2
  have hp := C79_binds_params hl hlx w1 w2
  have names : ∀ {l : List (Str × SigHeaders)} {h : Headers}, HasSignatures h l → (l.map Prod.fst).Nodup ∧ ∀ kv ∈ l, kv.2.name = kv.1 := by
    intro l h hl
    rcases hl with ⟨_, _, rfl⟩ | ⟨hc, _⟩
    · simp
    · refine ⟨carries_nodup hc, ?_⟩
      obtain ⟨_, _, _, _, _, _, _, _, _, _, hA⟩ := hc
      exact fun kv hkv => (hA.pairing kv hkv).1
  have one : ∀ {l l' : List (Str × SigHeaders)} {h h' : Headers}, HasSignatures h l → HasSignatures h' l' →
      (∀ s, (∃ sh, (a, sh) ∈ l ∧ sh.signature = s) → ∃ sh, (a, sh) ∈ l' ∧ sh.signature = s) →
      (∀ p, (∃ sh, (a, sh) ∈ l ∧ sh.params = p) → ∃ sh, (a, sh) ∈ l' ∧ sh.params = p) → (a, y) ∈ l → (a, y) ∈ l' := by
    intro l l' h h' hl hl' hs hp hy
    obtain ⟨y1, i1, e1⟩ := hs _ ⟨y, hy, rfl⟩
    obtain ⟨y2, i2, e2⟩ := hp _ ⟨y, hy, rfl⟩
    have := inj_of_nodup_map (names hl').1 i1 i2 rfl
    injection this with _ this
    subst this
    have n1 := (names hl').2 _ i1
    have n2 := (names hl).2 _ hy
    have : y1 = y := by
      cases y; cases y1; simp_all
    rw [← this]; exact i1
  exact ⟨one hl hlx (fun s => (hs s).1) (fun p => (hp p).1), one hlx hl (fun s => (hs s).2) (fun p => (hp p).2)⟩

end

/-! ### Example: a client signs, then a proxy signs the client's signature -/

def c79First : SigParams := wParams (c! "k1") [⟨.field (c! "date"), []⟩, ⟨.derived .method, []⟩]
def c79Second : SigParams := wParams (c! "k2") [signatureOf (c! "a"), inputOf (c! "a"), ⟨.field (c! "date"), []⟩]
def c79Signers : List Signer := [(c79First, toySign 7, some (c! "a")), (c79Second, toySign 9, some (c! "b"))]

theorem c79_safe : ∀ x ∈ c79Signers, SafeParams x.1 ∧ LegalKey x.label := by
  intro x hx
  simp only [c79Signers, List.mem_cons, List.not_mem_nil, or_false] at hx
  rcases hx with rfl | rfl
  · exact ⟨wParams_safe (by decide), by decide⟩
  · refine ⟨?_, by decide⟩
    exact {
      created := by intro t h; injection h with h; subst h; decide
      expires := by intro t h; injection h with h; subst h; decide
      nonce := by intro t h; cases h
      alg := by intro t h; cases h
      keyid := by intro t h; injection h with h; subst h; decide
      tag := by intro t h; cases h
      ids := by
        intro i hi
        simp only [c79Second, signatureOf, inputOf, wParams, List.mem_cons, List.not_mem_nil, or_false] at hi
        rcases hi with rfl | rfl | rfl
        · exact ⟨⟨by simp, by simp, by simp, by intro f h; injection h with h; subst h; decide⟩,
            (by intro f h; injection h with h; subst h; decide), by simp; decide, by simp⟩
        · exact ⟨⟨by simp, by simp, by simp, by intro f h; injection h with h; subst h; decide⟩,
            (by intro f h; injection h with h; subst h; decide), by simp; decide, by simp⟩
        · exact ⟨⟨by simp, by simp, by simp, by intro f h; injection h with h; subst h; decide⟩,
            (by intro f h; injection h with h; subst h; decide), by simp, by simp⟩
      distinct := by simp [c79Second, signatureOf, inputOf, wParams, SameId] }

theorem c79_chained : Chained c79Signers := by
  refine ⟨?_, ?_, trivial⟩
  · intro i hi
    simp only [c79First, wParams, List.mem_cons, List.not_mem_nil, or_false] at hi
    rcases hi with rfl | rfl
    · right; exact ⟨by simp, by intro f h; injection h with h; subst h; intro h; exact absurd h (by decide)⟩
    · right; exact ⟨by simp, by intro f h; cases h⟩
  · intro i hi
    simp only [c79Second, signatureOf, inputOf, wParams, List.mem_cons, List.not_mem_nil, or_false] at hi
    rcases hi with rfl | rfl | rfl
    · right; exact ⟨by simp, fun _ _ _ => ⟨_, _, rfl, by decide⟩⟩
    · right; exact ⟨by simp, fun _ _ _ => ⟨_, _, rfl, by decide⟩⟩
    · right; exact ⟨by simp, by intro f h; injection h with h; subst h; intro h; exact absurd h (by decide)⟩

set_option maxRecDepth 20000 in
/-- Both signatures verify in the end, each with its key. -/
example : ∃ h', signEach (.req exReq) none c79Signers = (h', .ok ()) ∧
    verifySignature 100 (.req { exReq with headers := h' }) (toyVerify 7) (some (c! "k1")) none = .ok (c! "a") ∧
    verifySignature 100 (.req { exReq with headers := h' }) (toyVerify 9) (some (c! "k2")) none = .ok (c! "b") := by
  have hs : (signEach (.req exReq) none c79Signers).2 = .ok () := by decide +kernel
  refine ⟨(signEach (.req exReq) none c79Signers).1, Prod.ext rfl hs, ?_, ?_⟩
  · exact C79_verify (m := .req exReq) (rf := none) (l0 := []) exReq_wf (by simp) (Or.inl ⟨by decide, by decide, rfl⟩) c79_safe c79_chained
      (by decide) (Prod.ext rfl hs) (x := (c79First, toySign 7, some (c! "a"))) (by simp [c79Signers]) (toy_pair 7)
      (by intro e h; injection h with h; subst h; decide) rfl (by simp)
      (by intro y hy hk; simp only [c79Signers, List.mem_cons, List.not_mem_nil, or_false] at hy; rcases hy with rfl | rfl; · rfl
          · exact absurd hk (by decide))
  · exact C79_verify (m := .req exReq) (rf := none) (l0 := []) exReq_wf (by simp) (Or.inl ⟨by decide, by decide, rfl⟩) c79_safe c79_chained
      (by decide) (Prod.ext rfl hs) (x := (c79Second, toySign 9, some (c! "b"))) (by simp [c79Signers]) (toy_pair 9)
      (by intro e h; injection h with h; subst h; decide) rfl (by simp)
      (by intro y hy hk; simp only [c79Signers, List.mem_cons, List.not_mem_nil, or_false] at hy; rcases hy with rfl | rfl
          · exact absurd hk (by decide)
          · rfl)

/-- The message after the first signer and after both. -/
def c79One : Request := { exReq with headers := (signEach (.req exReq) none (c79Signers.take 1)).1 }
def c79Two : Request := { exReq with headers := (signEach (.req exReq) none c79Signers).1 }
/-- The base that the second signer signs. -/
def c79Base : Str := match buildBase (.req c79One) c79Second none with
  | .ok b => b.disp
  | _ => []

#guard c79Base = c! "\"signature\";key=\"a\": :ZAc=:\n\"signature-input\";key=\"a\": (\"date\" \"@method\");created=5;expires=100;keyid=\"k1\"\n\"date\": Tue\n\"@signature-params\": (\"signature\";key=\"a\" \"signature-input\";key=\"a\" \"date\");created=5;expires=100;keyid=\"k2\""

theorem c79_headers (l : List Signer) (hl : ∀ x ∈ l, x ∈ c79Signers) (hc : Chained l) (hok : (signEach (.req exReq) none l).2 = .ok ()) :
    WfHeaders (signEach (.req exReq) none l).1 := by
  obtain ⟨hs, h1, _⟩ := chain_lines (m := .req exReq) (rf := none) exReq_wf (by simp) (l := l) (fun x hx => c79_safe x (hl x hx)) hc (Prod.ext rfl hok)
  exact Eq.mpr (congrArg WfHeaders h1) (wf_sigLines exReq_wf hs)

theorem c79One_wf : WfHeaders c79One.headers :=
  c79_headers [(c79First, toySign 7, some (c! "a"))] (by simp [c79Signers])
    ⟨by
      intro i hi
      simp only [c79First, wParams, List.mem_cons, List.not_mem_nil, or_false] at hi
      rcases hi with rfl | rfl
      · right; exact ⟨by simp, by intro f h; injection h with h; subst h; intro h; exact absurd h (by decide)⟩
      · right; exact ⟨by simp, by intro f h; cases h⟩, trivial⟩ (by decide +kernel)

theorem c79_ok : (signEach (.req exReq) none c79Signers).2 = .ok () := by decide +kernel

theorem c79Two_wf : WfHeaders c79Two.headers := by
  have h : ∀ l : List Signer, l = c79Signers → (signEach (.req exReq) none l).2 = .ok () → WfHeaders (signEach (.req exReq) none l).1 := by
    intro l e h
    refine c79_headers l ?_ ?_ h
    · rw [e]; exact fun _ h => h
    · rw [e]; exact c79_chained
  have := h c79Signers rfl c79_ok
  dsimp only [c79Two]
  exact this

set_option maxRecDepth 20000 in
/-- The hypotheses of `C79_bound` can be met: a key that accepts only what the second signer signed accepts the final message, so this
carries with label `a` what the message of that moment carried. -/
example : OnlySigned (onlyKey c79Base) (· = ⟨.req c79One, none, c79Second⟩) ∧
    verifySignature 100 (.req c79Two) (onlyKey c79Base) none none = .ok (c! "b") ∧
    ∃ l sh, Carries c79Two.headers l ∧ (c! "b", sh) ∈ l ∧
      ∀ lx, HasSignatures c79One.headers lx → ∀ y : SigHeaders, (c! "a", y) ∈ l ↔ (c! "a", y) ∈ lx := by
  have hv : verifySignature 100 (.req c79Two) (onlyKey c79Base) none none = .ok (c! "b") := by decide +kernel
  have hb : ∃ b, buildBase (.req c79One) c79Second none = .ok b ∧ b.disp = c79Base := by
    have : (match buildBase (.req c79One) c79Second none with | .ok _ => true | _ => false) = true := by decide +kernel
    unfold c79Base
    cases h : buildBase (.req c79One) c79Second none with
    | ok b => exact ⟨b, rfl, rfl⟩
    | err e => rw [h] at this; cases this
    | panic => rw [h] at this; cases this
  have hS : OnlySigned (onlyKey c79Base) (· = ⟨.req c79One, none, c79Second⟩) :=
    onlyKey_spec (x := ⟨.req c79One, none, c79Second⟩) ((buildBase_spec (m := .req c79One) c79One_wf (by simp) c79Base).1 hb)
  have safe2 : SafeParams c79Second := (c79_safe (c79Second, toySign 9, some (c! "b")) (by simp [c79Signers])).1
  refine ⟨hS, hv, ?_⟩
  obtain ⟨hs, h1, h2, h3⟩ := C79_chain (m := .req exReq) (rf := none) (l0 := []) exReq_wf (by simp) (Or.inl ⟨by decide, by decide, rfl⟩)
    (l := c79Signers) (by simp [c79Signers]) c79_safe c79_chained (by decide) (Prod.ext rfl c79_ok)
  have hsafe : ∀ l, Carries c79Two.headers l → ∀ kv ∈ l, SafeParams kv.2.params := by
    intro l hl kv hkv
    rw [carries_unique c79Two_wf hl h2, List.nil_append] at hkv
    obtain ⟨sh, hsh, rfl⟩ := List.mem_map.1 hkv
    exact (signed_safe h1 c79_safe sh hsh).params
  obtain ⟨l, sh, x, a1, a2, rfl, a4, a5⟩ := C79_bound (m := .req c79Two) (rf := none) hS
    (by rintro x rfl; exact ⟨⟨exWf _ c79One_wf, (by intro r h; cases h), safe_one_line safe2⟩, safe2⟩)
    (exWf _ c79Two_wf) (by intro r h; cases h) hsafe hv
  refine ⟨l, sh, a1, a2, ?_⟩
  refine a5 (c! "a") ?_ ?_ <;> rw [← a4] <;> simp [c79Second, wParams]

end Verif
