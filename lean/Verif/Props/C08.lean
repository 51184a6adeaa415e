import Verif.Proofs.Base
import Verif.Props.C05
import Verif.Props.C22
/-!
C08 The signature base is unambiguous, C38 layout of the signature base.
-/
namespace Verif
open Sfv Spec

/-! ### C38 -/

/-- C38: the base consists of one line `id: value` per covered id, in order, and of the parameters line; splitting at line breaks
gives back exactly these lines. The values are those of the specification. -/
theorem C38_layout {m : Msg} {p : SigParams} {rf : Option Request} {b : SigBase} (hm : WfMsg m) (hf : ∀ r, rf = some r → WfRequest r)
    (hp : OneLineParams p) (h : buildBase m p rf = .ok b) :
    ∃ vs, List.Forall₂ (HasValue m rf) p.covered vs ∧
      b.bytes = utf8 (baseText p.covered vs p.disp) ∧
      splitOn '\n' b.disp = List.zipWith (fun i v => i.disp ++ c! ": " ++ v) p.covered vs ++ [c! "\"@signature-params\": " ++ p.disp] := by
  obtain ⟨vs, h1, h2⟩ := (buildBase_spec (WfMsg.wfHeaders hm) (fun r hr => (hf r hr).headers) b.disp).1 ⟨b, h, rfl⟩
  refine ⟨vs, h1, by unfold SigBase.bytes; rw [h2], ?_⟩
  rw [h2]
  refine splitOn_baseText _ _ _ h1.length_eq (fun i hi => id_disp_oneLine (hp.ids i hi)) ?_ (params_disp_oneLine hp)
  intro v hv
  obtain ⟨i, _, hx⟩ := forall₂_mem_right h1 v hv
  exact hasValue_oneLine hm hf hx

/-- C38: there is one line per covered id and one more, and the text does not end with a line break. -/
theorem C38_lines {m : Msg} {p : SigParams} {rf : Option Request} {b : SigBase} (hm : WfMsg m) (hf : ∀ r, rf = some r → WfRequest r)
    (hp : OneLineParams p) (h : buildBase m p rf = .ok b) :
    (splitOn '\n' b.disp).length = p.covered.length + 1 ∧ b.disp.getLast? ≠ some '\n' := by
  obtain ⟨vs, h1, h2, h3⟩ := C38_layout hm hf hp h
  refine ⟨by rw [h3]; simp [h1.length_eq], ?_⟩
  have e : b.disp = baseText p.covered vs p.disp := utf8_inj h2
  have hne : p.disp ≠ [] := by unfold SigParams.disp; simp
  intro hl
  rw [e] at hl
  unfold baseText at hl
  rw [List.getLast?_append_of_ne_nil _ hne] at hl
  exact params_disp_oneLine hp (List.mem_of_getLast? hl)

/-! ### C08 -/

/-- C08: two bases built from messages that are equal as bytes have the same identifier texts, the same values and the same
parameters text, position by position. The identifiers and parameters may contain quotes, colons, parentheses, anything but a line
break. -/
theorem C08_unambiguous {m m' : Msg} {p p' : SigParams} {rf rf' : Option Request} {b b' : SigBase}
    (hm : WfMsg m) (hm' : WfMsg m') (hf : ∀ r, rf = some r → WfRequest r) (hf' : ∀ r, rf' = some r → WfRequest r)
    (hp : OneLineParams p) (hp' : OneLineParams p')
    (h : buildBase m p rf = .ok b) (h' : buildBase m' p' rf' = .ok b') (e : b.bytes = b'.bytes) :
    p.covered.length = p'.covered.length ∧ p.covered.map CId.disp = p'.covered.map CId.disp ∧ p.disp = p'.disp ∧
    ∃ vs, List.Forall₂ (HasValue m rf) p.covered vs ∧ List.Forall₂ (HasValue m' rf') p'.covered vs := by
  obtain ⟨vs, h1, h2, h3⟩ := C38_layout hm hf hp h
  obtain ⟨vs', h1', h2', h3'⟩ := C38_layout hm' hf' hp' h'
  have e' : b.disp = b'.disp := utf8_inj e
  rw [e', h3'] at h3
  have h4 := List.append_inj' h3 rfl
  have h5 : p'.disp = p.disp := by
    have := h4.2
    simpa using this
  have h6 := h5
  unfold SigParams.disp at h6
  rw [joinIds_eq, joinIds_eq] at h6
  injection h6 with _ h6
  obtain ⟨h7, h8⟩ := zipWith_cancel _ _ _ _ _ _ h1'.length_eq h1.length_eq h4.1 h6
  subst h8
  refine ⟨?_, h7.symm, h5.symm, vs', h1, h1'⟩
  have := congrArg List.length h7
  simpa using this.symm

/-- C08: when the parameters can be written to a header (C05) they are the same, not only their text. -/
theorem C08_unambiguous_safe {m m' : Msg} {p p' : SigParams} {rf rf' : Option Request} {b b' : SigBase}
    (hm : WfMsg m) (hm' : WfMsg m') (hf : ∀ r, rf = some r → WfRequest r) (hf' : ∀ r, rf' = some r → WfRequest r)
    (hp : SafeParams p) (hp' : SafeParams p')
    (h : buildBase m p rf = .ok b) (h' : buildBase m' p' rf' = .ok b') (e : b.bytes = b'.bytes) :
    p = p' ∧ ∀ i ∈ p.covered, ∀ v, HasValue m rf i v ↔ HasValue m' rf' i v := by
  have one : ∀ {q : SigParams}, SafeParams q → OneLineParams q := by
    intro q hq
    have t : ∀ {s : Str}, SafeText s → OneLine s := fun hs => printable_oneLine (safe_printable hs)
    exact ⟨fun s hs => t (hq.nonce s hs), fun s hs => t (hq.alg s hs), fun s hs => t (hq.keyid s hs), fun s hs => t (hq.tag s hs),
      fun i hi => ⟨fun f hx => t ((hq.ids i hi).nameText f hx), fun f hx => t ((hq.ids i hi).keyText f hx),
        fun f hx => t ((hq.ids i hi).nameParam f hx)⟩⟩
  obtain ⟨_, _, h3, vs, h4, h5⟩ := C08_unambiguous hm hm' hf hf' (one hp) (one hp') h h' e
  have hpp := C05_params_text_injective p p' hp hp' h3
  refine ⟨hpp, ?_⟩
  subst hpp
  have u : ∀ {m : Msg} {rf : Option Request}, WfMsg m → (∀ r, rf = some r → WfRequest r) → ∀ {i v w}, HasValue m rf i v →
      HasValue m rf i w → v = w := by
    intro m rf hm hf i v w hv hw
    rw [← extracts_iff (WfMsg.wfHeaders hm) (fun r hr => (hf r hr).headers)] at hv hw
    exact extracts_unique hv hw
  have key : ∀ {l : List CId} {vs : List Str}, List.Forall₂ (HasValue m rf) l vs → List.Forall₂ (HasValue m' rf') l vs →
      ∀ i ∈ l, ∀ v, HasValue m rf i v ↔ HasValue m' rf' i v := by
    intro l vs h4 h5
    induction h4 with
    | nil => simp
    | cons hx _ ih =>
      cases h5 with
      | cons hy h5 =>
        intro i hi v
        rcases List.mem_cons.1 hi with rfl | hi
        · exact ⟨fun h => by rw [u hm hf h hx]; exact hy, fun h => by rw [u hm' hf' h hy]; exact hx⟩
        · exact ih h5 i hi v
  exact key h4 h5

/-- C08: the condition holds for everything read from a header: identifiers and parameters accepted by the parser are printable. -/
theorem C08_parsed_one_line (e : Entry) (he : LegalEntry e) (p : SigParams) (h : SigParams.ofEntry e = .ok p) : OneLineParams p := by
  obtain ⟨l, rfl, h1, _, h2⟩ := ofEntry_ok h
  have key : ∀ (ps : Params) (q r : SigParams), (∀ kv ∈ ps, LegalBare kv.2) →
      ((∀ s, q.nonce = some s → OneLine s) ∧ (∀ s, q.alg = some s → OneLine s) ∧ (∀ s, q.keyid = some s → OneLine s) ∧
        (∀ s, q.tag = some s → OneLine s)) → q.setKVs ps = .ok r →
      ((∀ s, r.nonce = some s → OneLine s) ∧ (∀ s, r.alg = some s → OneLine s) ∧ (∀ s, r.keyid = some s → OneLine s) ∧
        (∀ s, r.tag = some s → OneLine s)) := by
    intro ps
    induction ps with
    | nil => intro q r _ hq hr; injection hr with hr; subst hr; exact hq
    | cons kv t ih =>
      intro q r hl hq hr
      obtain ⟨q', h3, h4⟩ := Res.bind_eq_ok.1 hr
      refine ih q' r (fun x hx => hl x (by simp [hx])) ?_ h4
      have hs : ∀ s, asString kv.2 = some s → OneLine s := by
        intro s hs
        have hb := hl kv (by simp)
        cases hk : kv.2 <;> rw [hk] at hs hb <;> simp [asString] at hs
        subst hs
        exact printable_oneLine hb
      obtain ⟨q1, q2, q3, q4⟩ := hq
      unfold SigParams.setKV at h3
      split at h3
      · obtain ⟨x, _, h3⟩ := Res.bind_eq_ok.1 h3; injection h3 with h3; subst h3; exact ⟨q1, q2, q3, q4⟩
      split at h3
      · obtain ⟨x, _, h3⟩ := Res.bind_eq_ok.1 h3; injection h3 with h3; subst h3; exact ⟨q1, q2, q3, q4⟩
      split at h3
      · injection h3 with h3; subst h3; exact ⟨hs, q2, q3, q4⟩
      split at h3
      · injection h3 with h3; subst h3; exact ⟨q1, hs, q3, q4⟩
      split at h3
      · injection h3 with h3; subst h3; exact ⟨q1, q2, hs, q4⟩
      split at h3
      · injection h3 with h3; subst h3; exact ⟨q1, q2, q3, hs⟩
      · injection h3 with h3; subst h3; exact ⟨q1, q2, q3, q4⟩
  obtain ⟨a, b, c, d⟩ := key l.params _ p (fun kv hkv => (he.2.2 kv hkv).2) ⟨by simp, by simp, by simp, by simp⟩ h2
  refine ⟨a, b, c, d, ?_⟩
  intro i hi
  obtain ⟨it, _, hit⟩ := forall₂_mem_right h1 i hi
  obtain ⟨it', hl, ho⟩ := ofStr_item hit
  have hpr := ofItem_printable hl ho
  refine ⟨?_, ?_, ?_⟩
  · intro f hf; have := hpr.1; rw [hf] at this; exact printable_oneLine this
  · intro k hk; exact printable_oneLine (hpr.2 k (Or.inl hk))
  · intro n hn; exact printable_oneLine (hpr.2 n (Or.inr hn))

/-- C08: without the condition on line breaks it is false: a nonce with a line break can make the base look like one that covers
another component. -/
theorem C08_false_with_line_break : ∃ (m : Msg) (p p' : SigParams) (b b' : SigBase), WfMsg m ∧
    buildBase m p none = .ok b ∧ buildBase m p' none = .ok b' ∧ b.bytes = b'.bytes ∧ p.covered ≠ p'.covered ∧ p.covered = [] := by
  let m : Msg := .res ⟨200, [(c! "signature-input", utf8 (c! "sig=();nonce=\"q"))], .data []⟩
  let p : SigParams := { covered := [], nonce := some (c! "q\n\"@signature-params\": (\"@signature-params\");tag=\"z") }
  let p' : SigParams := { covered := [⟨.derived .signatureParams, []⟩], tag := some (c! "z") }
  refine ⟨m, p, p', ⟨[], p⟩, ⟨[⟨⟨.derived .signatureParams, []⟩, .keyValue (c! "sig") (c! "();nonce=\"q")⟩], p'⟩, ?_, ?_, ?_, ?_, ?_, rfl⟩
  · intro kv hkv
    rw [List.mem_singleton.1 hkv]
    exact ⟨by decide, by decide, by decide⟩
  · rfl
  · rfl
  · show utf8 _ = utf8 _
    congr 1
  · simp [p, p']

example : OneLineParams exampleParams := ⟨by intro s h; cases h; decide, by intro s h; cases h; decide, by intro s h; cases h; decide,
  by intro s h; cases h; decide, by
    intro i hi
    simp only [exampleParams, List.mem_cons, List.not_mem_nil, or_false] at hi
    rcases hi with rfl | rfl | rfl
    · exact ⟨by simp, by simp, by simp⟩
    · exact ⟨by intro f h; cases h; decide, by intro f h; simp at h; subst h; decide, by simp⟩
    · exact ⟨by simp, by simp, by intro f h; simp at h; subst h; decide⟩⟩

/-- An identifier that tries to look like several. -/
def oddId : CId := ⟨.field (c! "x\": (\"y\" \"z"), [.key (c! "\"):;")]⟩
theorem exReq_wfReq : WfRequest exReq := ⟨exReq_wf, by decide, ⟨by intro s h; cases h; decide, by intro s h; cases h; decide, by decide,
  by intro s h; cases h; decide⟩⟩

/-- The hypotheses of C08 and C38 with odd texts. -/
example : ∃ b, buildBase (.req exReq) (exParams [oddId, ⟨.derived .query, []⟩]) none = .ok b ∧
    WfMsg (.req exReq) ∧ OneLineParams (exParams [oddId, ⟨.derived .query, []⟩]) ∧
    splitOn '\n' b.disp = [oddId.disp ++ c! ": ", c! "\"@query\": ?x=1&y=2&x=3&z&=q&x",
      c! "\"@signature-params\": (" ++ oddId.disp ++ c! " \"@query\")"] := by
  refine ⟨⟨[⟨oddId, .plain []⟩, ⟨⟨.derived .query, []⟩, .plain (c! "?x=1&y=2&x=3&z&=q&x")⟩], _⟩, rfl, exReq_wfReq, ?_, ?_⟩
  · refine ⟨by simp [exParams], by simp [exParams], by simp [exParams], by simp [exParams], ?_⟩
    intro i hi
    simp only [exParams, List.mem_cons, List.not_mem_nil, or_false] at hi
    rcases hi with rfl | rfl
    · exact ⟨by intro f h; cases h; decide, by intro f h; simp [oddId] at h; subst h; decide, by simp [oddId]⟩
    · exact ⟨by simp, by simp, by simp⟩
  · decide

end Verif
