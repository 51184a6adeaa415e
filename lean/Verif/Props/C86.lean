import Verif.Spec.Lines
import Verif.Proofs.FailureRead
import Verif.Props.C58
import Verif.Props.C01
import Verif.Props.C14
import Verif.Props.C39
import Verif.Props.C74
import Verif.Props.C08
/-!
C86 Signatures over lines given by the caller: `HttpMessageComponent::try_from(&str)`, `HttpSignatureBase::try_new`,
`build_signature_headers`, `verify_signature_headers`.
-/
namespace Verif
open Sfv Spec

/-! ### Reading lines -/

/-- C86: the lines that are read, and what is read. -/
theorem C86_line (s : Str) (c : Component) : Component.ofStr s = .ok c ↔ Wire.ComponentLine s c := by
  unfold Component.ofStr Wire.ComponentLine
  cases hs : splitOnce ':' s with
  | none =>
    have hn := splitOnce_none.1 hs
    constructor
    · intro h; cases h
    · rintro ⟨i, v, t, w, rfl, _⟩; simp at hn
  | some iv =>
    obtain ⟨i, v⟩ := iv
    obtain ⟨e1, e2⟩ := splitOnce_some hs
    simp only [contains_infix]
    constructor
    · intro h
      split at h
      · rename_i hc
        obtain ⟨id, h1, h2⟩ := Res.bind_eq_ok.1 h
        injection h2 with h2; subst h2
        exact ⟨i, v, trim i, trim v, e1, e2, trim_shape i, hc.1, hc.2, idText_iff.2 h1, trim_shape v, rfl⟩
      · cases h
    · rintro ⟨i', v', t, w, h1, h2, h3, h4, h5, h6, h7, h8⟩
      rw [h1, splitOnce_append _ h2] at hs
      injection hs with hs; injection hs with ea eb
      subst ea eb
      rw [trimmed_iff.1 h3] at h4 h5 h6
      rw [if_pos ⟨h4, h5⟩, idText_iff.1 h6]
      obtain ⟨cid, cv⟩ := c
      simp only at h8
      rw [Res.bind_ok, h8, trimmed_iff.1 h7]

/-! ### The text that is signed -/

/-- C86: the text signed for lines that match the parameters. -/
theorem C86_text {cs : List Component} {p : SigParams} {b : SigBase} (h : SigBase.tryNew cs p = .ok b) :
    b.bytes = utf8 (Wire.linesText cs p) := by
  unfold SigBase.tryNew at h
  split at h
  · cases h
  split at h
  · cases h
  injection h with h; subst h
  unfold SigBase.bytes SigBase.disp Wire.linesText
  congr 1
  rw [C58_params_text, List.append_assoc]
  congr 1
  rw [List.flatMap_def]
  congr 1
  refine List.map_congr_left (fun c _ => ?_)
  unfold Wire.componentText Component.disp
  rw [← C58_id_text]
  cases c.value <;> simp [CValue.disp, Wire.valueText]

/-! ### Signing and verifying -/

theorem line_nodup {t : Str} {c : Component} (h : Wire.ComponentLine t c) : c.id.params.Nodup := by
  obtain ⟨_, _, _, _, _, _, _, _, _, hi, _⟩ := h
  exact labels_nodup (ofStr_rules (idText_iff.1 hi)).distinct

/-- C86: lines read from text that match the parameters, signed with one key of a pair, give two header values. The values are
read back as the one signature, and whoever has the same lines accepts it with the other key until it expires. -/
theorem C86_round_trip {ts : List Str} {cs : List Component} {p : SigParams} {b : SigBase} {name : Option Str}
    {sk : SigningKey} {vk : VerifyingKey} {h : SigHeaders} (hl : List.Forall₂ Wire.ComponentLine ts cs)
    (hb : SigBase.tryNew cs p = .ok b) (hp : SafeParams p) (hn : LegalKey (name.getD (c! "sig"))) (hk : KeyPair sk vk)
    (hs : b.headers sk name = .ok h) :
    SigHeaders.tryParse h.signatureValue h.inputValue = .ok [(name.getD (c! "sig"), h)] ∧ h.params = p ∧
    ∀ cs', List.Forall₂ (fun t c => Component.ofStr t = .ok c) ts cs' → ∃ b', SigBase.tryNew cs' h.params = .ok b' ∧
      ∀ now, (∀ e, p.expires = some e → now ≤ e) → b'.verify now vk h = .ok () := by
  obtain ⟨h1, h2, h3⟩ := headers_ok.1 hs
  have hbp : b = ⟨cs, p⟩ := by
    unfold SigBase.tryNew at hb
    split at hb
    · cases hb
    split at hb
    · cases hb
    injection hb with hb; exact hb.symm
  have h2 : h.params = p := by rw [h2, hbp]
  refine ⟨?_, h2, ?_⟩
  · have := tryParse_members (hs := [h]) (by simpa using ⟨by rw [h1]; exact hn, by rw [h2]; exact hp⟩) (by simp)
    simpa [join, h1] using this
  · intro cs' hcs
    have e : cs' = cs := by
      clear hb hbp hs h3
      induction hl generalizing cs' with
      | nil => cases hcs; rfl
      | cons hx _ ih =>
        cases hcs with
        | cons hy hcs =>
          rw [(C86_line _ _).2 hx] at hy
          injection hy with hy
          rw [ih _ hcs, hy]
    subst e
    refine ⟨b, by rw [h2]; exact hb, fun now ht => ?_⟩
    have hx : h.params.isExpired now = false := isExpired_false.2 (by
      intro e he; rw [h2] at he; exact ht e he)
    unfold SigBase.verify
    rw [hx]
    exact hk _ _ h3

/-- C86: lines that match are always turned into a base, so whether signing succeeds is up to the key. -/
theorem C86_builds {ts : List Str} {cs : List Component} {p : SigParams} (hl : List.Forall₂ Wire.ComponentLine ts cs) :
    (∃ b, SigBase.tryNew cs p = .ok b) ↔ List.Forall₂ (fun c i => SameId c.id i) cs p.covered := by
  have hset : ∀ c ∈ cs, c.id.params.Nodup := by
    intro c hc
    obtain ⟨t, _, ht⟩ := forall₂_mem_right hl c hc
    exact line_nodup ht
  rw [← C37_try_new cs p hset]
  constructor
  · rintro ⟨b, hb⟩
    have : b = ⟨cs, p⟩ := by
      unfold SigBase.tryNew at hb
      split at hb
      · cases hb
      split at hb
      · cases hb
      injection hb with hb; exact hb.symm
    rw [← this]; exact hb
  · intro h; exact ⟨_, h⟩

/-! ### What the text binds -/

theorem splitOn_lines (ls : List Str) (z : Str) (h : ∀ l ∈ ls, OneLine l) (hz : OneLine z) :
    splitOn '\n' ((ls.map fun l => l ++ c! "\n").flatten ++ z) = ls ++ [z] := by
  induction ls with
  | nil => simpa using splitOn_no _ hz
  | cons a t ih =>
    have : ((a :: t).map fun l => l ++ c! "\n").flatten ++ z = a ++ '\n' :: ((t.map fun l => l ++ c! "\n").flatten ++ z) := by simp
    rw [this, splitOn_append _ _ (h a (by simp)), ih (fun l hl => h l (by simp [hl]))]
    rfl

theorem sameId_length {i j : CId} (h : SameId i j) : (idText i).length = (idText j).length := by
  unfold idText
  rw [h.1, List.length_append, List.length_append, ((h.2.map paramText).flatten).length_eq]

theorem sameId_oneLine {i j : CId} (h : SameId i j) (hj : SafeId j) : OneLine (idText i) := by
  have t : ∀ {s : Str}, SafeText s → OneLine s := fun hs => printable_oneLine (safe_printable hs)
  rw [← C58_id_text]
  exact id_disp_oneLine ⟨fun f hx => t (hj.nameText f (by rw [← h.1]; exact hx)), fun f hx => t (hj.keyText f (h.2.mem_iff.1 hx)),
    fun f hx => t (hj.nameParam f (h.2.mem_iff.1 hx))⟩

theorem safe_params_oneLine {p : SigParams} (hp : SafeParams p) : OneLine (paramsText p) := by
  have t : ∀ {s : Str}, SafeText s → OneLine s := fun hs => printable_oneLine (safe_printable hs)
  rw [← C58_params_text]
  exact params_disp_oneLine ⟨fun s hs => t (hp.nonce s hs), fun s hs => t (hp.alg s hs), fun s hs => t (hp.keyid s hs),
    fun s hs => t (hp.tag s hs), fun i hi => ⟨fun f hx => t ((hp.ids i hi).nameText f hx), fun f hx => t ((hp.ids i hi).keyText f hx),
      fun f hx => t ((hp.ids i hi).nameParam f hx)⟩⟩

theorem splitOn_linesText {cs : List Component} {p : SigParams} (hp : SafeParams p)
    (hm : List.Forall₂ (fun c i => SameId c.id i) cs p.covered) (hv : ∀ c ∈ cs, OneLine (Wire.valueText c.value)) :
    splitOn '\n' (Wire.linesText cs p) = cs.map Wire.componentText ++ [c! "\"@signature-params\": " ++ paramsText p] := by
  have := splitOn_lines (cs.map Wire.componentText) (c! "\"@signature-params\": " ++ paramsText p) (by
    intro l hl
    obtain ⟨c, hc, rfl⟩ := List.mem_map.1 hl
    obtain ⟨i, hi, hci⟩ := forall₂_mem_left hm c hc
    exact oneLine_append (oneLine_append (sameId_oneLine hci (hp.ids i hi)) (by decide)) (hv c hc))
    (oneLine_append (by decide) (safe_params_oneLine hp))
  rw [List.map_map] at this
  rw [← this]
  unfold Wire.linesText
  rw [List.append_assoc]
  rfl

/-- C86: if no value has a line break, the text determines the parameters and, line by line, identifier text and value. -/
theorem C86_binds {cs cs' : List Component} {p p' : SigParams} {b b' : SigBase}
    (hset : ∀ c ∈ cs, c.id.params.Nodup) (hset' : ∀ c ∈ cs', c.id.params.Nodup) (hp : SafeParams p) (hp' : SafeParams p')
    (hv : ∀ c ∈ cs, OneLine (Wire.valueText c.value)) (hv' : ∀ c ∈ cs', OneLine (Wire.valueText c.value))
    (hb : SigBase.tryNew cs p = .ok b) (hb' : SigBase.tryNew cs' p' = .ok b') (e : b.bytes = b'.bytes) :
    p = p' ∧ List.Forall₂ (fun c c' => idText c.id = idText c'.id ∧ Wire.valueText c.value = Wire.valueText c'.value) cs cs' := by
  have m : ∀ {cs : List Component} {p : SigParams} {b : SigBase}, (∀ c ∈ cs, c.id.params.Nodup) → SigBase.tryNew cs p = .ok b →
      List.Forall₂ (fun c i => SameId c.id i) cs p.covered := by
    intro cs p b hset hb
    rw [← C37_try_new cs p hset]
    have : b = ⟨cs, p⟩ := by
      unfold SigBase.tryNew at hb
      split at hb
      · cases hb
      split at hb
      · cases hb
      injection hb with hb; exact hb.symm
    rw [← this]; exact hb
  have hm := m hset hb
  have hm' := m hset' hb'
  rw [C86_text hb, C86_text hb'] at e
  replace e := congrArg (splitOn '\n') (utf8_inj e)
  rw [splitOn_linesText hp hm hv, splitOn_linesText hp' hm' hv'] at e
  obtain ⟨e1, e2⟩ := List.append_inj' e rfl
  have hpp : p = p' := by
    apply C05_params_text_injective p p' hp hp'
    rw [C58_params_text, C58_params_text]
    simpa using e2
  refine ⟨hpp, ?_⟩
  subst hpp
  clear e e2 hb hb' m hp hp' hv hv' hset hset'
  generalize p.covered = is at hm hm'
  induction hm generalizing cs' with
  | nil =>
    cases hm'; exact .nil
  | cons hx _ ih =>
    cases hm' with
    | cons hy hm' =>
      rw [List.map_cons, List.map_cons] at e1
      injection e1 with e1 e3
      refine .cons ?_ (ih e3 hm')
      unfold Wire.componentText at e1
      rw [List.append_assoc, List.append_assoc] at e1
      obtain ⟨e4, e5⟩ := List.append_inj e1 (by rw [sameId_length hx, sameId_length hy])
      exact ⟨e4, List.append_cancel_left e5⟩

/-- C86: nothing else is bound. A value with a line break followed by what looks like the next line can be cut at another place:
the two lists of lines have the same text. -/
theorem C86_break (pre post : List Component) (i j : CId) (a b c : Str) (p : SigParams) :
    Wire.linesText (pre ++ ⟨i, .plain (a ++ c! "\n" ++ idText j ++ c! ": " ++ b)⟩ :: ⟨j, .plain c⟩ :: post) p =
      Wire.linesText (pre ++ ⟨i, .plain a⟩ :: ⟨j, .plain (b ++ c! "\n" ++ idText j ++ c! ": " ++ c)⟩ :: post) p := by
  simp [Wire.linesText, Wire.componentText, Wire.valueText]

/-! ### Expiry -/

/-- C86: what `verify_signature_headers` looks at: the text of the base, the signature and `expires` in the headers. The parameters
of the headers are not compared with those of the base. -/
theorem C86_verify (now : UInt64) (b : SigBase) (vk : VerifyingKey) (h : SigHeaders) :
    b.verify now vk h = .ok () ↔ (∀ e, h.params.expires = some e → now ≤ e) ∧ vk.verify b.bytes h.signature = .ok () := by
  unfold SigBase.verify
  have key := isExpired_false (now := now) (h := h)
  cases hx : h.params.isExpired now with
  | false =>
    have := key.1 hx
    simp only [Bool.false_eq_true, if_false]
    exact ⟨fun h => ⟨this, h⟩, fun h => h.2⟩
  | true =>
    simp only [if_true, reduceCtorEq, false_iff, not_and]
    intro h1
    have := key.2 h1
    rw [hx] at this; cases this

/-- C86: so a signature that was ever accepted is accepted at any time if `expires` is taken out of the headers that are handed in,
though the base still has it. -/
theorem C86_expiry_not_bound (now now' : UInt64) (b : SigBase) (vk : VerifyingKey) (h : SigHeaders) (hv : b.verify now vk h = .ok ()) :
    b.verify now' vk { h with params := { h.params with expires := none } } = .ok () := by
  rw [C86_verify] at *
  exact ⟨by simp, hv.2⟩

/-- C86: with the headers read from the values that go with the base, expiry is that of the signed parameters. -/
theorem C86_expiry (now : UInt64) (b : SigBase) (vk : VerifyingKey) (h : SigHeaders) (hp : h.params = b.params)
    (hv : b.verify now vk h = .ok ()) : ∀ e, b.params.expires = some e → now ≤ e := by
  rw [← hp]; exact ((C86_verify now b vk h).1 hv).1

/-! ### Examples -/

/-- Parameters that cover a date and a field with two parameters. -/
def c86Params : SigParams :=
  { created := some 1, expires := some 100, covered := [⟨.field (c! "date"), []⟩, ⟨.field (c! "a"), [.sf, .req]⟩] }

/-- Two lines for them. The second has the parameters in another order, and white space around identifier and value. -/
def c86Lines : List Str := [c! "\"date\": today: noon", c! " \"a\";req;sf :  1 "]

def c86Components : List Component :=
  [⟨⟨.field (c! "date"), []⟩, .plain (c! "today: noon")⟩, ⟨⟨.field (c! "a"), [.req, .sf]⟩, .plain (c! "1")⟩]

theorem c86_lines : List.Forall₂ Wire.ComponentLine c86Lines c86Components :=
  .cons ((C86_line _ _).1 (by decide +kernel)) (.cons ((C86_line _ _).1 (by decide +kernel)) .nil)

theorem c86_safe : SafeParams c86Params := (C74_params _).1 (by decide +kernel)

example : ∃ b h, SigBase.tryNew c86Components c86Params = .ok b ∧ b.headers (toySign 7) none = .ok h ∧
    SigHeaders.tryParse h.signatureValue h.inputValue = .ok [(c! "sig", h)] ∧ b.verify 50 (toyVerify 7) h = .ok () ∧
    b.verify 101 (toyVerify 7) h = .err .expiredSignatureParams ∧
    b.verify 101 (toyVerify 7) { h with params := { h.params with expires := none } } = .ok () := by
  refine ⟨⟨c86Components, c86Params⟩, ⟨c! "sig", _, c86Params⟩, by decide, rfl, ?_, ?_, ?_, ?_⟩
  · exact (C86_round_trip (name := none) c86_lines (by decide) c86_safe (by decide) (toy_pair 7) rfl).1
  all_goals decide +kernel

/-- C86: the parameters of an identifier in a line may come in another order than in the covered identifiers. The line is signed as
it is given, so the text has two spellings of one identifier, and it is not the text that anyone builds from a message with the
same parameters. -/
theorem C86_two_spellings : ∃ b, SigBase.tryNew c86Components c86Params = .ok b ∧
    b.bytes = utf8 (c! "\"date\": today: noon\n\"a\";req;sf: 1\n\"@signature-params\": (\"date\" \"a\";sf;req);created=1;expires=100") ∧
    ∀ m rf b', WfMsg m → (∀ r, rf = some r → WfRequest r) → buildBase m c86Params rf = .ok b' → b'.bytes ≠ b.bytes := by
  refine ⟨⟨c86Components, c86Params⟩, by decide, by decide +kernel, ?_⟩
  intro m rf b' hm hf hb e
  have hp : OneLineParams c86Params := by
    refine ⟨by simp [c86Params], by simp [c86Params], by simp [c86Params], by simp [c86Params], ?_⟩
    intro i hi
    obtain rfl | rfl : i = ⟨.field (c! "date"), []⟩ ∨ i = ⟨.field (c! "a"), [.sf, .req]⟩ := by simpa [c86Params] using hi
    · exact ⟨fun f h => by cases h; decide, by simp, by simp⟩
    · exact ⟨fun f h => by cases h; decide, by simp, by simp⟩
  obtain ⟨vs, h1, _, h3⟩ := C38_layout hm hf hp hb
  have e' : b'.disp = (SigBase.disp ⟨c86Components, c86Params⟩) := utf8_inj e
  have hs : splitOn '\n' (SigBase.disp ⟨c86Components, c86Params⟩) = [c! "\"date\": today: noon", c! "\"a\";req;sf: 1",
      c! "\"@signature-params\": (\"date\" \"a\";sf;req);created=1;expires=100"] := by decide +kernel
  rw [e', hs] at h3
  match vs, h1 with
  | [v, w], _ =>
    have : [c! "\"date\": today: noon", c! "\"a\";req;sf: 1"] = [c! "\"date\"" ++ c! ": " ++ v, c! "\"a\";sf;req" ++ c! ": " ++ w] :=
      (List.append_inj' (s₁ := [c! "\"date\": today: noon", c! "\"a\";req;sf: 1"])
        (t₁ := [c! "\"@signature-params\": (\"date\" \"a\";sf;req);created=1;expires=100"]) h3 rfl).1
    simp at this

/-- C86: the condition on line breaks is needed. Two lists of lines, all of them read from text, that match the same parameters but
say different things, have the same text: whatever a key makes of one, it makes of the other. -/
theorem C86_break_collides : ∃ (ts ts' : List Str) (cs cs' : List Component) (p : SigParams) (b b' : SigBase),
    List.Forall₂ Wire.ComponentLine ts cs ∧ List.Forall₂ Wire.ComponentLine ts' cs' ∧ SafeParams p ∧
    SigBase.tryNew cs p = .ok b ∧ SigBase.tryNew cs' p = .ok b' ∧ cs.map (·.value) ≠ cs'.map (·.value) ∧
    ∀ (now : UInt64) (vk : VerifyingKey) (h : SigHeaders), b.verify now vk h = b'.verify now vk h := by
  refine ⟨[c! "\"a\": 1\n\"b\": 2", c! "\"b\": 3"], [c! "\"a\": 1", c! "\"b\": 2\n\"b\": 3"],
    [⟨⟨.field (c! "a"), []⟩, .plain (c! "1\n\"b\": 2")⟩, ⟨⟨.field (c! "b"), []⟩, .plain (c! "3")⟩],
    [⟨⟨.field (c! "a"), []⟩, .plain (c! "1")⟩, ⟨⟨.field (c! "b"), []⟩, .plain (c! "2\n\"b\": 3")⟩],
    { covered := [⟨.field (c! "a"), []⟩, ⟨.field (c! "b"), []⟩] }, ⟨_, _⟩, ⟨_, _⟩, ?_, ?_, (C74_params _).1 (by decide +kernel), rfl, rfl, by decide, ?_⟩
  · exact .cons ((C86_line _ _).1 (by decide +kernel)) (.cons ((C86_line _ _).1 (by decide +kernel)) .nil)
  · exact .cons ((C86_line _ _).1 (by decide +kernel)) (.cons ((C86_line _ _).1 (by decide +kernel)) .nil)
  · intro now vk h
    unfold SigBase.verify
    have e : SigBase.bytes ⟨[⟨⟨.field (c! "a"), []⟩, .plain (c! "1\n\"b\": 2")⟩, ⟨⟨.field (c! "b"), []⟩, .plain (c! "3")⟩],
          { covered := [⟨.field (c! "a"), []⟩, ⟨.field (c! "b"), []⟩] }⟩ =
        SigBase.bytes ⟨[⟨⟨.field (c! "a"), []⟩, .plain (c! "1")⟩, ⟨⟨.field (c! "b"), []⟩, .plain (c! "2\n\"b\": 3")⟩],
          { covered := [⟨.field (c! "a"), []⟩, ⟨.field (c! "b"), []⟩] }⟩ := by decide +kernel
    rw [e]

-- lines without line breaks, to which `C86_binds` applies
example : ∀ c ∈ c86Components, OneLine (Wire.valueText c.value) := by decide
example : ∀ c ∈ c86Components, c.id.params.Nodup := by decide
-- no colon, no quotes, an unknown parameter
example : ∀ c, ¬ Wire.ComponentLine (c! "\"date\" today") c := fun c h => by
  have := (C86_line _ _).2 h
  rw [show Component.ofStr (c! "\"date\" today") = .err .invalidComponent from by decide] at this; cases this
example : ∀ c, ¬ Wire.ComponentLine (c! "date: today") c := fun c h => by
  have := (C86_line _ _).2 h
  rw [show Component.ofStr (c! "date: today") = .err .invalidComponentId from by decide] at this; cases this

end Verif
