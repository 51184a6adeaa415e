import Verif.Proofs.Panic
import Verif.Props.C75
/-!
C113: where reading, signing and verifying panic, in the terms of the specification, and that the three specifications of results
(`Spec/Wire.lean`, `Spec/Failure.lean`, `Spec/Panic.lean`) leave exactly one result for every input.
-/
namespace Verif
open Sfv Spec Grammar

variable {m : Msg} {rf : Option Request}

/-! ### What panics -/

/-- C113: reading an identifier. -/
theorem C113_id (s : Str) : CId.ofStr s = .panic ↔ Wire.IdTextPanics s := idTextPanics_iff

/-- C113: reading a component line. -/
theorem C113_line (s : Str) : Component.ofStr s = .panic ↔ Wire.LinePanics s := linePanics_iff

/-- C113: reading signature parameters. -/
theorem C113_params (s : Str) : SigParams.ofStr s = .panic ↔ Wire.ParamsTextPanics s := paramsTextPanics_iff

/-- C113: reading the values of Signature and Signature-Input. -/
theorem C113_headers (s t : Str) : SigHeaders.tryParse s t = .panic ↔ Wire.HeadersPanic s t := headersPanic_iff

/-- C113: the operations that only look at the header lines of a message. -/
theorem C113_carries (hw : WfHeaders m.headers) :
    (extractSignatureHeaders m = .panic ↔ Wire.CarriesPanic m.headers) ∧
    (∀ rsa, getAlgKeyIds rsa m = .panic ↔ Wire.CarriesPanic m.headers) ∧
    (getSignatureParams m = .panic ↔ Wire.CarriesPanic m.headers) ∧
    ∀ rf, extractSignatures m rf = .panic ↔ Wire.CarriesPanic m.headers := by
  rw [← carriesPanic_iff hw]
  refine ⟨Iff.rfl, fun rsa => ?_, ?_, fun rf => ?_⟩
  · unfold getAlgKeyIds
    rw [Res.bind_eq_panic]; simp
  · unfold getSignatureParams
    rw [Res.bind_eq_panic]; simp
  · rw [extractSignatures_eq, Res.bind_eq_panic]; simp

/-- C113: verification with one key, for all readings of the clock. -/
theorem C113_verify (hw : WfHeaders m.headers) (hf : ∀ r, rf = some r → WfHeaders r.headers) (clk : Str → Option UInt64) (k : VerifyingKey)
    (id : Option Str) : verifySignatureClk clk m k id rf = .panic ↔ Wire.VerifyPanics clk m rf k id := verifyPanics_iff hw hf

/-- C113: the same with one reading of the clock. -/
theorem C113_verify_now (hw : WfHeaders m.headers) (hf : ∀ r, rf = some r → WfHeaders r.headers) (now : UInt64) (k : VerifyingKey)
    (id : Option Str) : verifySignature now m k id rf = .panic ↔ Wire.VerifyPanics (fun _ => some now) m rf k id := verifyPanics_now hw hf

/-- C113: verification with several keys: the header lines panic, which needs no key, or a key panics. -/
theorem C113_verify_batch (hw : WfHeaders m.headers) (hf : ∀ r, rf = some r → WfHeaders r.headers) (now : UInt64)
    (keys : List (VerifyingKey × Option Str)) : verifySignatures now m keys rf = .panic ↔
      Wire.CarriesPanic m.headers ∨ ∃ ki ∈ keys, Wire.VerifyPanics (fun _ => some now) m rf ki.1 ki.2 := by
  by_cases hk : keys = []
  · subst hk
    rw [verifySignatures_eq, Res.bind_eq_panic, carriesPanic_iff hw]
    simp [verifyInner, gather]
  · rw [C35_batch_panic keys hk]
    simp only [verifyPanics_now hw hf]
    refine ⟨Or.inr, ?_⟩
    rintro (h | h)
    · obtain ⟨ki, hki⟩ := List.exists_mem_of_ne_nil _ hk
      exact ⟨ki, hki, .carries h⟩
    · exact h

/-- C113: signing. -/
theorem C113_sign (hw : WfHeaders m.headers) (hf : ∀ r, rf = some r → WfHeaders r.headers)
    (l : List (SigParams × SigningKey × Option Str)) : (setSignatures m l rf).2 = .panic ↔ Wire.SigningPanics m rf l :=
  signingPanics_iff hw hf l

/-! ### One result for every input -/

/-- C113: every text is an identifier, or fails for one reason, or panics, and only one of these; the same of component lines, of
signature parameters, and of the values of the two fields. -/
theorem C113_texts_decided :
    (∀ s, Wire.Decided (Wire.IdText s) (Wire.IdTextFails s) (Wire.IdTextPanics s)) ∧
    (∀ s, Wire.Decided (Wire.ComponentLine s) (Wire.LineFails s) (Wire.LinePanics s)) ∧
    (∀ s, Wire.Decided (Wire.SigParamsText s) (Wire.ParamsTextFails s) (Wire.ParamsTextPanics s)) ∧
    ∀ s t, Wire.Decided (Wire.HeadersText s t) (Wire.HeadersFail s t) (Wire.HeadersPanic s t) :=
  ⟨fun s => decided_of _ (C65_id s) (C75_id s) (C113_id s), fun s => decided_of _ (C86_line s) (C75_line s) (C113_line s),
    fun s => decided_of _ (C65_params s) (C75_params s) (C113_params s),
    fun s t => decided_of _ (C65_headers s t) (C75_headers s t) (C113_headers s t)⟩

/-- C113: the header lines of every message. -/
theorem C113_carries_decided (hw : WfHeaders m.headers) :
    Wire.Decided (Wire.Carries m.headers) (Wire.CarriesFails m.headers) (Wire.CarriesPanic m.headers) :=
  decided_of _ (C65_carries hw) (fun e => (C75_carries hw e).1) (C113_carries hw).1

/-- C113: verification of every message with every key at every time. -/
theorem C113_verify_decided (hw : WfHeaders m.headers) (hf : ∀ r, rf = some r → WfHeaders r.headers) (now : UInt64) (k : VerifyingKey)
    (id : Option Str) : Wire.Decided (Wire.Verifies now m rf k id) (Wire.VerifyFails now m rf k id)
      (Wire.VerifyPanics (fun _ => some now) m rf k id) :=
  decided_of _ (fun n => C65_verify hw hf n) (fun e => C75_verify hw hf e) (C113_verify_now hw hf now k id)

/-- C113: signing of every message by all signers. -/
theorem C113_sign_decided (hw : WfHeaders m.headers) (hf : ∀ r, rf = some r → WfHeaders r.headers)
    (l : List (SigParams × SigningKey × Option Str)) :
    Wire.Decided (Wire.Signs m rf l) (Wire.SigningFails m rf l) (Wire.SigningPanics m rf l) := by
  refine decided_of (((setSignatures m l rf).2).bind (fun _ => .ok (setSignatures m l rf).1)) (fun h => ?_) (fun e => ?_) ?_
  · unfold Wire.Signs
    rw [← C65_sign hw hf]
    generalize setSignatures m l rf = x
    obtain ⟨h', r⟩ := x
    cases r <;> simp [Res.bind, Prod.ext_iff]
  · rw [← C75_sign hw hf]
    generalize (setSignatures m l rf).2 = x
    cases x <;> simp [Res.bind]
  · rw [← C113_sign hw hf]
    generalize (setSignatures m l rf).2 = x
    cases x <;> simp [Res.bind]

/-! ### Every message can be made to panic -/

/-- The two lines that are added: a signature of one octet, whose input covers a derived component that does not exist. -/
def poison (n : Str) : Headers :=
  [(c! "signature-input", utf8 (n ++ c! "=(\"@x\")")), (c! "signature", utf8 (n ++ c! "=:AA==:"))]

theorem imInsert_split {κ ν : Type} [DecidableEq κ] (l : List (κ × ν)) (k : κ) (v : ν) :
    ∃ a b, imInsert l k v = a ++ (k, v) :: b ∧ (∀ x ∈ a, x ∈ l) := by
  induction l with
  | nil => exact ⟨[], [], rfl, by simp⟩
  | cons x t ih =>
    obtain ⟨k1, v1⟩ := x
    simp only [imInsert]
    split
    · rename_i h; subst h; exact ⟨[], t, rfl, by simp⟩
    · obtain ⟨a, b, h1, h2⟩ := ih
      refine ⟨(k1, v1) :: a, b, by rw [h1]; rfl, ?_⟩
      intro x hx
      rcases List.mem_cons.1 hx with rfl | hx
      · simp
      · simp [h2 x hx]

theorem poison_inner : Wire.InnerPanics ⟨[⟨.str (c! "@x"), []⟩], []⟩ := by
  refine .name ⟨[], _, [], rfl, Or.inl ⟨_, rfl, rfl, fun d => ?_⟩, by simp⟩
  cases d <;> decide

/-- C113: somebody who can add two lines to a message makes the library panic on it, with whatever label they choose: to every message
without signatures, and to every message with signatures that can be read. -/
theorem C113_poison {n : Str} (hn : LegalKey n)
    (h : (Wire.linesOf m.headers (c! "signature-input") = [] ∧ Wire.linesOf m.headers (c! "signature") = []) ∨
      ∃ l, Wire.Carries m.headers l ∧ l ≠ []) : Wire.CarriesPanic (m.headers ++ poison n) := by
  have hle : LegalEntry (.inner ⟨[⟨.str (c! "@x"), []⟩], []⟩) :=
    ⟨by intro i hi; simp at hi; subst hi; exact ⟨show ∀ c ∈ c! "@x", Printable c by decide, by simp [LegalParams]⟩, by simp [LegalParams]⟩
  have hlb : LegalEntry (.item ⟨.bytes [0], []⟩) := ⟨trivial, by simp [LegalParams]⟩
  have ei : n ++ c! "=(\"@x\")" = serMember (n, .inner ⟨[⟨.str (c! "@x"), []⟩], []⟩) := rfl
  have es : n ++ c! "=:AA==:" = serMember (n, .item ⟨.bytes [0], []⟩) := rfl
  have pi : ∀ c ∈ n ++ c! "=(\"@x\")", Printable c := by rw [ei]; exact serMember_printable hn hle
  have ps : ∀ c ∈ n ++ c! "=:AA==:", Printable c := by rw [es]; exact serMember_printable hn hlb
  have fi : fieldLines (poison n) (c! "signature-input") = [utf8 (n ++ c! "=(\"@x\")")] := rfl
  have fs : fieldLines (poison n) (c! "signature") = [utf8 (n ++ c! "=:AA==:")] := rfl
  rcases h with ⟨h1, h2⟩ | ⟨l, ⟨ts, us, h1, h2, h3, h4, a, b, ha, hb, hA⟩, hne⟩
  · rw [linesOf_eq] at h1 h2
    refine ⟨[n ++ c! "=(\"@x\")"], [n ++ c! "=:AA==:"], ?_, ?_, by simp, by simp,
      [(n, .item ⟨.bytes [0], []⟩)], [(n, .inner ⟨[⟨.str (c! "@x"), []⟩], []⟩)], ?_, ?_, ?_, [], _, [], rfl, ⟨_, rfl, poison_inner⟩, by simp⟩
    · rw [linesText_iff, fieldLines_append, h1, fi]; exact .cons (hvToStr_utf8 pi) .nil
    · rw [linesText_iff, fieldLines_append, h2, fs]; exact .cons (hvToStr_utf8 ps) .nil
    · rw [commas_eq, ← C63_dict]
      exact parseDict_members (l := [(n, .item ⟨.bytes [0], []⟩)]) (by simp [hn, hlb])
    · rw [commas_eq, ← C63_dict]
      exact parseDict_members (l := [(n, .inner ⟨[⟨.str (c! "@x"), []⟩], []⟩)]) (by simp [hn, hle])
    · exact ⟨by simp, by simp, by simp⟩
  · have hbne : b ≠ [] := by
      intro e; subst e
      have := hA.order
      cases this; exact hne rfl
    have hane : a ≠ [] := by
      intro e; subst e
      cases b with
      | nil => exact hbne rfl
      | cons x t => exact absurd ((hA.labels x.1).2 (by simp)) (by simp)
    obtain ⟨b1, b2, hs, hb1⟩ := imInsert_split b n (.inner ⟨[⟨.str (c! "@x"), []⟩], []⟩)
    refine ⟨ts ++ [n ++ c! "=(\"@x\")"], us ++ [n ++ c! "=:AA==:"], ?_, ?_, by simp, by simp,
      imInsert a n (.item ⟨.bytes [0], []⟩), imInsert b n (.inner ⟨[⟨.str (c! "@x"), []⟩], []⟩), ?_, ?_, ⟨?_, ?_, ?_⟩,
      b1, _, b2, hs, ⟨_, rfl, poison_inner⟩, ?_⟩
    · rw [linesText_iff, fieldLines_append, fi]; exact lineTexts_snoc (linesText_iff.1 h1) pi
    · rw [linesText_iff, fieldLines_append, fs]; exact lineTexts_snoc (linesText_iff.1 h2) ps
    · rw [commas_eq] at ha ⊢
      rw [join_snoc _ _ _ h4, es, ← C63_dict]
      exact parseDict_snoc ((C63_dict _ _).2 ha) hane hn hlb
    · rw [commas_eq] at hb ⊢
      rw [join_snoc _ _ _ h3, ei, ← C63_dict]
      exact parseDict_snoc ((C63_dict _ _).2 hb) hbne hn hle
    · intro k
      rw [imInsert_keys, imInsert_keys]
      have := hA.labels
      by_cases h1 : n ∈ a.map Prod.fst
      · rw [if_pos h1, if_pos ((this _).1 h1)]; exact this k
      · rw [if_neg h1, if_neg (fun e => h1 ((this _).2 e)), List.mem_append, List.mem_append, this k]
    · intro kv hkv
      rcases imInsert_mem hkv with hkv | rfl
      · exact hA.bytes kv hkv
      · exact ⟨_, _, rfl⟩
    · intro kv hkv
      rcases imInsert_mem hkv with hkv | rfl
      · obtain ⟨_, _, _, _, _, il, e, _⟩ := forall₂_mem_left hA.order kv hkv
        exact ⟨il, e⟩
      · exact ⟨_, rfl⟩
    · intro kv hkv
      obtain ⟨kh, _, _, _, _, il, e, hp⟩ := forall₂_mem_left hA.order kv (hb1 kv hkv)
      exact ⟨il, _, e, hp⟩

theorem wf_poison (hw : WfHeaders m.headers) (n : Str) : WfHeaders (m.headers ++ poison n) := by
  have w1 : WfName (c! "signature-input") := ⟨by decide, by decide, by decide⟩
  have w2 : WfName (c! "signature") := ⟨by decide, by decide, by decide⟩
  intro kv hkv
  rcases List.mem_append.1 hkv with hkv | hkv
  · exact hw kv hkv
  · simp only [poison, List.mem_cons, List.not_mem_nil, or_false] at hkv
    rcases hkv with rfl | rfl
    · exact w1
    · exact w2

/-- C113: and then every verification panics, whoever asks, and whatever the key does. -/
theorem C113_poison_verify (hw : WfHeaders m.headers) {n : Str} (hn : LegalKey n)
    (h : (Wire.linesOf m.headers (c! "signature-input") = [] ∧ Wire.linesOf m.headers (c! "signature") = []) ∨
      ∃ l, Wire.Carries m.headers l ∧ l ≠ []) (now : UInt64) (keys : List (VerifyingKey × Option Str)) :
    verifySignatures now (m.withHeaders (m.headers ++ poison n)) keys rf = .panic := by
  have e : (m.withHeaders (m.headers ++ poison n)).headers = m.headers ++ poison n := by cases m <;> rfl
  have hp := (carriesPanic_iff (m := m.withHeaders (m.headers ++ poison n)) (by rw [e]; exact wf_poison hw n)).2
    (by rw [e]; exact C113_poison hn h)
  rw [verifySignatures_eq, hp]
  rfl

/-! ### Examples -/

-- from the specification alone: the operation then panics
example : CId.ofStr (c! " @x ") = .panic :=
  (C113_id _).2 ⟨⟨.str (c! "@x"), []⟩, by rw [idItem_iff]; decide, c! "@x", rfl, rfl, fun d => by cases d <;> decide⟩
example (now : UInt64) (keys : List (VerifyingKey × Option Str)) :
    verifySignatures now ((Msg.req exReq).withHeaders (exReq.headers ++ poison (c! "sig"))) keys none = .panic :=
  C113_poison_verify (m := .req exReq) exReq_wf (by decide) (Or.inl (by decide)) now keys
-- a message with signatures, and the label of one of them
example (now : UInt64) (keys : List (VerifyingKey × Option Str)) :
    verifySignatures now ((Msg.req vReq).withHeaders (vReq.headers ++ poison (c! "b"))) keys none = .panic :=
  C113_poison_verify (m := .req vReq) vReq_wf (by decide) (Or.inr ⟨_, wireCarries_iff.2 vReq_carries, by decide⟩) now keys
-- a name, a date, a negative time
example : Wire.IdTextPanics (c! "\"@x\";sf;nope") := (C113_id _).1 (by decide)
example : Wire.LinePanics (c! "\"@x\": a") := (C113_line _).1 (by decide)
example : Wire.ParamsTextPanics (c! "(\"date\" \"@x\")") := (C113_params _).1 (by decide)
example : Wire.ParamsTextPanics (c! "(@5;a=1)") := (C113_params _).1 (by decide)
example : Wire.ParamsTextPanics (c! "(\"date\");expires=-1") := (C113_params _).1 (by decide)
-- not: an item before it fails, a date with a string beside it, two equal components, a negative decimal
example : ¬ Wire.ParamsTextPanics (c! "(\"date\";nope \"@x\")") := fun h => absurd ((C113_params _).2 h) (by decide)
example : ¬ Wire.ParamsTextPanics (c! "(@5;a=\"\")") := fun h => absurd ((C113_params _).2 h) (by decide)
example : ¬ Wire.ParamsTextPanics (c! "(\"date\" \"date\");expires=-1") := fun h => absurd ((C113_params _).2 h) (by decide)
example : ¬ Wire.ParamsTextPanics (c! "(\"date\");expires=-1.0") := fun h => absurd ((C113_params _).2 h) (by decide)
-- the first label that does not read is `a`, which fails; then it is `b`, which panics
set_option maxRecDepth 10000 in
example : ¬ Wire.HeadersPanic (c! "a=:AQ==:, b=:AQ==:") (c! "a=(\"date\";x), b=(\"@x\")") :=
  fun h => absurd ((C113_headers _ _).2 h) (by decide)
set_option maxRecDepth 10000 in
example : Wire.HeadersPanic (c! "a=:AQ==:, b=:AQ==:") (c! "b=(\"@x\"), a=(\"date\";x)") := (C113_headers _ _).1 (by decide)
-- a clock before 1970, and only the signature with a time needs it
set_option maxRecDepth 10000 in
example : Wire.VerifyPanics (fun _ => none) (.req vReq) none vKey (some (c! "k2")) :=
  (C113_verify (m := .req vReq) vReq_wf (by simp) _ _ _).1 (by decide)
set_option maxRecDepth 10000 in
example : ¬ Wire.VerifyPanics (fun _ => none) (.req vReq) none vKey (some (c! "k1")) :=
  fun h => absurd ((C113_verify (m := .req vReq) vReq_wf (by simp) _ _ _).2 h) (by decide)
-- a key that panics
set_option maxRecDepth 10000 in
example : Wire.VerifyPanics (fun _ => some 0) (.req vReq) none { vKey with verify := fun _ _ => .panic } none :=
  (C113_verify_now (m := .req vReq) vReq_wf (by simp) _ _ _).1 (by decide)
set_option maxRecDepth 10000 in
example : Wire.SigningPanics (.req exReq) none [(exParams [⟨.derived .method, []⟩], { toySign 1 with sign := fun _ => .panic }, none)] :=
  (C113_sign (m := .req exReq) exReq_wf (by simp) _).1 (by decide)

end Verif
