import Verif.Proofs.FailureRead
/-!
C75: every failure is reported with the right error. Together with C65 (what succeeds) and C16, C17 (what panics) this fixes the result
of reading, of building a base, of signing and of verifying for all inputs.
-/
namespace Verif
open Sfv Spec Grammar

variable {m : Msg} {rf : Option Request}

/-! ### Values, bases, signing -/

/-- C75: a component has no value, and why. -/
theorem C75_value (hw : WfHeaders m.headers) (hf : ∀ r, rf = some r → WfHeaders r.headers) (i : CId) (e : HyperErr) :
    extractFor m rf i = .err e ↔ Wire.ValueFails m rf i e := extractFor_err hw hf

/-- C75: a signature base cannot be built; the reason is that of the first component without a value. -/
theorem C75_base (hw : WfHeaders m.headers) (hf : ∀ r, rf = some r → WfHeaders r.headers) (p : SigParams) (e : HyperErr) :
    buildBase m p rf = .err e ↔ Wire.BaseFails m rf p e := buildBase_err hw hf

/-- C75: signing fails. Bases come before keys, and keys before header lines; in each step the first failure is reported, but a key that
panics anywhere in the batch is a panic. -/
theorem C75_sign (hw : WfHeaders m.headers) (hf : ∀ r, rf = some r → WfHeaders r.headers)
    (l : List (SigParams × SigningKey × Option Str)) (e : HyperErr) :
    (setSignatures m l rf).2 = .err e ↔ Wire.SigningFails m rf l e := signing_err hw hf l e

/-- C75: an identifier has a value or fails for one reason, and never both. -/
theorem C75_value_decided (hw : WfHeaders m.headers) (hf : ∀ r, rf = some r → WfHeaders r.headers) (i : CId) :
    (∃! v, Wire.HasValue m rf i v) ∧ (∀ e, ¬ Wire.ValueFails m rf i e) ∨ (∀ v, ¬ Wire.HasValue m rf i v) ∧ ∃! e, Wire.ValueFails m rf i e := by
  simp only [← C75_value hw hf, wireHasValue_iff, ← extractFor_ok hw hf]
  cases h : extractFor m rf i with
  | ok c => left; exact ⟨⟨c.value.disp, ⟨c, rfl, rfl⟩, by rintro v ⟨c', hc, rfl⟩; injection hc with hc; rw [hc]⟩, by simp⟩
  | err e => right; exact ⟨by simp, e, rfl, by intro e' he; injection he with he; exact he.symm⟩
  | panic => exact absurd h (extractFor_ne_panic m rf i)

/-- C75: the same of a base. -/
theorem C75_base_decided (hw : WfHeaders m.headers) (hf : ∀ r, rf = some r → WfHeaders r.headers) (p : SigParams) :
    (∃! t, Wire.BaseOf m rf p t) ∧ (∀ e, ¬ Wire.BaseFails m rf p e) ∨ (∀ t, ¬ Wire.BaseOf m rf p t) ∧ ∃! e, Wire.BaseFails m rf p e := by
  have hb : ∀ t, Wire.BaseOf m rf p t ↔ ∃ b, buildBase m p rf = .ok b ∧ b.disp = t :=
    fun t => wireBaseOf_iff.trans (buildBase_spec hw hf t).symm
  simp only [← C75_base hw hf, hb]
  cases h : buildBase m p rf with
  | ok c => left; exact ⟨⟨c.disp, ⟨c, rfl, rfl⟩, by rintro v ⟨c', hc, rfl⟩; injection hc with hc; rw [hc]⟩, by simp⟩
  | err e => right; exact ⟨by simp, e, rfl, by intro e' he; injection he with he; exact he.symm⟩
  | panic => exact absurd h (buildBase_ne_panic m p rf)

/-! ### Reading -/

/-- C75: a text is no identifier. -/
theorem C75_id (s : Str) (e : SigErr) : CId.ofStr s = .err e ↔ Wire.IdTextFails s e := ofStr_err

/-- C75: a text is no component line. -/
theorem C75_line (s : Str) (e : SigErr) : Component.ofStr s = .err e ↔ Wire.LineFails s e := componentOfStr_err

/-- C75: a text is no set of signature parameters. -/
theorem C75_params (s : Str) (e : SigErr) : SigParams.ofStr s = .err e ↔ Wire.ParamsTextFails s e := paramsText_err

/-- C75: two texts are no Signature and Signature-Input. -/
theorem C75_headers (s t : Str) (e : SigErr) : SigHeaders.tryParse s t = .err e ↔ Wire.HeadersFail s t e := headers_err

/-- C75: a message has no signatures that can be read. All operations on received messages report this the same way. -/
theorem C75_carries (hw : WfHeaders m.headers) (e : HyperErr) :
    (extractSignatureHeaders m = .err e ↔ Wire.CarriesFails m.headers e) ∧
    (∀ rsa, getAlgKeyIds rsa m = .err e ↔ Wire.CarriesFails m.headers e) ∧
    (getSignatureParams m = .err e ↔ Wire.CarriesFails m.headers e) ∧
    (∀ rf, extractSignatures m rf = .err e ↔ Wire.CarriesFails m.headers e) ∧
    ∀ now keys rf, verifySignatures now m keys rf = .err e ↔ Wire.CarriesFails m.headers e := by
  rw [← carries_err hw]
  refine ⟨Iff.rfl, fun rsa => ?_, ?_, fun rf => ?_, fun now keys rf => ?_⟩
  · unfold getAlgKeyIds
    rw [Res.bind_eq_err]; simp
  · unfold getSignatureParams
    rw [Res.bind_eq_err]; simp
  · rw [extractSignatures_eq, Res.bind_eq_err]; simp
  · rw [verifySignatures_eq, Res.bind_eq_err]
    refine or_iff_left ?_
    rintro ⟨l, _, h⟩
    exact gather_ne_err _ _ h

/-- C75: verification with one key fails. A message without a signature for the key and a message without signatures give the same
error. -/
theorem C75_verify {now : UInt64} {k : VerifyingKey} {id : Option Str} (hw : WfHeaders m.headers)
    (hf : ∀ r, rf = some r → WfHeaders r.headers) (e : HyperErr) :
    verifySignature now m k id rf = .err e ↔ Wire.VerifyFails now m rf k id e := verify_err hw hf

/-! ### Examples -/

-- derived from the specification alone: the operation then reports this error
example : extractFor (.req vReq) none ⟨.derived .status, []⟩ = .err .invalidComponentName :=
  (C75_value (m := .req vReq) vReq_wf (by simp) _ _).2 (.here (by simp) (.status (by simp [Wire.ParamsFit]) rfl))
example : extractFor (.req vReq) none ⟨.field (c! "date"), [.bs]⟩ = .err (.httpSig .notYetImplemented) :=
  (C75_value (m := .req vReq) vReq_wf (by simp) _ _).2 (.here (by simp) (.stops
    (ts := [c! "Tue"]) (.cons ⟨by decide, by decide⟩ .nil) .bs))
example : extractFor (.req vReq) (some vReq) ⟨.field (c! "date"), [.req]⟩ = .err .invalidComponentParam :=
  (C75_value (m := .req vReq) vReq_wf (by rintro r ⟨⟩; exact vReq_wf) _ _).2 (.request (by simp) rfl)
example : Component.ofStr (c! "\"date\" Tue") = .err .invalidComponent := (C75_line _ _).2 (.colon (by decide))
-- the second component has no value, the third would fail for another reason
set_option maxRecDepth 10000 in
example : Wire.BaseFails (.req vReq) none { covered := [⟨.field (c! "date"), []⟩, ⟨.derived .status, []⟩, ⟨.field (c! "date"), [.tr]⟩] }
    .invalidComponentName := (C75_base (m := .req vReq) vReq_wf (by simp) _ _).1 (by decide)
-- signing: a label with a line break
set_option maxRecDepth 10000 in
example : Wire.SigningFails (.req exReq) none [(exParams [⟨.derived .method, []⟩], toySign 1, some (c! "a\n"))] .invalidHeaderValue :=
  (C75_sign (m := .req exReq) exReq_wf (by simp) _ _).1 (by decide)
-- reading: each error of an identifier
example : Wire.IdTextFails (c! "\"date") .parseSFV := (C75_id _ _).1 (by decide)
example : Wire.IdTextFails (c! "tok;a=\"\"") .invalidComponentName := (C75_id _ _).1 (by decide)
example : Wire.IdTextFails (c! "\"date\";x") .invalidComponentParam := (C75_id _ _).1 (by decide)
example : Wire.IdTextFails (c! "\"@method\";sf") .invalidComponentId := (C75_id _ _).1 (by decide)
example : Wire.LineFails (c! "date: Tue") .invalidComponentId := (C75_line _ _).1 (by decide)
set_option maxRecDepth 10000 in
example : Wire.ParamsTextFails (c! "(\"date\" \"date\")") .invalidSignatureParams := (C75_params _ _).1 (by decide)
set_option maxRecDepth 10000 in
example : Wire.ParamsTextFails (c! "(\"date\";x \"@method\";sf)") .invalidComponentParam := (C75_params _ _).1 (by decide)
set_option maxRecDepth 10000 in
example : Wire.HeadersFail (c! "a=:AQ==:") (c! "b=(\"date\")") .buildSignatureHeader := (C75_headers _ _ _).1 (by decide)
set_option maxRecDepth 10000 in
example : Wire.HeadersFail (c! "a=:AQ==:") (c! "a=(\"date\";x)") .invalidComponentParam := (C75_headers _ _ _).1 (by decide)
-- a message without signatures, whatever is asked of it
example : ∀ now keys rf, verifySignatures now (.req exReq) keys rf = .err .noSignatureHeaders :=
  fun now keys rf => ((C75_carries (m := .req exReq) exReq_wf _).2.2.2.2 now keys rf).2 (.missing (Or.inl (by decide)))
-- no signature with this key id; signatures for the key, but none valid
set_option maxRecDepth 10000 in
example : Wire.VerifyFails 0 (.req vReq) none vKey (some (c! "k3")) .noSignatureHeaders :=
  (C75_verify (m := .req vReq) vReq_wf (by simp) _).1 (by decide)
set_option maxRecDepth 10000 in
example : Wire.VerifyFails 101 (.req vReq) none vKey (some (c! "k2")) .invalidSignature :=
  (C75_verify (m := .req vReq) vReq_wf (by simp) _).1 (by decide)

end Verif
