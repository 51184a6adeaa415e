import Verif.Proofs.WireValue
import Verif.Props.C01
/-!
C65 the library against a specification of signing and verification that starts at the bytes of a message and uses no function of
the model (`Spec/Wire.lean`).
-/
namespace Verif
open Sfv Spec Grammar

/-! ### Reading -/

/-- C65: reading an identifier. -/
theorem C65_id (s : Str) (i : CId) : CId.ofStr s = .ok i ↔ Wire.IdText s i := idText_iff.symm

/-- C65: an item of a parsed inner list. -/
theorem C65_covered (it : Item) (t : Str) (h : CanonItem it t) (i : CId) : CId.ofStr t = .ok i ↔ Wire.CoveredId it i := by
  obtain ⟨hl, rfl⟩ := canonItem_iff.1 h
  exact (coveredId_iff hl).symm

/-- C65: reading signature parameters. -/
theorem C65_params (s : Str) (p : SigParams) : SigParams.ofStr s = .ok p ↔ Wire.SigParamsText s p := sigParamsText_iff.symm

/-- C65: reading the values of Signature and Signature-Input. -/
theorem C65_headers (s t : Str) (l : List (Str × SigHeaders)) : SigHeaders.tryParse s t = .ok l ↔ Wire.HeadersText s t l :=
  headersText_iff.symm

/-- The identifier of a text is unique, and so are the parameters of a text and the signatures of a message. -/
theorem C65_unambiguous :
    (∀ s i j, Wire.IdText s i → Wire.IdText s j → i = j) ∧
    (∀ s p q, Wire.SigParamsText s p → Wire.SigParamsText s q → p = q) ∧
    ∀ s t l l', Wire.HeadersText s t l → Wire.HeadersText s t l' → l = l' := by
  refine ⟨fun s i j h1 h2 => ?_, fun s i j h1 h2 => ?_, fun s t i j h1 h2 => ?_⟩
  · have := ((C65_id s i).2 h1).symm.trans ((C65_id s j).2 h2); injection this
  · have := ((C65_params s i).2 h1).symm.trans ((C65_params s j).2 h2); injection this
  · have := ((C65_headers s t i).2 h1).symm.trans ((C65_headers s t j).2 h2); injection this

section
variable {now : UInt64} {m : Msg} {rf : Option Request} {k : VerifyingKey} {id : Option Str}

/-- C65: the signatures of a message. -/
theorem C65_carries (hw : WfHeaders m.headers) (l : List (Str × SigHeaders)) :
    extractSignatureHeaders m = .ok l ↔ Wire.Carries m.headers l :=
  (extractSignatureHeaders_ok hw l).trans wireCarries_iff.symm

/-- C65: the value of a component. -/
theorem C65_value (hw : WfHeaders m.headers) (hf : ∀ r, rf = some r → WfHeaders r.headers) (i : CId) (v : Str) :
    Extracts m rf i v ↔ Wire.HasValue m rf i v := (extracts_iff hw hf i v).trans wireHasValue_iff.symm

/-- C65: the text that is signed. -/
theorem C65_base (hw : WfHeaders m.headers) (hf : ∀ r, rf = some r → WfHeaders r.headers) (p : SigParams) (text : Str) :
    (∃ b, buildBase m p rf = .ok b ∧ b.disp = text) ↔ Wire.BaseOf m rf p text :=
  (buildBase_spec hw hf text).trans wireBaseOf_iff.symm

/-! ### Verification -/

/-- C65: a message is accepted with label `n` exactly if its header lines carry signatures, the key panics on none that is checked,
and `n` is the label of the first that the key accepts. -/
theorem C65_verify (hw : WfHeaders m.headers) (hf : ∀ r, rf = some r → WfHeaders r.headers) (n : Str) :
    verifySignature now m k id rf = .ok n ↔
      ∃ l, Wire.Carries m.headers l ∧ (∀ kv ∈ l, ¬ Wire.Checked now m rf k id kv.2 .panic) ∧
        ∃ l1 h l2, l = l1 ++ (n, h) :: l2 ∧ Wire.Checked now m rf k id h (.ok ()) ∧ ∀ kv ∈ l1, ¬ Wire.Checked now m rf k id kv.2 (.ok ()) := by
  rw [C10_ok_iff hw hf]
  simp only [wireCarries_iff, wireCrashes_iff, wireAccepts_iff, FirstWith]

/-- C65: a message is refused as invalid exactly if it has a signature to look at and none is accepted. -/
theorem C65_invalid (hw : WfHeaders m.headers) (hf : ∀ r, rf = some r → WfHeaders r.headers) :
    verifySignature now m k id rf = .err .invalidSignature ↔
      ∃ l, Wire.Carries m.headers l ∧ (∀ kv ∈ l, ¬ Wire.Checked now m rf k id kv.2 .panic) ∧ (∃ kv ∈ l, Wire.Candidate m rf id kv.2) ∧
        ∀ kv ∈ l, ¬ Wire.Checked now m rf k id kv.2 (.ok ()) := by
  rw [C10_invalid_iff hw hf]
  simp only [wireCarries_iff, wireCrashes_iff, wireAccepts_iff, wireCandidate_iff]

/-- C65: no signature is found exactly if one of the fields is missing or there is no signature to look at. -/
theorem C65_no_candidate (hw : WfHeaders m.headers) (hf : ∀ r, rf = some r → WfHeaders r.headers) :
    verifySignature now m k id rf = .err .noSignatureHeaders ↔
      Wire.linesOf m.headers (c! "signature-input") = [] ∨ Wire.linesOf m.headers (c! "signature") = [] ∨
        ∃ l, Wire.Carries m.headers l ∧ ∀ kv ∈ l, ¬ Wire.Candidate m rf id kv.2 := by
  rw [C10_no_candidate_iff hw hf]
  simp only [wireCarries_iff, wireCandidate_iff, linesOf_eq]

/-! ### Signing -/

theorem lineOk_iff {s : Str} : Wire.LineOk (utf8 s) ↔ (hvOfStr s).isSome := by
  unfold Wire.LineOk hvOfStr
  have : (utf8 s).all hvByteOk = true ↔ ∀ b ∈ utf8 s, b.toNat = 9 ∨ (32 ≤ b.toNat ∧ b.toNat ≠ 127) := by
    rw [List.all_eq_true]
    apply forall₂_congr
    intro b _
    unfold hvByteOk
    simp only [Bool.or_eq_true, Bool.and_eq_true, decide_eq_true_eq, beq_iff_eq]
    omega
  rw [← this]
  split <;> simp_all

theorem added_iff {x : Signer} {out : Headers} :
    Wire.Added m rf x out ↔ ∃ sh, SignedBy m rf x sh ∧ (hvOfStr sh.inputValue).isSome ∧ out = sigLines sh := by
  have e1 : ∀ sh, SignedBy m rf x sh → sh.inputValue = x.2.2.getD (c! "sig") ++ '=' :: paramsText x.1 := by
    intro sh h
    rw [(C58_header_values sh).1, h.name, h.params]
    simp [Signer.label]
  constructor
  · rintro ⟨text, sig, t, h1, h2, h3, h4, rfl⟩
    have hs : SignedBy m rf x ⟨x.label, sig, x.1⟩ := ⟨rfl, rfl, text, wireBaseOf_iff.1 h1, h2⟩
    refine ⟨_, hs, ?_, ?_⟩
    · rw [e1 _ hs]; exact lineOk_iff.1 h4
    · rw [(canonBare_iff.1 h3).2]
      simp [sigLines, serBare, Signer.label, C58_params_text]
  · rintro ⟨sh, hs, h2, rfl⟩
    obtain ⟨text, h3, h4⟩ := hs.signature
    refine ⟨text, sh.signature, _, wireBaseOf_iff.2 h3, h4, canonBare_iff.2 ⟨trivial, rfl⟩, ?_, ?_⟩
    · rw [e1 _ hs] at h2; exact lineOk_iff.2 h2
    · simp [sigLines, serBare, hs.name, hs.params, Signer.label, C58_params_text]

/-- C65: signing succeeds exactly if every signer has its lines, and it adds these lines in the order of the signers. -/
theorem C65_sign (hw : WfHeaders m.headers) (hf : ∀ r, rf = some r → WfHeaders r.headers) (l : List Signer) (h : Headers) :
    setSignatures m l rf = (h, .ok ()) ↔ ∃ ls, List.Forall₂ (Wire.Added m rf) l ls ∧ h = m.headers ++ ls.flatten := by
  have split : ∀ (l : List Signer) ls, List.Forall₂ (Wire.Added m rf) l ls ↔
      ∃ hs, List.Forall₂ (SignedBy m rf) l hs ∧ (∀ sh ∈ hs, (hvOfStr sh.inputValue).isSome) ∧ ls = hs.map sigLines := by
    intro l ls
    constructor
    · intro h
      induction h with
      | nil => exact ⟨[], .nil, by simp, rfl⟩
      | cons h1 _ ih =>
        obtain ⟨hs, a, b, rfl⟩ := ih
        obtain ⟨sh, c, d, rfl⟩ := added_iff.1 h1
        exact ⟨sh :: hs, .cons c a, by simpa using ⟨d, b⟩, rfl⟩
    · rintro ⟨hs, a, b, rfl⟩
      induction a with
      | nil => exact .nil
      | cons h1 _ ih => exact .cons (added_iff.2 ⟨_, h1, b _ (by simp), rfl⟩) (ih (fun x hx => b x (by simp [hx])))
  simp only [split]
  have some_none : ∀ (hs : List SigHeaders) l1 sh l2, hs = l1 ++ sh :: l2 → hvOfStr sh.inputValue = none →
      ¬ ∀ x ∈ hs, (hvOfStr x.inputValue).isSome := by
    intro hs l1 sh l2 h1 h2 h3
    have := h3 sh (by rw [h1]; simp)
    rw [h2] at this; cases this
  constructor
  · intro hset
    by_cases hex : ∃ hs, List.Forall₂ (SignedBy m rf) l hs
    · obtain ⟨hs, hh⟩ := hex
      have hst := (sign_stage hw hf l hs).2 hh
      unfold setSignatures at hset
      simp only [hst] at hset
      rcases appendAll_eq m.headers hs with ⟨h1, h2⟩ | ⟨l1, sh, l2, _, _, _, h4⟩
      · rw [h2] at hset
        injection hset with hset _
        exact ⟨_, ⟨hs, hh, h1, rfl⟩, by rw [← hset, List.flatMap_def]⟩
      · rw [h4] at hset; cases hset
    · have := (C34_nothing_written hw hf l hex).2
      rw [hset] at this; exact absurd rfl this
  · rintro ⟨_, ⟨hs, hh, hok, rfl⟩, rfl⟩
    have hst := (sign_stage hw hf l hs).2 hh
    unfold setSignatures
    simp only [hst]
    rcases appendAll_eq m.headers hs with ⟨_, h2⟩ | ⟨l1, sh, l2, h1, _, h3, _⟩
    · rw [h2, List.flatMap_def]
    · exact absurd hok (some_none hs l1 sh l2 h1 h3)

end

/-! ### Cases -/

-- texts that are identifiers, and texts that are none
example : Wire.IdText (c! " date ") ⟨.field (c! "date"), []⟩ := (C65_id _ _).1 (by decide)
example : Wire.IdText (c! "\"@query-param\";name=\"a\";req=?0") ⟨.derived .queryParam, [.name (c! "a"), .req]⟩ := (C65_id _ _).1 (by decide)
example : ¬ ∃ i, Wire.IdText (c! "\"date\";x") i := by
  rintro ⟨i, h⟩
  have e : CId.ofStr (c! "\"date\";x") = .err .invalidComponentParam := by decide
  rw [(C65_id _ _).2 h] at e; cases e
-- a token and a decimal of an inner list are fields
example : Wire.CoveredId ⟨.tok (c! "a"), []⟩ ⟨.field (c! "a"), []⟩ :=
  Or.inr ⟨by simp, c! "a", (canonItem_iff (i := ⟨.tok (c! "a"), []⟩)).2 ⟨⟨⟨by decide, by decide⟩, by simp [LegalParams]⟩, by decide⟩,
    by decide, by decide, rfl⟩
set_option maxRecDepth 10000 in
example : Wire.SigParamsText (c! "(\"date\"  \"@method\";req);created=5;x;alg=a") { created := some 5, covered := [⟨.field (c! "date"), []⟩, ⟨.derived .method, [.req]⟩] } :=
  (C65_params _ _).1 (by decide)
-- the example message of C10
example : Wire.Carries vReq.headers vSigs := (C65_carries (m := .req vReq) vReq_wf _).1 vReq_sigs
set_option maxRecDepth 10000 in
example : ∃ l, Wire.Carries vReq.headers l ∧ ∃ kv ∈ l, Wire.Checked 0 (.req vReq) none vKey none kv.2 (.ok ()) := by
  have h := (C65_verify (now := 0) (m := .req vReq) (rf := none) (k := vKey) (id := none) vReq_wf (by simp) (c! "b")).1 (by decide)
  obtain ⟨l, h1, _, l1, x, l2, h2, h3, _⟩ := h
  exact ⟨l, h1, (c! "b", x), by rw [h2]; simp, h3⟩
-- signing the example request adds two lines
set_option maxRecDepth 10000 in
example : ∃ ls, List.Forall₂ (Wire.Added (.req exReq) none) [(exParams [⟨.derived .method, []⟩], toySign 1, none)] ls ∧ ls.flatten.length = 2 := by
  obtain ⟨ls, h1, h2⟩ := (C65_sign (m := .req exReq) (rf := none) exReq_wf (by simp) [(exParams [⟨.derived .method, []⟩], toySign 1, none)]
    (setSignatures (.req exReq) [(exParams [⟨.derived .method, []⟩], toySign 1, none)] none).1).1 (Prod.ext rfl (by decide))
  refine ⟨ls, h1, ?_⟩
  have h3 := congrArg List.length h2
  rw [List.length_append, show (setSignatures (.req exReq) [(exParams [⟨.derived .method, []⟩], toySign 1, none)] none).1.length =
    (Msg.req exReq).headers.length + 2 from by decide] at h3
  omega

end Verif
