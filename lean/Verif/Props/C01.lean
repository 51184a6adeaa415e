import Verif.Proofs.Sign
import Verif.Props.C10
/-!
C01 to C04 sign then verify, C24 uncovered parts, C34 failed signing, C50 signing only appends, C55 earlier signatures keep
verifying.
-/
namespace Verif
open Sfv Spec

variable {now : UInt64} {m : Msg} {rf : Option Request}

/-! ### C34 and C50 -/

/-- C34: if some signer has no base or its key fails, nothing is written and the result is not `Ok`. -/
theorem C34_nothing_written (hw : WfHeaders m.headers) (hf : ∀ r, rf = some r → WfHeaders r.headers) (l : List Signer)
    (h : ¬ ∃ hs, List.Forall₂ (SignedBy m rf) l hs) :
    (setSignatures m l rf).1 = m.headers ∧ (setSignatures m l rf).2 ≠ .ok () := by
  unfold setSignatures
  split
  · rename_i hs hst; exact absurd ⟨hs, (sign_stage hw hf l hs).1 hst⟩ h
  · exact ⟨rfl, by simp⟩
  · exact ⟨rfl, by simp⟩

/-- C34: otherwise what is written is whole pairs of lines for a prefix of the signatures, in order. The prefix is everything exactly
if the result is `Ok`; if not, it ends before the first signature that is not a legal header value and the error says so. -/
theorem C34_whole_pairs (hw : WfHeaders m.headers) (hf : ∀ r, rf = some r → WfHeaders r.headers) (l : List Signer) (hs : List SigHeaders)
    (h : List.Forall₂ (SignedBy m rf) l hs) :
    setSignatures m l rf = (m.headers ++ hs.flatMap sigLines, .ok ()) ∨
    ∃ l1 sh l2, hs = l1 ++ sh :: l2 ∧ hvOfStr (sh.name ++ c! "=" ++ sh.params.disp) = none ∧
      setSignatures m l rf = (m.headers ++ l1.flatMap sigLines, .err .invalidHeaderValue) := by
  unfold setSignatures
  have hst := (sign_stage hw hf l hs).2 h
  simp only [hst]
  rcases appendAll_eq m.headers hs with ⟨_, h2⟩ | ⟨l1, sh, l2, h1, _, h3, h4⟩
  · exact Or.inl h2
  · right
    refine ⟨l1, sh, l2, h1, ?_, h4⟩
    rw [← inputValue_text]; exact h3

/-- C50: whatever the result, signing appends lines of the two signature fields and changes nothing else. -/
theorem C50_only_appends (m : Msg) (rf : Option Request) (l : List Signer) :
    ∃ extra, (setSignatures m l rf).1 = m.headers ++ extra ∧ ∀ kv ∈ extra, kv.1 = c! "signature" ∨ kv.1 = c! "signature-input" := by
  unfold setSignatures
  split
  · rename_i hs _
    have hk : ∀ l1 : List SigHeaders, ∀ kv ∈ l1.flatMap sigLines, kv.1 = c! "signature" ∨ kv.1 = c! "signature-input" := by
      intro l1 kv hkv
      obtain ⟨sh, _, hkv⟩ := List.mem_flatMap.1 hkv
      simp only [sigLines, List.mem_cons, List.not_mem_nil, or_false] at hkv
      rcases hkv with rfl | rfl
      · exact Or.inr rfl
      · exact Or.inl rfl
    rcases appendAll_eq m.headers hs with ⟨_, h2⟩ | ⟨l1, sh, l2, h1, _, h3, h4⟩
    · exact ⟨_, by rw [h2], hk hs⟩
    · exact ⟨_, by rw [h4], hk l1⟩
  · exact ⟨[], by simp, by simp⟩
  · exact ⟨[], by simp, by simp⟩

/-- C50 on requests: method, URI and body stay, other fields keep their lines, the two signature fields keep theirs at the front. -/
theorem C50_request (r : Request) (l : List Signer) :
    let r' := (r.setSignatures l).1
    r'.method = r.method ∧ r'.uri = r.uri ∧ r'.body = r.body ∧
    (∀ f, lower f ≠ c! "signature" → lower f ≠ c! "signature-input" → fieldLines r'.headers f = fieldLines r.headers f) ∧
    ∀ f, fieldLines r.headers f <+: fieldLines r'.headers f := by
  obtain ⟨extra, h1, h2⟩ := C50_only_appends (.req r) none l
  refine ⟨rfl, rfl, rfl, ?_, ?_⟩
  · intro f hf1 hf2
    show fieldLines (setSignatures (.req r) l none).1 f = _
    rw [h1, fieldLines_append]
    have : fieldLines extra f = [] := by
      unfold fieldLines
      rw [List.map_eq_nil_iff, List.filter_eq_nil_iff]
      intro kv hkv
      simp only [decide_eq_true_eq]
      intro e
      rcases h2 kv hkv with h | h
      · rw [h] at e; exact hf1 (e.symm.trans (by decide))
      · rw [h] at e; exact hf2 (e.symm.trans (by decide))
    rw [this]; simp [Msg.headers]
  · intro f
    show _ <+: fieldLines (setSignatures (.req r) l none).1 f
    rw [h1, fieldLines_append]
    exact List.prefix_append _ _

/-- C50 on responses; the corresponding request is only read. -/
theorem C50_response (s : Response) (l : List Signer) (rf : Option Request) :
    let s' := (s.setSignatures l rf).1
    s'.status = s.status ∧ s'.body = s.body ∧
    (∀ f, lower f ≠ c! "signature" → lower f ≠ c! "signature-input" → fieldLines s'.headers f = fieldLines s.headers f) ∧
    ∀ f, fieldLines s.headers f <+: fieldLines s'.headers f := by
  obtain ⟨extra, h1, h2⟩ := C50_only_appends (.res s) rf l
  refine ⟨rfl, rfl, ?_, ?_⟩
  · intro f hf1 hf2
    show fieldLines (setSignatures (.res s) l rf).1 f = _
    rw [h1, fieldLines_append]
    have : fieldLines extra f = [] := by
      unfold fieldLines
      rw [List.map_eq_nil_iff, List.filter_eq_nil_iff]
      intro kv hkv
      simp only [decide_eq_true_eq]
      intro e
      rcases h2 kv hkv with h | h
      · rw [h] at e; exact hf1 (e.symm.trans (by decide))
      · rw [h] at e; exact hf2 (e.symm.trans (by decide))
    rw [this]; simp [Msg.headers]
  · intro f
    show _ <+: fieldLines (setSignatures (.res s) l rf).1 f
    rw [h1, fieldLines_append]
    exact List.prefix_append _ _

/-! ### Example keys -/

/-- A toy key pair: the signature is the length of the text (mod 256) and a key byte. -/
def toySign (b : UInt8) : SigningKey := ⟨fun d => .ok [UInt8.ofNat d.length, b], c! "toy", .ed25519⟩
def toyVerify (b : UInt8) : VerifyingKey :=
  ⟨fun d s => if s = [UInt8.ofNat d.length, b] then .ok () else .err .invalidSignature, c! "toy", .ed25519⟩
theorem toy_pair (b : UInt8) : KeyPair (toySign b) (toyVerify b) := by
  intro d s h
  injection h with h; subst h
  simp [toyVerify]

/-- Parameters for the examples. -/
def wParams (k : Str) (ids : List CId) : SigParams := { keyid := some k, created := some 5, expires := some 100, covered := ids }

-- a base that fails at the second signer: nothing is written; a nonce with a line break at the second: the first pair is written
example : setSignatures (.req exReq) [(wParams (c! "k") [], toySign 1, none), (wParams (c! "k") [⟨.derived .status, []⟩], toySign 1, none)] none =
    (exReq.headers, .err .invalidComponentName) := by decide
example : setSignatures (.req exReq) [(exParams [], toySign 1, some (c! "a")), ({ nonce := some (c! "\n"), covered := [] }, toySign 1, none)] none =
    (exReq.headers ++ sigLines ⟨c! "a", [23, 1], exParams []⟩, .err .invalidHeaderValue) := by decide

/-! ### C24 -/

/-- C24: verification sees of a message only its signature fields and what the covered ids of the carried signatures refer to. -/
theorem C24_verify {m' : Msg} {rf' : Option Request} (hw : WfHeaders m.headers) (hw' : WfHeaders m'.headers) (hk : m.isReq = m'.isReq)
    (hr : rf.isSome = rf'.isSome) (hf : ∀ r, rf = some r → WfHeaders r.headers) (hf' : ∀ r, rf' = some r → WfHeaders r.headers)
    (hi : fieldLines m.headers (c! "signature-input") = fieldLines m'.headers (c! "signature-input"))
    (hs : fieldLines m.headers (c! "signature") = fieldLines m'.headers (c! "signature"))
    (h1 : ∀ l, Carries m.headers l → ∀ kv ∈ l, ∀ i ∈ kv.2.params.covered, CParam.req ∉ i.params → SameSource m m' i.name)
    (h2 : ∀ l, Carries m.headers l → ∀ kv ∈ l, ∀ i ∈ kv.2.params.covered, CParam.req ∈ i.params →
      ∀ r r', rf = some r → rf' = some r' → SameSource (.req r) (.req r') i.name)
    (keys : List (VerifyingKey × Option Str)) :
    verifySignatures now m keys rf = verifySignatures now m' keys rf' ∧
    ∀ k id, verifySignature now m k id rf = verifySignature now m' k id rf' := by
  have he : extractSignatureHeaders m = extractSignatureHeaders m' := by
    unfold extractSignatureHeaders headerTexts Headers.contains
    simp only
    rw [getAll_fieldLines hw, getAll_fieldLines hw, getAll_fieldLines hw', getAll_fieldLines hw']
    rw [show fieldLines m.headers hSignatureInput = fieldLines m'.headers hSignatureInput from hi,
      show fieldLines m.headers hSignature = fieldLines m'.headers hSignature from hs]
  have hl : ∀ l, extractSignatureHeaders m = .ok l → l.filterMap (entryOf m rf) = l.filterMap (entryOf m' rf') := by
    intro l hl
    apply List.filterMap_congr
    intro kv hkv
    unfold entryOf
    have hc := (extractSignatureHeaders_ok hw l).1 hl
    rw [buildBase_congr hw hw' hk hr hf hf' (h1 l hc kv hkv) (h2 l hc kv hkv)]
  constructor
  · rw [verifySignatures_eq, verifySignatures_eq, ← he]
    cases hx : extractSignatureHeaders m with
    | ok l => simp only [Res.bind_ok]; rw [hl l hx]
    | err e => rfl
    | panic => rfl
  · intro k id
    rw [verifySignature_eq, verifySignature_eq, ← he]
    cases hx : extractSignatureHeaders m with
    | ok l => simp only [Res.bind_ok]; rw [hl l hx]
    | err e => rfl
    | panic => rfl

/-- C24: the same for signing: the outcome and the lines appended are the same. -/
theorem C24_sign {m' : Msg} {rf' : Option Request} (hw : WfHeaders m.headers) (hw' : WfHeaders m'.headers) (hk : m.isReq = m'.isReq)
    (hr : rf.isSome = rf'.isSome) (hf : ∀ r, rf = some r → WfHeaders r.headers) (hf' : ∀ r, rf' = some r → WfHeaders r.headers)
    (l : List Signer)
    (h1 : ∀ x ∈ l, ∀ i ∈ x.1.covered, CParam.req ∉ i.params → SameSource m m' i.name)
    (h2 : ∀ x ∈ l, ∀ i ∈ x.1.covered, CParam.req ∈ i.params → ∀ r r', rf = some r → rf' = some r' → SameSource (.req r) (.req r') i.name) :
    ∃ extra out, setSignatures m l rf = (m.headers ++ extra, out) ∧ setSignatures m' l rf' = (m'.headers ++ extra, out) := by
  have hb : signBases m l rf = signBases m' l rf' := by
    unfold signBases
    apply Res.collect_congr
    intro x hx
    rw [buildBase_congr hw hw' hk hr hf hf' (h1 x hx) (h2 x hx)]
  unfold setSignatures
  rw [← hb]
  cases (do let bs ← signBases m l rf; signAll bs : Res HyperErr (List SigHeaders)) with
  | err e => exact ⟨[], .err e, by simp, by simp⟩
  | panic => exact ⟨[], .panic, by simp, by simp⟩
  | ok hs =>
    simp only
    rcases appendAll_eq m.headers hs with ⟨h1, h2⟩ | ⟨l1, sh, l2, e1, g1, g2, g3⟩
    · rcases appendAll_eq m'.headers hs with ⟨_, h3⟩ | ⟨l1, sh, l2, rfl, _, h3, _⟩
      · exact ⟨_, _, h2, h3⟩
      · have := h1 sh (by simp); rw [h3] at this; cases this
    · rcases appendAll_eq m'.headers hs with ⟨h3, _⟩ | ⟨l1', sh', l2', e2, g1', g2', g3'⟩
      · subst e1; have := h3 sh (by simp); rw [g2] at this; cases this
      · have : l1 = l1' := by
          rw [e1] at e2
          clear e1 g3 g3' h1 h2 hb
          induction l1 generalizing l1' with
          | nil =>
            cases l1' with
            | nil => rfl
            | cons a t =>
              injection e2 with e _; subst e
              have := g1' sh (by simp); rw [g2] at this; cases this
          | cons a t ih =>
            cases l1' with
            | nil =>
              injection e2 with e _; subst e
              have := g1 a (by simp); rw [g2'] at this; cases this
            | cons b u =>
              injection e2 with e e2; subst e
              rw [ih (fun x hx => g1 x (by simp [hx])) u e2 (fun x hx => g1' x (by simp [hx]))]
        subst this
        exact ⟨_, _, g3, g3'⟩

/-- C24: in particular the body never matters. -/
theorem C24_body (r : Request) (s : Response) (b : Body) (hr : WfHeaders r.headers) (hs : WfHeaders s.headers)
    (hf : ∀ r, rf = some r → WfHeaders r.headers) (l : List Signer) (keys : List (VerifyingKey × Option Str)) :
    Request.verifySignatures now { r with body := b } keys = Request.verifySignatures now r keys ∧
    Response.verifySignatures now { s with body := b } keys rf = Response.verifySignatures now s keys rf ∧
    (Request.setSignatures { r with body := b } l) = ({ (r.setSignatures l).1 with body := b }, (r.setSignatures l).2) ∧
    (Response.setSignatures { s with body := b } l rf) = ({ (s.setSignatures l rf).1 with body := b }, (s.setSignatures l rf).2) := by
  have q : ∀ n, SameSource (.req { r with body := b }) (.req r) n := by
    intro n; cases n with
    | field f => rfl
    | derived d => cases d <;> first | rfl | exact ⟨rfl, rfl⟩
  have q' : ∀ n, SameSource (.res { s with body := b }) (.res s) n := by
    intro n; cases n with
    | field f => rfl
    | derived d => cases d <;> first | rfl | exact ⟨rfl, rfl⟩
  have q'' : ∀ r r', rf = some r → rf = some r' → ∀ n, SameSource (.req r) (.req r') n := by
    rintro r r' h h' n
    rw [h] at h'; injection h' with h'; subst h'
    cases n with
    | field f => rfl
    | derived d => cases d <;> first | rfl | exact ⟨rfl, rfl⟩
  refine ⟨?_, ?_, ?_, ?_⟩
  · exact (C24_verify (m := .req { r with body := b }) (m' := .req r) hr hr rfl rfl (by simp) (by simp) rfl rfl
      (fun _ _ _ _ i _ _ => q _) (by simp) keys).1
  · exact (C24_verify (m := .res { s with body := b }) (m' := .res s) hs hs rfl rfl hf hf rfl rfl
      (fun _ _ _ _ i _ _ => q' _) (fun _ _ _ _ i _ _ r r' h h' => q'' r r' h h' _) keys).1
  · obtain ⟨e, o, h1, h2⟩ := C24_sign (m := .req { r with body := b }) (m' := .req r) (rf := none) (rf' := none) hr hr rfl rfl (by simp) (by simp) l
      (fun _ _ i _ _ => q _) (by simp)
    unfold Request.setSignatures
    simp only [h1, h2, Msg.headers]
  · obtain ⟨e, o, h1, h2⟩ := C24_sign (m := .res { s with body := b }) (m' := .res s) hs hs rfl rfl hf hf l
      (fun _ _ i _ _ => q' _) (fun _ _ i _ _ r r' h h' => q'' r r' h h' _)
    unfold Response.setSignatures
    simp only [h1, h2, Msg.headers]

/-- C24 for a header: adding, changing, removing or reordering lines of fields that no signature covers and that are not the
signature fields leaves verification as it is. -/
theorem C24_header {h' : Headers} (hw : WfHeaders m.headers) (hw' : WfHeaders h') (hf : ∀ r, rf = some r → WfHeaders r.headers)
    (touched : List Str) (hsame : ∀ f, lower f ∉ touched → fieldLines h' f = fieldLines m.headers f)
    (hi : c! "signature-input" ∉ touched) (hs : c! "signature" ∉ touched)
    (hc : ∀ l, Carries m.headers l → ∀ kv ∈ l, ∀ i ∈ kv.2.params.covered, CParam.req ∉ i.params → ∀ f, i.name = .field f → lower f ∉ touched)
    (k : VerifyingKey) (id : Option Str) :
    verifySignature now (m.withHeaders h') k id rf = verifySignature now m k id rf := by
  have a1 : fieldLines h' (c! "signature-input") = fieldLines m.headers (c! "signature-input") := hsame _ hi
  have a2 : fieldLines h' (c! "signature") = fieldLines m.headers (c! "signature") := hsame _ hs
  have e : (m.withHeaders h').headers = h' := by cases m <;> rfl
  symm
  refine (C24_verify (m := m) (m' := m.withHeaders h') hw (by rw [e]; exact hw') (by cases m <;> rfl) rfl hf hf (by rw [e, a1])
    (by rw [e, a2]) ?_ ?_ []).2 k id
  · intro l hl kv hkv i hi hr
    cases hn : i.name with
    | field f =>
      show fieldLines m.headers f = fieldLines (m.withHeaders h').headers f
      rw [e, hsame f (hc l hl kv hkv i hi hr f hn)]
    | derived d =>
      cases d with
      | signatureParams =>
        show fieldLines m.headers _ = fieldLines (m.withHeaders h').headers _
        rw [e, a1]
      | requestTarget => cases m <;> exact ⟨rfl, rfl⟩
      | _ => cases m <;> rfl
  · intro l hl kv hkv i hi hr r r' h h'
    rw [h] at h'; injection h' with h'; subst h'
    cases hn : i.name with
    | field f => rfl
    | derived d => cases d <;> first | rfl | exact ⟨rfl, rfl⟩

-- the example message with another line for x-other
example : verifySignature 101 (.req { vReq with headers := vReq.headers ++ [(c! "x-other", [1, 2])] }) vKey none none =
    .ok (c! "c") := by
  have w : WfHeaders (vReq.headers ++ [(c! "x-other", [1, 2])]) := by
    intro kv hkv
    rcases List.mem_append.1 hkv with h | h
    · exact vReq_wf kv h
    · simp only [List.mem_cons, List.not_mem_nil, or_false] at h; subst h; exact ⟨by decide, by decide, by decide⟩
  refine (C24_header (m := .req vReq) (h' := vReq.headers ++ [(c! "x-other", [1, 2])]) vReq_wf w (by simp) [c! "x-other"]
    ?_ (by decide) (by decide) ?_ vKey none).trans vReq_outcomes.2.1
  · intro f hf
    show fieldLines (vReq.headers ++ _) f = fieldLines vReq.headers f
    rw [fieldLines_append]
    have : fieldLines [(c! "x-other", [1, 2])] f = [] := by
      unfold fieldLines
      rw [List.map_eq_nil_iff, List.filter_eq_nil_iff]
      intro kv hkv
      simp only [List.mem_cons, List.not_mem_nil, or_false] at hkv hf
      subst hkv
      simp only [decide_eq_true_eq]
      intro e; exact hf (e.symm.trans (by decide))
    rw [this, List.append_nil]
  · intro l hl kv hkv
    rw [carries_unique vReq_wf hl vReq_carries] at hkv
    simp only [vSigs, List.mem_cons, List.not_mem_nil, or_false] at hkv
    rcases hkv with rfl | rfl | rfl <;> intro i hi _ f hn <;> simp only [List.mem_cons, List.not_mem_nil, or_false] at hi
    · rcases hi with rfl | rfl
      · injection hn with hn; subst hn; decide
      · cases hn
    · subst hi; cases hn
    · subst hi; injection hn with hn; subst hn; decide

/-! ### C04: signing next to existing signatures -/

/-- Headers of a message written by signers with safe parameters and legal labels. -/
theorem signed_safe {l : List Signer} {hs : List SigHeaders} (h : List.Forall₂ (SignedBy m rf) l hs)
    (hsafe : ∀ x ∈ l, SafeParams x.1 ∧ LegalKey x.label) : ∀ sh ∈ hs, SafeHeaders sh := by
  induction h with
  | nil => simp
  | @cons x sh l hs h _ ih =>
    intro y hy
    rcases List.mem_cons.1 hy with rfl | hy
    · exact ⟨by rw [h.name]; exact (hsafe x (by simp)).2, by rw [h.params]; exact (hsafe x (by simp)).1⟩
    · exact ih (fun x hx => hsafe x (by simp [hx])) y hy

/-- C04: signing a message that carries signatures `l0` (or has no signature fields) leaves it carrying those with the new ones put
in: a new label at the end, an existing label in the old place. -/
theorem C04_signed (hw : WfHeaders m.headers) (hf : ∀ r, rf = some r → WfHeaders r.headers) {l0 : List (Str × SigHeaders)}
    (h0 : HasSignatures m.headers l0) {l : List Signer} (hl : l ≠ []) (hsafe : ∀ x ∈ l, SafeParams x.1 ∧ LegalKey x.label) {h' : Headers}
    (h : setSignatures m l rf = (h', .ok ())) :
    ∃ hs, List.Forall₂ (SignedBy m rf) l hs ∧ Carries h' (hs.foldl putIn l0) := by
  obtain ⟨hs, h1, _, rfl⟩ := (setSignatures_ok hw hf l h').1 h
  refine ⟨hs, h1, ?_⟩
  have := hasSignatures_putAll h0 (signed_safe h1 hsafe)
  rcases this with ⟨h2, _, _⟩ | ⟨h2, _⟩
  · rw [fieldLines_append, fieldLines_sigLines_input] at h2
    have : hs ≠ [] := by rintro rfl; cases h1; exact hl rfl
    simp [this] at h2
  · exact h2

/-- C04 for one signature with a new label: all old entries unchanged, in order, then the new one. -/
theorem C04_one_new (hw : WfHeaders m.headers) (hf : ∀ r, rf = some r → WfHeaders r.headers) {l0 : List (Str × SigHeaders)}
    (h0 : Carries m.headers l0) (hne : l0 ≠ []) {p : SigParams} {k : SigningKey} {name : Option Str} (hp : SafeParams p)
    (hn : LegalKey (name.getD (c! "sig"))) (hnew : name.getD (c! "sig") ∉ l0.map Prod.fst) {h' : Headers}
    (h : setSignature m p k name rf = (h', .ok ())) :
    ∃ sh, SignedBy m rf (p, k, name) sh ∧ Carries h' (l0 ++ [(name.getD (c! "sig"), sh)]) := by
  obtain ⟨hs, h1, h2⟩ := C04_signed hw hf (Or.inr ⟨h0, hne⟩) (l := [(p, k, name)]) (by simp)
    (by intro x hx; rw [List.mem_singleton.1 hx]; exact ⟨hp, hn⟩) h
  cases h1 with
  | @cons _ sh _ _ h1 ht =>
    cases ht
    refine ⟨sh, h1, ?_⟩
    have e : sh.name = name.getD (c! "sig") := h1.name
    simpa [putIn, e, hnew] using h2

/-- C04 for one signature with an existing label: it takes the place of the old one; all others are unchanged. -/
theorem C04_one_replace (hw : WfHeaders m.headers) (hf : ∀ r, rf = some r → WfHeaders r.headers) {l1 l2 : List (Str × SigHeaders)}
    {p : SigParams} {k : SigningKey} {name : Option Str} {old : SigHeaders} (hp : SafeParams p) (hn : LegalKey (name.getD (c! "sig")))
    (h0 : Carries m.headers (l1 ++ (name.getD (c! "sig"), old) :: l2)) {h' : Headers}
    (h : setSignature m p k name rf = (h', .ok ())) :
    ∃ sh, SignedBy m rf (p, k, name) sh ∧ Carries h' (l1 ++ (name.getD (c! "sig"), sh) :: l2) := by
  obtain ⟨hs, h1, h2⟩ := C04_signed hw hf (Or.inr ⟨h0, by simp⟩) (l := [(p, k, name)]) (by simp)
    (by intro x hx; rw [List.mem_singleton.1 hx]; exact ⟨hp, hn⟩) h
  have nd := carries_nodup h0
  cases h1 with
  | @cons _ sh _ _ h1 ht =>
    cases ht
    refine ⟨sh, h1, ?_⟩
    have e : sh.name = name.getD (c! "sig") := h1.name
    have e1 : ∀ kv ∈ l1, kv.1 ≠ sh.name := by
      intro kv hkv he
      rw [List.map_append, List.nodup_append] at nd
      exact nd.2.2 _ (List.mem_map_of_mem (f := Prod.fst) hkv) (name.getD (c! "sig")) (by simp) (by rw [he, e])
    have e2 : ∀ kv ∈ l2, kv.1 ≠ sh.name := by
      intro kv hkv he
      rw [List.map_append, List.nodup_append] at nd
      rw [List.map_cons, List.nodup_cons] at nd
      refine nd.2.1.1 ?_
      show name.getD (c! "sig") ∈ l2.map Prod.fst
      rw [← e, ← he]; exact List.mem_map_of_mem (f := Prod.fst) hkv
    have g : putIn (l1 ++ (name.getD (c! "sig"), old) :: l2) sh = l1 ++ (name.getD (c! "sig"), sh) :: l2 := by
      unfold putIn
      rw [if_pos (by simp [e]), List.map_append, List.map_cons]
      congr 1
      · conv_rhs => rw [← List.map_id l1]
        apply List.map_congr_left; intro kv hkv; rw [if_neg (e1 kv hkv)]; rfl
      · rw [if_pos e.symm, ← e]; congr 1
        conv_rhs => rw [← List.map_id l2]
        apply List.map_congr_left; intro kv hkv; rw [if_neg (e2 kv hkv)]; rfl
    simpa [g] using h2

/-! ### C01 to C03 -/

/-- Parameters that do not cover the signature fields have the same base after signing. -/
theorem base_after {p : SigParams} (hn : NotSelf p) (hw : WfHeaders m.headers) (hf : ∀ r, rf = some r → WfHeaders r.headers)
    (hs : List SigHeaders) (t : Str) : BaseOf (m.withHeaders (m.headers ++ hs.flatMap sigLines)) rf p t ↔ BaseOf m rf p t := by
  have e : (m.withHeaders (m.headers ++ hs.flatMap sigLines)).headers = m.headers ++ hs.flatMap sigLines := by cases m <;> rfl
  have hw' : WfHeaders (m.withHeaders (m.headers ++ hs.flatMap sigLines)).headers := by rw [e]; exact wf_sigLines hw hs
  have := buildBase_congr (m := m.withHeaders (m.headers ++ hs.flatMap sigLines)) (m' := m) (rf := rf) (rf' := rf) (p := p) hw' hw
    (by cases m <;> rfl) rfl hf hf ?_ ?_
  · rw [show BaseOf _ rf p t ↔ _ from (buildBase_spec hw' hf t).symm, show BaseOf m rf p t ↔ _ from (buildBase_spec hw hf t).symm, this]
  · intro i hi hr
    obtain ⟨n1, n2⟩ := hn i hi hr
    cases hn : i.name with
    | field f =>
      show fieldLines (m.withHeaders (m.headers ++ hs.flatMap sigLines)).headers f = fieldLines m.headers f
      rw [e, fieldLines_append, fieldLines_sigLines_other hs (n2 f hn).1 (n2 f hn).2, List.append_nil]
    | derived d =>
      cases d with
      | signatureParams => exact absurd hn n1
      | requestTarget => cases m <;> exact ⟨rfl, rfl⟩
      | _ => cases m <;> rfl
  · intro i hi hr r r' h h'
    rw [h] at h'; injection h' with h'; subst h'
    cases hn : i.name with
    | field f => rfl
    | derived d => cases d <;> first | rfl | exact ⟨rfl, rfl⟩

theorem foldl_putIn_fresh {hs : List SigHeaders} {l : List (Str × SigHeaders)} (h : (l.map Prod.fst ++ hs.map SigHeaders.name).Nodup) :
    hs.foldl putIn l = l ++ hs.map (fun sh => (sh.name, sh)) := by
  induction hs generalizing l with
  | nil => simp
  | cons a t ih =>
    have ha : a.name ∉ l.map Prod.fst := by
      intro hm
      rw [List.nodup_append] at h
      exact h.2.2 _ hm a.name (by simp) rfl
    rw [List.foldl_cons, show putIn l a = l ++ [(a.name, a)] by unfold putIn; rw [if_neg ha], ih]
    · simp
    · simpa using h

theorem first_of_mem {q : SigHeaders → Prop} {l : List (Str × SigHeaders)} (h : ∃ kv ∈ l, q kv.2) : ∃ n, FirstWith q l n := by
  classical
  induction l with
  | nil => obtain ⟨_, h, _⟩ := h; cases h
  | cons a t ih =>
    by_cases ha : q a.2
    · exact ⟨a.1, [], a.2, t, rfl, ha, by simp⟩
    · obtain ⟨kv, hkv, hq⟩ := h
      rcases List.mem_cons.1 hkv with rfl | hkv
      · exact absurd hq ha
      · obtain ⟨n, l1, x, l2, rfl, h1, h2⟩ := ih ⟨kv, hkv, hq⟩
        exact ⟨n, a :: l1, x, l2, rfl, h1, by intro kv hkv; rcases List.mem_cons.1 hkv with rfl | h; exacts [ha, h2 kv h]⟩

theorem firstWith_mem {q : SigHeaders → Prop} {l : List (Str × SigHeaders)} {n : Str} (h : FirstWith q l n) : ∃ sh, (n, sh) ∈ l ∧ q sh := by
  obtain ⟨l1, sh, l2, rfl, hq, _⟩ := h
  exact ⟨sh, by simp, hq⟩

/-- What signing a message without signatures leaves, and what each signer's signature is then worth. -/
theorem signed_state (hw : WfHeaders m.headers) (hf : ∀ r, rf = some r → WfHeaders r.headers)
    (h0 : fieldLines m.headers (c! "signature-input") = []) (h0' : fieldLines m.headers (c! "signature") = [])
    {l : List Signer} (hne : l ≠ []) (hsafe : ∀ x ∈ l, SafeParams x.1 ∧ LegalKey x.label ∧ NotSelf x.1) (hnd : (l.map Signer.label).Nodup)
    {h' : Headers} (h : setSignatures m l rf = (h', .ok ())) :
    ∃ hs, List.Forall₂ (SignedBy m rf) l hs ∧ WfHeaders h' ∧ Carries h' (hs.map fun sh => (sh.name, sh)) ∧
      ∀ x ∈ l, ∀ t, BaseOf (m.withHeaders h') rf x.1 t ↔ BaseOf m rf x.1 t := by
  obtain ⟨hs, h1, h2⟩ := C04_signed hw hf (Or.inl ⟨h0, h0', rfl⟩) hne (fun x hx => ⟨(hsafe x hx).1, (hsafe x hx).2.1⟩) h
  obtain ⟨hs', h1', _, rfl⟩ := (setSignatures_ok hw hf l h').1 h
  refine ⟨hs, h1, wf_sigLines hw _, ?_, fun x hx t => base_after (hsafe x hx).2.2 hw hf hs' t⟩
  rw [foldl_putIn_fresh] at h2
  · simpa using h2
  · have e : hs.map SigHeaders.name = l.map Signer.label := by
      clear h h2 h1' hnd hsafe hne
      induction h1 with
      | nil => rfl
      | cons h _ ih => rw [List.map_cons, List.map_cons, ih, h.name]
    simpa [e] using hnd

theorem headers_withHeaders (m : Msg) (h : Headers) : (m.withHeaders h).headers = h := by cases m <;> rfl

/-- One of several signers: verification with its key and key id finds a signature of a signer with that key id. -/
theorem C03_one_of_many (hw : WfHeaders m.headers) (hf : ∀ r, rf = some r → WfHeaders r.headers)
    (h0 : fieldLines m.headers (c! "signature-input") = []) (h0' : fieldLines m.headers (c! "signature") = [])
    {l : List Signer} (hsafe : ∀ x ∈ l, SafeParams x.1 ∧ LegalKey x.label ∧ NotSelf x.1) (hnd : (l.map Signer.label).Nodup)
    {h' : Headers} (h : setSignatures m l rf = (h', .ok ())) {x : Signer} (hx : x ∈ l) {vk : VerifyingKey} (hk : KeyPair x.2.1 vk)
    (ht : ∀ e, x.1.expires = some e → now ≤ e) {id : Option Str} (hid : id = none ∨ id = x.1.keyid)
    (hcrash : ∀ y ∈ l, (∀ i, id = some i → y.1.keyid = some i) → ∀ d s, y.2.1.sign d = .ok s → vk.verify d s ≠ .panic) :
    ∃ y ∈ l, verifySignature now (m.withHeaders h') vk id rf = .ok y.label ∧ (∀ i, id = some i → y.1.keyid = some i) ∧
      (∀ e, y.1.expires = some e → now ≤ e) ∧ ∃ t s, BaseOf m rf y.1 t ∧ y.2.1.sign (utf8 t) = .ok s ∧ vk.verify (utf8 t) s = .ok () := by
  have hne : l ≠ [] := by rintro rfl; cases hx
  obtain ⟨hs, h1, h2, h3, h4⟩ := signed_state hw hf h0 h0' hne hsafe hnd h
  have hw' : WfHeaders (m.withHeaders h').headers := by rw [headers_withHeaders]; exact h2
  have h3' : Carries (m.withHeaders h').headers (hs.map fun sh => (sh.name, sh)) := by rw [headers_withHeaders]; exact h3
  have acc : ∃ kv ∈ hs.map (fun sh => (sh.name, sh)), Accepts now (m.withHeaders h') rf vk id kv.2 := by
    obtain ⟨sh, hsh, hb⟩ := forall₂_mem_left h1 _ hx
    obtain ⟨t, hb1, hb2⟩ := hb.signature
    refine ⟨(sh.name, sh), List.mem_map_of_mem (f := fun sh : SigHeaders => (sh.name, sh)) hsh, t, ?_, ?_, ?_, hk _ _ hb2⟩
    · show BaseOf _ rf sh.params t
      rw [hb.params]; exact (h4 x hx t).2 hb1
    · intro i hi
      show sh.params.keyid = some i
      rw [hb.params]
      rcases hid with rfl | rfl
      · cases hi
      · exact hi
    · intro e he
      have he : sh.params.expires = some e := he
      rw [hb.params] at he; exact ht e he
  obtain ⟨n, hn⟩ := first_of_mem acc
  have hok : verifySignature now (m.withHeaders h') vk id rf = .ok n := by
    refine (C10_ok_iff hw' hf n).2 ⟨_, h3', ?_, hn⟩
    rintro kv hkv ⟨t, c1, c2, c3, c4⟩
    obtain ⟨sh, hsh, rfl⟩ := List.mem_map.1 hkv
    obtain ⟨y, hy, hb⟩ := forall₂_mem_right h1 _ hsh
    obtain ⟨t', hb1, hb2⟩ := hb.signature
    simp only at c1 c2 c4
    rw [hb.params] at c1
    have : t = t' := by
      obtain ⟨b, e1, e2⟩ := (buildBase_spec hw hf t).2 ((h4 y hy t).1 c1)
      obtain ⟨b', e1', e2'⟩ := (buildBase_spec hw hf t').2 hb1
      rw [e1] at e1'; injection e1' with e1'; subst e1'; rw [← e2, ← e2']
    subst this
    exact hcrash y hy (fun i hi => by have := c2 i hi; rwa [hb.params] at this) _ _ hb2 c4
  obtain ⟨sh, hm, t, a1, a2, a3, a4⟩ := firstWith_mem hn
  obtain ⟨sh', hsh, e⟩ := List.mem_map.1 hm
  injection e with e1 e2; subst e2; subst e1
  obtain ⟨y, hy, hb⟩ := forall₂_mem_right h1 _ hsh
  obtain ⟨t', hb1, hb2⟩ := hb.signature
  rw [hb.params] at a1
  have : t = t' := by
    obtain ⟨b, e1, e2⟩ := (buildBase_spec hw hf t).2 ((h4 y hy t).1 a1)
    obtain ⟨b', e1', e2'⟩ := (buildBase_spec hw hf t').2 hb1
    rw [e1] at e1'; injection e1' with e1'; subst e1'; rw [← e2, ← e2']
  subst this
  refine ⟨y, hy, by rw [hok, hb.name], ?_, ?_, t, sh'.signature, hb1, hb2, a4⟩
  · intro i hi; have := a2 i hi; rwa [hb.params] at this
  · intro e he; exact a3 e (by show sh'.params.expires = _; rw [hb.params]; exact he)

/-- C01, C02 on either kind of message. -/
theorem sign_then_verify (hw : WfHeaders m.headers) (hf : ∀ r, rf = some r → WfHeaders r.headers)
    (h0 : fieldLines m.headers (c! "signature-input") = []) (h0' : fieldLines m.headers (c! "signature") = [])
    {p : SigParams} (hp : SafeParams p) (hs : NotSelf p) {name : Option Str} (hn : LegalKey (name.getD (c! "sig")))
    {sk : SigningKey} {vk : VerifyingKey} (hk : KeyPair sk vk) {h' : Headers} (h : setSignature m p sk name rf = (h', .ok ()))
    (ht : ∀ e, p.expires = some e → now ≤ e) {id : Option Str} (hid : id = none ∨ id = p.keyid) :
    verifySignature now (m.withHeaders h') vk id rf = .ok (name.getD (c! "sig")) := by
  obtain ⟨y, hy, h1, _⟩ := C03_one_of_many (l := [(p, sk, name)]) (x := (p, sk, name)) hw hf h0 h0'
    (by intro x hx; rw [List.mem_singleton.1 hx]; exact ⟨hp, hn, hs⟩) (by simp) h (by simp) hk ht hid
    (by
      intro y hy _ d s e
      rw [List.mem_singleton.1 hy] at e
      rw [hk d s e]; simp)
  rw [List.mem_singleton.1 hy] at h1; exact h1

/-- C01: a request without signatures that was signed verifies under the matching key. -/
theorem C01_request (r : Request) (hw : WfHeaders r.headers)
    (h0 : fieldLines r.headers (c! "signature-input") = []) (h0' : fieldLines r.headers (c! "signature") = [])
    {p : SigParams} (hp : SafeParams p) (hs : NotSelf p) {name : Option Str} (hn : LegalKey (name.getD (c! "sig")))
    {sk : SigningKey} {vk : VerifyingKey} (hk : KeyPair sk vk) {r' : Request} (h : r.setSignature p sk name = (r', .ok ()))
    (ht : ∀ e, p.expires = some e → now ≤ e) {id : Option Str} (hid : id = none ∨ id = p.keyid) :
    r'.verifySignature now vk id = .ok (name.getD (c! "sig")) := by
  injection h with e1 e2
  subst e1
  exact sign_then_verify (m := .req r) (rf := none) hw (by simp) h0 h0' hp hs hn hk (Prod.ext rfl e2) ht hid

/-- C02: the same for a response, with the same corresponding request, or none, in both calls. -/
theorem C02_response (s : Response) (hw : WfHeaders s.headers) (hf : ∀ r, rf = some r → WfHeaders r.headers)
    (h0 : fieldLines s.headers (c! "signature-input") = []) (h0' : fieldLines s.headers (c! "signature") = [])
    {p : SigParams} (hp : SafeParams p) (hs : NotSelf p) {name : Option Str} (hn : LegalKey (name.getD (c! "sig")))
    {sk : SigningKey} {vk : VerifyingKey} (hk : KeyPair sk vk) {s' : Response} (h : s.setSignature p sk name rf = (s', .ok ()))
    (ht : ∀ e, p.expires = some e → now ≤ e) {id : Option Str} (hid : id = none ∨ id = p.keyid) :
    s'.verifySignature now vk id rf = .ok (name.getD (c! "sig")) := by
  injection h with e1 e2
  subst e1
  exact sign_then_verify (m := .res s) (rf := rf) hw hf h0 h0' hp hs hn hk (Prod.ext rfl e2) ht hid

/-- C03, as far as it is true: the keys must not panic on signatures of other signers that carry the same key id (ECDSA keys panic on
signatures of another length, see `C03_false_shared_id`). Each entry of the list is a signer and its verifying key. -/
theorem C03_batch_partial (hw : WfHeaders m.headers) (hf : ∀ r, rf = some r → WfHeaders r.headers)
    (h0 : fieldLines m.headers (c! "signature-input") = []) (h0' : fieldLines m.headers (c! "signature") = [])
    (l : List (Signer × VerifyingKey)) (hl : l ≠ []) (hk : ∀ x ∈ l, KeyPair x.1.2.1 x.2)
    (hsafe : ∀ x ∈ l, SafeParams x.1.1 ∧ LegalKey x.1.label ∧ NotSelf x.1.1) (hnd : (l.map (·.1.label)).Nodup)
    (ht : ∀ x ∈ l, ∀ e, x.1.1.expires = some e → now ≤ e)
    (hcrash : ∀ x ∈ l, ∀ y ∈ l, (∀ i, x.1.1.keyid = some i → y.1.1.keyid = some i) → ∀ d s, y.1.2.1.sign d = .ok s → x.2.verify d s ≠ .panic)
    {h' : Headers} (h : setSignatures m (l.map (·.1)) rf = (h', .ok ())) :
    ∃ ns, verifySignatures now (m.withHeaders h') (l.map fun x => (x.2, x.1.1.keyid)) rf = .ok (ns.map .ok) ∧
      List.Forall₂ (fun x n => ∃ y ∈ l, y.1.label = n ∧ ∀ i, x.1.1.keyid = some i → y.1.1.keyid = some i) l ns := by
  have hsafe' : ∀ x ∈ l.map (·.1), SafeParams x.1 ∧ LegalKey x.label ∧ NotSelf x.1 := by
    intro x hx; obtain ⟨y, hy, rfl⟩ := List.mem_map.1 hx; exact hsafe y hy
  have hnd' : ((l.map (·.1)).map Signer.label).Nodup := by simpa [List.map_map, Function.comp_def] using hnd
  have one : ∀ x ∈ l, ∃ n, verifySignature now (m.withHeaders h') x.2 x.1.1.keyid rf = .ok n ∧
      ∃ y ∈ l, y.1.label = n ∧ ∀ i, x.1.1.keyid = some i → y.1.1.keyid = some i := by
    intro x hx
    obtain ⟨y, hy, h1, h2, _⟩ := C03_one_of_many (now := now) hw hf h0 h0' hsafe' hnd' h (List.mem_map_of_mem (f := (·.1)) hx) (hk x hx)
      (ht x hx) (Or.inr rfl) (by
        intro y hy; obtain ⟨z, hz, rfl⟩ := List.mem_map.1 hy; exact hcrash x hx z hz)
    obtain ⟨z, hz, rfl⟩ := List.mem_map.1 hy
    exact ⟨_, h1, z, hz, rfl, h2⟩
  have all : ∀ k : List (Signer × VerifyingKey), (∀ x ∈ k, x ∈ l) → ∃ ns, List.Forall₂ (fun x n =>
      verifySignature now (m.withHeaders h') x.2 x.1.1.keyid rf = .ok n ∧
      ∃ y ∈ l, y.1.label = n ∧ ∀ i, x.1.1.keyid = some i → y.1.1.keyid = some i) k ns := by
    intro k hk
    induction k with
    | nil => exact ⟨[], .nil⟩
    | cons a t ih =>
      obtain ⟨n, hn⟩ := one a (hk a (by simp))
      obtain ⟨ns, hns⟩ := ih (fun x hx => hk x (by simp [hx]))
      exact ⟨n :: ns, .cons hn hns⟩
  obtain ⟨ns, hns⟩ := all l (fun _ h => h)
  refine ⟨ns, ?_, hns.imp fun _ _ h => h.2⟩
  obtain ⟨hs, _, h2, h3, _⟩ := signed_state hw hf h0 h0' (by simpa using hl) hsafe' hnd' h
  refine C35_batch_of_single _ _ (by rw [headers_withHeaders]; exact h2) (by rw [headers_withHeaders]; exact h3) ?_
  rw [List.forall₂_map_left_iff, List.forall₂_map_right_iff]
  exact hns.imp fun _ _ h => h.1

theorem inj_of_nodup_map {α β : Type} {f : α → β} {l : List α} (h : (l.map f).Nodup) {x y : α} (hx : x ∈ l) (hy : y ∈ l) (e : f x = f y) : x = y := by
  induction l with
  | nil => cases hx
  | cons a t ih =>
    rw [List.map_cons, List.nodup_cons] at h
    rcases List.mem_cons.1 hx with rfl | hx' <;> rcases List.mem_cons.1 hy with rfl | hy'
    · rfl
    · exact absurd (by rw [e]; exact List.mem_map_of_mem hy') h.1
    · exact absurd (by rw [← e]; exact List.mem_map_of_mem hx') h.1
    · exact ih h.2 hx' hy'

/-- C03 with pairwise different key ids is true without that condition, and every key finds its own signature. -/
theorem C03_batch_distinct (hw : WfHeaders m.headers) (hf : ∀ r, rf = some r → WfHeaders r.headers)
    (h0 : fieldLines m.headers (c! "signature-input") = []) (h0' : fieldLines m.headers (c! "signature") = [])
    (l : List (Signer × VerifyingKey)) (hl : l ≠ []) (hk : ∀ x ∈ l, KeyPair x.1.2.1 x.2)
    (hsafe : ∀ x ∈ l, SafeParams x.1.1 ∧ LegalKey x.1.label ∧ NotSelf x.1.1) (hnd : (l.map (·.1.label)).Nodup)
    (ht : ∀ x ∈ l, ∀ e, x.1.1.expires = some e → now ≤ e)
    (hids : ∀ x ∈ l, x.1.1.keyid ≠ none) (hidn : (l.map (·.1.1.keyid)).Nodup)
    {h' : Headers} (h : setSignatures m (l.map (·.1)) rf = (h', .ok ())) :
    verifySignatures now (m.withHeaders h') (l.map fun x => (x.2, x.1.1.keyid)) rf = .ok (l.map fun x => .ok x.1.label) := by
  have same : ∀ x ∈ l, ∀ y ∈ l, (∀ i, x.1.1.keyid = some i → y.1.1.keyid = some i) → x = y := by
    intro x hx y hy hxy
    obtain ⟨i, hi⟩ := Option.ne_none_iff_exists'.1 (hids x hx)
    exact inj_of_nodup_map hidn hx hy (by rw [hi, hxy i hi])
  obtain ⟨ns, h1, h2⟩ := C03_batch_partial (now := now) hw hf h0 h0' l hl hk hsafe hnd ht
    (by intro x hx y hy hxy d s hs; rw [same x hx y hy hxy, hk y hy d s hs]; simp) h
  rw [h1]
  congr 1
  have : ns = l.map (·.1.label) := by
    have h3 : ∀ k : List (Signer × VerifyingKey), (∀ x ∈ k, x ∈ l) → ∀ ns, List.Forall₂ (fun x n =>
        ∃ y ∈ l, y.1.label = n ∧ ∀ i, x.1.1.keyid = some i → y.1.1.keyid = some i) k ns → ns = k.map (·.1.label) := by
      intro k hk ns hns
      induction hns with
      | nil => rfl
      | @cons x n k ns hd _ ih =>
        obtain ⟨y, hy, e1, e2⟩ := hd
        rw [List.map_cons, ← ih (fun x hx => hk x (by simp [hx])), ← e1, same x (hk x (by simp)) y hy e2]
    exact h3 l (fun _ h => h) ns h2
  rw [this, List.map_map]; rfl

/-! ### Examples -/

theorem wParams_safe {k : Str} (hk : SafeText k) : SafeParams (wParams k [⟨.field (c! "date"), []⟩, ⟨.derived .method, []⟩]) where
  created := by intro t h; injection h with h; subst h; decide
  expires := by intro t h; injection h with h; subst h; decide
  nonce := by intro t h; cases h
  alg := by intro t h; cases h
  keyid := by intro t h; injection h with h; subst h; exact hk
  tag := by intro t h; cases h
  ids := by
    intro i hi
    simp only [wParams, List.mem_cons, List.not_mem_nil, or_false] at hi
    rcases hi with rfl | rfl
    · exact ⟨⟨by simp, by simp, by simp, by intro f h; injection h with h; subst h; decide⟩,
        (by intro f h; injection h with h; subst h; decide), by simp, by simp⟩
    · exact ⟨⟨by simp, by simp, by simp, by intro f h; cases h⟩, (by intro f h; cases h), by simp, by simp⟩
  distinct := by simp [wParams, SameId]

theorem wParams_notSelf (k : Str) : NotSelf (wParams k [⟨.field (c! "date"), []⟩, ⟨.derived .method, []⟩]) := by
  intro i hi _
  simp only [wParams, List.mem_cons, List.not_mem_nil, or_false] at hi
  rcases hi with rfl | rfl
  · exact ⟨by simp, by intro f h; injection h with h; subst h; decide⟩
  · exact ⟨by simp, by intro f h; cases h⟩


/-- Two covered ids for the examples. -/
def wIds : List CId := [⟨.field (c! "date"), []⟩, ⟨.derived .method, []⟩]

set_option maxRecDepth 20000 in
/-- C01 has instances: the example request is signed, and verifies at the last possible moment. -/
example : ∃ r', exReq.setSignature (wParams (c! "k") wIds) (toySign 7) none = (r', .ok ()) ∧
    r'.verifySignature 100 (toyVerify 7) none = .ok (c! "sig") ∧ r'.verifySignature 100 (toyVerify 7) (some (c! "k")) = .ok (c! "sig") := by
  refine ⟨_, rfl, ?_, ?_⟩
  · exact C01_request (now := 100) exReq exReq_wf (by decide) (by decide) (wParams_safe (by decide)) (wParams_notSelf _) (name := none)
      (by decide) (toy_pair 7) rfl (by intro e h; injection h with h; subst h; decide) (Or.inl rfl)
  · exact C01_request (now := 100) exReq exReq_wf (by decide) (by decide) (wParams_safe (by decide)) (wParams_notSelf _) (name := none)
      (by decide) (toy_pair 7) rfl (by intro e h; injection h with h; subst h; decide) (Or.inr rfl)

end Verif
