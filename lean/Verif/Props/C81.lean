import Verif.Props.C80
import Verif.Props.C08
import Verif.Props.C09
/-!
C81: requests and responses. A signature is good for one kind of message only if it covers anything but fields of the message itself
and `@signature-params`, and a response is bound to its request by the components with `req`.
-/
namespace Verif
open Spec Sfv

/-- A component that requests and responses have alike. -/
def Neutral (i : CId) : Prop := CParam.req ∉ i.params ∧ ((∃ f, i.name = .field f) ∨ i.name = .derived .signatureParams)

section
variable {m : Msg} {rf : Option Request} {now : UInt64}

/-- C81: a component has a value in a request and in a response only if it is neutral. -/
theorem C81_kind {r : Request} {s : Response} {rf rf' : Option Request} {i : CId} {v w : Str}
    (h : Wire.HasValue (.req r) rf i v) (h' : Wire.HasValue (.res s) rf' i w) : Neutral i := by
  obtain ⟨n, ps⟩ := i
  rcases h with ⟨hr, h⟩ | ⟨_, _, _, e, _⟩
  · rcases h' with ⟨_, h'⟩ | ⟨hr', _⟩
    · refine ⟨hr, ?_⟩
      cases n with
      | field f => exact Or.inl ⟨f, rfl⟩
      | derived d => cases d <;> simp_all [Wire.ValueIn, Wire.RequestValue, Wire.ResponseValue]
    · exact absurd hr' hr
  · cases e

/-- C81: if the key accepts only what its holder signed, an accepted message is of the kind that was signed, unless the signature covers
nothing but neutral components. -/
theorem C81_same_kind {vk : VerifyingKey} {S : Signing → Prop} (hS : OnlySigned vk S) (hwf : ∀ x, S x → x.Wf ∧ SafeParams x.p)
    (hm : WfMsg m) (hf : ∀ r, rf = some r → WfRequest r) (hsafe : ∀ l, Carries m.headers l → ∀ kv ∈ l, SafeParams kv.2.params)
    {id : Option Str} {n : Str} (h : verifySignature now m vk id rf = .ok n) :
    ∃ l sh x, Wire.Carries m.headers l ∧ (n, sh) ∈ l ∧ S x ∧ x.p = sh.params ∧
      (x.m.isReq = m.isReq ∨ ∀ i ∈ sh.params.covered, Neutral i) := by
  obtain ⟨l, sh, h1, h2, x, h3, h4, h5⟩ := C09_safe hS hwf hm hf hsafe h
  refine ⟨l, sh, x, wireCarries_iff.2 h1, h2, h3, h4, ?_⟩
  cases hx : x.m with
  | req r =>
    cases m with
    | req r' => exact Or.inl rfl
    | res s =>
      refine Or.inr fun i hi => ?_
      obtain ⟨v, a, b⟩ := h5 i hi
      rw [hx] at b
      exact C81_kind (wireHasValue_iff.2 b) (wireHasValue_iff.2 a)
  | res s =>
    cases m with
    | res s' => exact Or.inl rfl
    | req r =>
      refine Or.inr fun i hi => ?_
      obtain ⟨v, a, b⟩ := h5 i hi
      rw [hx] at b
      exact C81_kind (wireHasValue_iff.2 a) (wireHasValue_iff.2 b)

/-- C81: the exception is real: signatures over neutral components say the same of a request and of a response with the same fields. -/
theorem C81_replay {r : Request} {s : Response} {rf rf' : Option Request} (hw : WfHeaders r.headers) (hf : ∀ r, rf = some r → WfHeaders r.headers)
    (hf' : ∀ r, rf' = some r → WfHeaders r.headers) (hh : s.headers = r.headers)
    (h : ∀ l, Wire.Carries r.headers l → ∀ kv ∈ l, ∀ i ∈ kv.2.params.covered, Neutral i) (keys : List (VerifyingKey × Option Str)) :
    verifySignatures now (.req r) keys rf = verifySignatures now (.res s) keys rf' ∧
    ∀ k id, verifySignature now (.req r) k id rf = verifySignature now (.res s) k id rf' := by
  have hw' : WfHeaders (Msg.res s).headers := by show WfHeaders s.headers; rw [hh]; exact hw
  have he : extractSignatureHeaders (.req r) = extractSignatureHeaders (.res s) := by
    unfold extractSignatureHeaders
    rw [show (Msg.res s).headers = (Msg.req r).headers from hh]
  refine verify_congr_base (m := .req r) (m' := .res s) hw hw' hf hf' he ?_ now keys
  intro l hl kv hkv t
  have hc := h l (wireCarries_iff.2 ((extractSignatureHeaders_ok (m := .req r) hw l).1 hl)) kv hkv
  have hv : ∀ i ∈ kv.2.params.covered, ∀ v, HasValue (.req r) rf i v ↔ HasValue (.res s) rf' i v := by
    intro i hi v
    obtain ⟨hr, hn⟩ := hc i hi
    unfold HasValue
    rw [if_neg hr, if_neg hr]
    obtain ⟨n, ps⟩ := i
    rcases hn with ⟨f, hn⟩ | hn
    · simp only at hn
      subst hn
      simp only [ValueIn, Msg.headers, hh]
    · simp only at hn hr
      subst hn
      simp only [ValueIn, RequestValue, ResponseValue, hh]
      have e : DerivedParams .signatureParams ps ↔ ps = [] := by
        constructor
        · intro h
          cases ps with
          | nil => rfl
          | cons p t =>
            rcases h p List.mem_cons_self with rfl | ⟨h, _⟩
            · exact absurd List.mem_cons_self hr
            · cases h
        · rintro rfl; simp [DerivedParams]
      rw [e]
  rw [← wireBaseOf_iff, ← wireBaseOf_iff]
  refine wireBase_congr (fun i hi v => ?_) t
  rw [wireHasValue_iff, wireHasValue_iff]
  exact hv i hi v

/-- C81: what `req` says: if the accepted signature of a response covers a component with `req`, the holder signed a response to a request
in which this component had the same value as in the request at hand. -/
theorem C81_answers {s : Response} {vk : VerifyingKey} {S : Signing → Prop} (hS : OnlySigned vk S) (hwf : ∀ x, S x → x.Wf ∧ SafeParams x.p)
    (hm : WfMsg (.res s)) (hf : ∀ r, rf = some r → WfRequest r) (hsafe : ∀ l, Carries s.headers l → ∀ kv ∈ l, SafeParams kv.2.params)
    {id : Option Str} {n : Str} (h : s.verifySignature now vk id rf = .ok n) :
    ∃ l sh x, Wire.Carries s.headers l ∧ (n, sh) ∈ l ∧ S x ∧ x.p = sh.params ∧
      ∀ i ∈ sh.params.covered, CParam.req ∈ i.params →
        ∃ r s' r' v, rf = some r ∧ x.m = .res s' ∧ x.rf = some r' ∧ Wire.ValueIn (.req r) i v ∧ Wire.ValueIn (.req r') i v := by
  obtain ⟨l, sh, h1, h2, x, h3, h4, h5⟩ := C09_safe (m := .res s) hS hwf hm hf hsafe h
  refine ⟨l, sh, x, wireCarries_iff.2 h1, h2, h3, h4, ?_⟩
  intro i hi hr
  obtain ⟨v, a, b⟩ := h5 i hi
  unfold HasValue at a b
  rw [if_pos hr] at a b
  obtain ⟨s1, r, _, hr1, a⟩ := a
  obtain ⟨s', r', hx, hr2, b⟩ := b
  exact ⟨r, s', r', v, hr1, hx, hr2, wireValueIn_iff.2 a, wireValueIn_iff.2 b⟩

/-- C81: in particular, a response whose accepted signature covers `"@method";req` and `"@target-uri";req` was signed as the answer to a
request with the same method (up to letter case) and the same URI text. -/
theorem C81_answers_target {s : Response} {r : Request} {vk : VerifyingKey} {S : Signing → Prop} (hS : OnlySigned vk S)
    (hwf : ∀ x, S x → x.Wf ∧ SafeParams x.p) (hm : WfMsg (.res s)) (hf : WfRequest r)
    (hsafe : ∀ l, Carries s.headers l → ∀ kv ∈ l, SafeParams kv.2.params)
    {id : Option Str} {n : Str} (h : s.verifySignature now vk id (some r) = .ok n)
    (hc : ∀ l, Wire.Carries s.headers l → ∀ sh, (n, sh) ∈ l →
      ⟨.derived .method, [.req]⟩ ∈ sh.params.covered ∧ ⟨.derived .targetUri, [.req]⟩ ∈ sh.params.covered) :
    ∃ x s' r', S x ∧ x.m = .res s' ∧ x.rf = some r' ∧ r'.method.map Char.toUpper = r.method.map Char.toUpper ∧
      Wire.uriText r'.uri = Wire.uriText r.uri := by
  obtain ⟨l, sh, x, h1, h2, h3, _, h5⟩ := C81_answers hS hwf hm (by rintro _ ⟨⟩; exact hf) hsafe h
  obtain ⟨c1, c2⟩ := hc l h1 sh h2
  obtain ⟨r0, s1, r1, v1, e1, e2, e3, ⟨_, a1⟩, ⟨_, b1⟩⟩ := h5 _ c1 (by simp)
  obtain ⟨r0', s2, r2, v2, f1, f2, f3, ⟨_, a2⟩, ⟨_, b2⟩⟩ := h5 _ c2 (by simp)
  injection e1 with e1; subst e1
  injection f1 with f1; subst f1
  rw [e3] at f3; injection f3 with f3; subst f3
  exact ⟨x, s1, r1, h3, e2, e3, b1.symm.trans a1, b2.symm.trans a2⟩

end

/-! ### Examples -/

/-- Parameters over method and URI of the request. -/
def c81Params : SigParams := exParams [⟨.derived .method, [.req]⟩, ⟨.derived .targetUri, [.req]⟩]

theorem c81_safe : SafeParams c81Params where
  created := by intro t h; cases h
  expires := by intro t h; cases h
  nonce := by intro t h; cases h
  alg := by intro t h; cases h
  keyid := by intro t h; cases h
  tag := by intro t h; cases h
  ids := by
    intro i hi
    simp only [c81Params, exParams, List.mem_cons, List.not_mem_nil, or_false] at hi
    rcases hi with rfl | rfl <;>
      exact ⟨⟨by decide, by simp, by simp, by intro f h; cases h⟩, (by intro f h; cases h), (by simp), by simp⟩
  distinct := by simp [c81Params, exParams, SameId]

/-- The signed text. -/
def c81Text : Str := c! "\"@method\";req: POST\n\"@target-uri\";req: " ++ exUri.toStr ++ c! "\n\"@signature-params\": (\"@method\";req \"@target-uri\";req)"

/-- The signed response. -/
def c81Res : Response := { exRes with headers := exRes.headers ++ sigLines ⟨c! "sig", [1], c81Params⟩ }

theorem c81Res_wf : WfHeaders c81Res.headers := by
  have h : ∀ kv ∈ c81Res.headers, kv.1 ∈ [c! "date", c! "signature", c! "signature-input"] := by decide +kernel
  intro kv hkv
  have := h kv hkv
  simp only [List.mem_cons, List.not_mem_nil, or_false] at this
  rcases this with e | e | e <;> rw [e] <;> exact ⟨by decide, by decide, by decide⟩

theorem c81Res_carries (l : List (Str × SigHeaders)) (h : Carries c81Res.headers l) : l = [(c! "sig", ⟨c! "sig", [1], c81Params⟩)] := by
  have h1 := (extractSignatureHeaders_ok (m := .res c81Res) c81Res_wf l).2 h
  have h2 : extractSignatureHeaders (.res c81Res) = .ok [(c! "sig", ⟨c! "sig", [1], c81Params⟩)] := by decide +kernel
  rw [h2] at h1
  injection h1 with h1
  exact h1.symm

theorem c81_only : OnlySigned (onlyKey c81Text) (· = ⟨.res exRes, some exReq, c81Params⟩) := by
  refine onlyKey_spec (x := ⟨.res exRes, some exReq, c81Params⟩) ?_
  refine (buildBase_spec (m := .res exRes) (rf := some exReq) exRes_wf (by rintro r ⟨⟩; exact exReq_wf) c81Text).1 ?_
  exact ⟨⟨[⟨⟨.derived .method, [.req]⟩, .plain (c! "POST")⟩, ⟨⟨.derived .targetUri, [.req]⟩, .plain exUri.toStr⟩], c81Params⟩, by decide +kernel, by decide +kernel⟩

-- accepted with a request that differs in its fields only, and the theorem gives the request that was answered
example : ∃ x s' r', x = (⟨.res exRes, some exReq, c81Params⟩ : Signing) ∧ x.m = .res s' ∧ x.rf = some r' ∧
    r'.method.map Char.toUpper = c! "POST" ∧ Wire.uriText r'.uri = Wire.uriText exUri :=
  C81_answers_target (now := 0) (r := { exReq with headers := [] }) (id := none) (n := c! "sig") c81_only
    (by rintro x rfl; exact ⟨⟨exRes_wf, (by rintro r ⟨⟩; exact exReq_wfReq), safe_one_line c81_safe⟩, c81_safe⟩) c81Res_wf
    ⟨(by intro kv h; cases h), exReq_wfReq.method, exReq_wfReq.uri⟩
    (by intro l hl kv hkv; rw [c81Res_carries l hl, List.mem_singleton] at hkv; subst hkv; exact c81_safe)
    (by decide +kernel)
    (by
      intro l hl sh hsh
      rw [c81Res_carries l (wireCarries_iff.1 hl), List.mem_singleton] at hsh
      injection hsh with _ hsh; subst hsh
      simp [c81Params, exParams])
-- with another method or another URI it is not accepted
example : c81Res.verifySignature 0 (onlyKey c81Text) none (some { exReq with method := c! "GET" }) = .err .invalidSignature ∧
    c81Res.verifySignature 0 (onlyKey c81Text) none (some { exReq with uri := { exUri with query := none } }) = .err .invalidSignature ∧
    c81Res.verifySignature 0 (onlyKey c81Text) none none = .err .noSignatureHeaders := by decide +kernel

/-- C81: a response signed over fields alone, sent back as a request, verifies. -/
theorem C81_reflected : ∃ (r : Request) (s : Response), (exRes.setSignature (exParams [⟨.field (c! "date"), []⟩]) (toySign 1) none none).1 = s ∧
    r.headers = s.headers ∧ r.verifySignature 0 (toyVerify 1) none = .ok (c! "sig") :=
  ⟨{ exReq with headers := (exRes.setSignature (exParams [⟨.field (c! "date"), []⟩]) (toySign 1) none none).1.headers }, _, rfl, rfl, by decide +kernel⟩

end Verif
