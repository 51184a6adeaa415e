import Verif.Props.C83
/-!
C84: what keys are used for. A verifying key is asked only about the signature bases of the carried signatures that are for its id and not
expired, and a signing key signs only the signature bases of the parameters given for it. Stated without instrumentation: replacing a key
by one that answers these questions alike changes nothing.
-/
namespace Verif
open Spec Sfv

/-- The questions for a verifying key: data and signature. -/
def Asked (now : UInt64) (m : Msg) (rf : Option Request) (id : Option Str) (d s : Bytes) : Prop :=
  ∃ l, Wire.Carries m.headers l ∧ ∃ kv ∈ l, Wire.ForKey id kv.2 ∧ Wire.InTime now kv.2 ∧
    ∃ t, Wire.BaseOf m rf kv.2.params t ∧ d = utf8 t ∧ s = kv.2.signature

/-- The text ends with the line of the signature parameters, so it is a signature base and nothing else. -/
def IsBaseText (t : Str) : Prop := ∃ a b, t = a ++ c! "\"@signature-params\": (" ++ b ∧ (a = [] ∨ a.getLast? = some '\n')

section
variable {m : Msg} {rf : Option Request} {now : UInt64}

theorem verifyOne_asked (hw : WfHeaders m.headers) (hf : ∀ r, rf = some r → WfHeaders r.headers) {l : List (Str × SigHeaders)}
    (hl : extractSignatureHeaders m = .ok l) {k k' : VerifyingKey} {id : Option Str}
    (h : ∀ d s, Asked now m rf id d s → k'.verify d s = k.verify d s) :
    verifyOne now (l.filterMap (entryOf m rf)) k' id = verifyOne now (l.filterMap (entryOf m rf)) k id := by
  have hc := (extractSignatureHeaders_ok hw l).1 hl
  rw [verifyOne_eq, verifyOne_eq, filterKeyId_eq]
  have e : ∀ x ∈ cands m rf id l, tryOne now k' x = tryOne now k x := by
    intro x hx
    obtain ⟨kv, h1, h2, h3, _, h5⟩ := mem_cands.1 hx
    have : x.2.1.verify now k' x.2.2 = x.2.1.verify now k x.2.2 := by
      unfold SigBase.verify
      by_cases he : x.2.2.params.isExpired now = true
      · rw [if_pos he, if_pos he]
      · rw [if_neg he, if_neg he]
        refine h _ _ ⟨l, wireCarries_iff.2 hc, kv, h1, wireForKey_iff.2 h3, wireInTime_iff.2 ?_, x.2.1.disp, ?_, rfl, by rw [h5]⟩
        · rw [h5] at he
          exact isExpired_false.1 (by simpa using he)
        · exact wireBaseOf_iff.2 ((buildBase_spec hw hf _).1 ⟨_, h2, rfl⟩)
    unfold tryOne
    rw [this]
  have f : ∀ L : List (Str × (SigBase × SigHeaders)), (∀ x ∈ L, tryOne now k' x = tryOne now k x) →
      (Res.filterOk (tryOne now k') L : Res HyperErr (List Str)) = Res.filterOk (tryOne now k) L := by
    intro L hL
    induction L with
    | nil => rfl
    | cons a t ih => simp only [Res.filterOk, hL a (by simp), ih fun x hx => hL x (by simp [hx])]
  have g := f _ e
  unfold cands at g
  rw [g]

/-- C84: verification asks a key only about signature bases of carried signatures that are for its id and not expired. -/
theorem C84_verify (hw : WfHeaders m.headers) (hf : ∀ r, rf = some r → WfHeaders r.headers) {k k' : VerifyingKey} {id : Option Str}
    (h : ∀ d s, Asked now m rf id d s → k'.verify d s = k.verify d s) :
    verifySignature now m k' id rf = verifySignature now m k id rf := by
  rw [verifySignature_eq, verifySignature_eq]
  cases hl : extractSignatureHeaders m with
  | ok l => exact verifyOne_asked hw hf hl h
  | err e => rfl
  | panic => rfl

/-- C84: the same for many keys. -/
theorem C84_verify_many (hw : WfHeaders m.headers) (hf : ∀ r, rf = some r → WfHeaders r.headers) {keys keys' : List (VerifyingKey × Option Str)}
    (h : List.Forall₂ (fun k k' => k'.2 = k.2 ∧ ∀ d s, Asked now m rf k.2 d s → k'.1.verify d s = k.1.verify d s) keys keys') :
    verifySignatures now m keys' rf = verifySignatures now m keys rf := by
  rw [verifySignatures_eq, verifySignatures_eq]
  cases hl : extractSignatureHeaders m with
  | ok l =>
    show verifyInner now _ keys' = verifyInner now _ keys
    unfold verifyInner
    congr 1
    induction h with
    | nil => rfl
    | cons hx _ ih => rw [List.map_cons, List.map_cons, ih, hx.1, verifyOne_asked hw hf hl hx.2]
  | err e => rfl
  | panic => rfl

/-- C84: there are at most as many questions as carried signatures. -/
theorem C84_verify_count (hw : WfHeaders m.headers) (hf : ∀ r, rf = some r → WfHeaders r.headers) {id : Option Str} {l : List (Str × SigHeaders)}
    (hl : Wire.Carries m.headers l) : ∃ Q : List (Bytes × Bytes), Q.length ≤ l.length ∧ ∀ d s, Asked now m rf id d s → (d, s) ∈ Q := by
  have he := (extractSignatureHeaders_ok hw l).2 (wireCarries_iff.1 hl)
  refine ⟨l.filterMap fun kv => (buildBase m kv.2.params rf).toOpt.map fun b => (b.bytes, kv.2.signature), List.length_filterMap_le _ _, ?_⟩
  rintro d s ⟨l', h1, kv, h2, _, _, t, h5, rfl, rfl⟩
  have he' := (extractSignatureHeaders_ok hw l').2 (wireCarries_iff.1 h1)
  rw [he] at he'
  injection he' with he'; subst he'
  obtain ⟨b, b1, b2⟩ := (buildBase_spec hw hf t).2 (wireBaseOf_iff.1 h5)
  exact List.mem_filterMap.2 ⟨kv, h2, by rw [b1]; simp [SigBase.bytes, b2]⟩

/-- C84: signing asks a key only for signatures of the signature base of the parameters given for it. -/
theorem C84_sign (hw : WfHeaders m.headers) (hf : ∀ r, rf = some r → WfHeaders r.headers) {l l' : List Signer}
    (h : List.Forall₂ (fun x x' => x'.1 = x.1 ∧ x'.2.2 = x.2.2 ∧ ∀ t, Wire.BaseOf m rf x.1 t → x'.2.1.sign (utf8 t) = x.2.1.sign (utf8 t)) l l') :
    setSignatures m l' rf = setSignatures m l rf := by
  have key : (∃ e, signBases m l' rf = .err e ∧ signBases m l rf = .err e) ∨ (signBases m l' rf = .panic ∧ signBases m l rf = .panic) ∨
      ∃ bs bs', signBases m l' rf = .ok bs' ∧ signBases m l rf = .ok bs ∧
        List.Forall₂ (fun b b' => b'.1 = b.1 ∧ b'.2.2 = b.2.2 ∧ b'.2.1.sign b.1.bytes = b.2.1.sign b.1.bytes) bs bs' := by
    unfold signBases
    induction h with
    | nil => exact Or.inr (Or.inr ⟨[], [], rfl, rfl, .nil⟩)
    | @cons x x' l l' hx _ ih =>
      simp only [Res.collect, hx.1]
      cases hb : buildBase m x.1 rf with
      | err e => exact Or.inl ⟨e, rfl, rfl⟩
      | panic => exact Or.inr (Or.inl ⟨rfl, rfl⟩)
      | ok b =>
        rcases ih with ⟨e, h1, h2⟩ | ⟨h1, h2⟩ | ⟨bs, bs', h1, h2, h3⟩
        · exact Or.inl ⟨e, by simp only [Res.bind_ok, h1], by simp only [Res.bind_ok, h2]⟩
        · exact Or.inr (Or.inl ⟨by simp only [Res.bind_ok, h1], by simp only [Res.bind_ok, h2]⟩)
        · refine Or.inr (Or.inr ⟨(b, x.2) :: bs, (b, x'.2) :: bs', by simp only [Res.bind_ok, h1], by simp only [Res.bind_ok, h2], .cons ⟨rfl, hx.2.1, ?_⟩ h3⟩)
          exact hx.2.2 b.disp (wireBaseOf_iff.2 ((buildBase_spec hw hf _).1 ⟨b, hb, rfl⟩))
  unfold setSignatures
  rcases key with ⟨e, h1, h2⟩ | ⟨h1, h2⟩ | ⟨bs, bs', h1, h2, h3⟩
  · rw [h1, h2]
  · rw [h1, h2]
  · rw [h1, h2]
    have : signAll bs' = signAll bs := by
      unfold signAll
      have : bs'.map (fun bkn => bkn.1.headers bkn.2.1 bkn.2.2) = bs.map fun bkn => bkn.1.headers bkn.2.1 bkn.2.2 := by
        clear h1 h2
        induction h3 with
        | nil => rfl
        | cons hx _ ih =>
          rw [List.map_cons, List.map_cons, ih]
          simp only [SigBase.headers, SigBase.rawSignature, hx.1, hx.2.1, hx.2.2]
      rw [this]
    simp only [Res.bind_ok, this]

/-- C84: every signature base ends with the line `"@signature-params": (…`, so a key used only with this library never signs anything else,
and never accepts anything else. -/
theorem C84_domain {p : SigParams} {t : Str} (h : Wire.BaseOf m rf p t) : IsBaseText t := by
  obtain ⟨a, h1, rfl⟩ := h
  refine ⟨a, (paramsText p).tail, ?_, ?_⟩
  · rw [show (c! "\"@signature-params\": (" : Str) = c! "\"@signature-params\": " ++ ['('] from rfl]
    simp [paramsText]
  · generalize p.covered = c at h1
    induction h1 with
    | nil => exact Or.inl rfl
    | cons hv ht ih =>
      right
      rcases ih with rfl | ih
      · rw [List.append_nil, List.getLast?_append]; rfl
      · rw [List.getLast?_append, ih]; rfl

/-- C84: so it is enough to have keys that answer for such texts. -/
theorem C84_domain_keys (hw : WfHeaders m.headers) (hf : ∀ r, rf = some r → WfHeaders r.headers) {vk vk' : VerifyingKey} {sk sk' : SigningKey}
    (hv : ∀ t s, IsBaseText t → vk'.verify (utf8 t) s = vk.verify (utf8 t) s) (hs : ∀ t, IsBaseText t → sk'.sign (utf8 t) = sk.sign (utf8 t)) :
    (∀ id, verifySignature now m vk' id rf = verifySignature now m vk id rf) ∧
    ∀ p name, setSignature m p sk' name rf = setSignature m p sk name rf := by
  constructor
  · intro id
    refine C84_verify hw hf ?_
    rintro d s ⟨_, _, _, _, _, _, t, h, rfl, _⟩
    exact hv t s (C84_domain h)
  · intro p name
    exact C84_sign hw hf (.cons ⟨rfl, rfl, fun t h => hs t (C84_domain h)⟩ .nil)

end

/-! ### Examples -/

/-- A key that knows one answer. -/
def c84Key (d s : Bytes) : VerifyingKey := ⟨fun d' s' => if d' = d ∧ s' = s then .ok () else .panic, [], .ed25519⟩

-- the signed request of C82 has one signature and so one question; a key that knows this answer only does as well as the key of its holder
example : verifySignature 0 (.req c82Signed) (c84Key (utf8 c82Text) [1]) (some (c! "k")) none =
    verifySignature 0 (.req c82Signed) (onlyKey c82Text) (some (c! "k")) none := by
  refine C84_verify (m := .req c82Signed) c82Signed_wf.headers (by simp) ?_
  rintro d s ⟨l, h1, kv, h2, _, _, t, h3, rfl, rfl⟩
  have e1 := (extractSignatureHeaders_ok (m := .req c82Signed) c82Signed_wf.headers l).2 (wireCarries_iff.1 h1)
  have e2 : extractSignatureHeaders (.req c82Signed) = .ok [(c! "sig", ⟨c! "sig", [1], c82Info⟩)] := by decide +kernel
  rw [e2] at e1
  injection e1 with e1
  rw [← e1, List.mem_singleton] at h2
  subst h2
  obtain ⟨b, b1, b2⟩ := (buildBase_spec (m := .req c82Signed) (rf := none) c82Signed_wf.headers (by simp) t).2 (wireBaseOf_iff.1 h3)
  have b3 : buildBase (.req c82Signed) c82Info none = .ok ⟨[⟨⟨.derived .method, []⟩, .plain (c! "POST")⟩], c82Info⟩ := by decide +kernel
  rw [b3] at b1
  injection b1 with b1
  subst b1 b2
  rfl
-- for another key id it is not asked at all
example : verifySignature 0 (.req c82Signed) ⟨fun _ _ => .panic, [], .ed25519⟩ (some (c! "z")) none = .err .noSignatureHeaders := by decide +kernel

end Verif
