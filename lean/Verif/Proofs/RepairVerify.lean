import Verif.Proofs.RepairBase
import Verif.Proofs.Canon
/-! Verification by the repaired library; its bases determine what was signed. -/
namespace Verif.Repair
open Sfv Spec Spec.Repaired

variable {now : UInt64} {m : Msg} {rf : Option Request} {k : VerifyingKey} {id : Option Str}

/-- An entry with its base, if it can be built. -/
def entryOf (m : Msg) (rf : Option Request) (kv : Str × SigHeaders) : Option (Str × (SigBase × SigHeaders)) :=
  (buildBase m kv.2.params rf).toOpt.map (fun b => (kv.1, (b, kv.2)))

theorem extractSignatures_eq (m : Msg) (rf : Option Request) :
    extractSignatures m rf = (extractSignatureHeaders m >>= fun l => .ok (l.filterMap (entryOf m rf))) := by
  unfold extractSignatures
  cases hl : extractSignatureHeaders m with
  | err e => rfl
  | panic => rfl
  | ok l =>
    simp only [Res.bind_ok]
    rw [Res.filterOk_of_not_panic]
    · have e : (fun kv : Str × SigHeaders => Res.toOpt (do
          let b ← buildBase m kv.2.params rf
          Res.ok (ε := HyperErr) (kv.1, (b, kv.2)))) = entryOf m rf := by
        funext kv
        unfold entryOf
        cases buildBase m kv.2.params rf <;> rfl
      simp only [Res.bind_ok]
      rw [e, imOfList_of_nodup]
      apply filterMap_keys_nodup (extractSignatureHeaders_nodup (extractSignatureHeaders_ok_iff.1 hl))
      intro kv x hx
      unfold entryOf at hx
      obtain ⟨b, _, rfl⟩ := Option.map_eq_some_iff.1 hx
      rfl
    · intro kv _ hp
      rcases Res.bind_eq_panic.1 hp with h | ⟨b, _, h⟩
      · exact buildBase_ne_panic _ _ _ h
      · cases h

theorem buildBase_params {p : SigParams} {b : SigBase} (h : buildBase m p rf = .ok b) : b.params = p := (buildBase_ok.1 h).1

/-- Verification of one candidate. -/
def tryOne (now : UInt64) (k : VerifyingKey) (x : Str × (SigBase × SigHeaders)) : Res SigErr Str := do
  verifyBase now x.2.1 k x.2.2
  Res.ok x.1

theorem verifyBase_ok {b : SigBase} {h : SigHeaders} :
    verifyBase now b k h = .ok () ↔ InTime now h ∧ k.verify (utf8 (baseDisp b)) h.signature = .ok () := by
  unfold verifyBase
  cases he : h.params.isExpired now with
  | true =>
    simp only [if_true, reduceCtorEq, false_iff, not_and]
    intro hi
    rw [isExpired_false.2 hi] at he; cases he
  | false => simp [isExpired_false.1 he]

theorem tryOne_ne_panic (hk : NoPanic k) (x : Str × (SigBase × SigHeaders)) : tryOne now k x ≠ .panic := by
  refine bind_ne_panic ?_ (by simp)
  unfold verifyBase
  split
  · simp
  · exact hk _ _

/-- The label under which an entry is accepted. -/
def accepted (now : UInt64) (m : Msg) (rf : Option Request) (k : VerifyingKey) (id : Option Str) (kv : Str × SigHeaders) : Option Str :=
  ((entryOf m rf kv).filter (keyTest id)).bind (fun x => (tryOne now k x).toOpt)

theorem accepted_iff (hw : WfHeaders m.headers) (hf : ∀ r, rf = some r → WfHeaders r.headers) (kv : Str × SigHeaders) (n : Str) :
    accepted now m rf k id kv = some n ↔ kv.1 = n ∧ Repaired.Accepts now m rf k id kv.2 := by
  unfold accepted
  rw [Option.bind_eq_some_iff]
  have hid : ∀ b, buildBase m kv.2.params rf = .ok b → (keyTest id (kv.1, (b, kv.2)) = true ↔ ForKey id kv.2) := by
    intro b hb
    unfold keyTest ForKey
    cases id with
    | none => simp
    | some i => simp [SigBase.keyid, buildBase_params hb]
  constructor
  · rintro ⟨x, hx, ht⟩
    obtain ⟨h1, h2⟩ := Option.filter_eq_some_iff.1 hx
    unfold entryOf at h1
    obtain ⟨b, hb, rfl⟩ := Option.map_eq_some_iff.1 h1
    have hb := Res.toOpt_eq_some.1 hb
    obtain ⟨u, h3, h4⟩ := Res.bind_eq_ok.1 (Res.toOpt_eq_some.1 ht)
    injection h4 with h4
    obtain ⟨h5, h6⟩ := verifyBase_ok.1 h3
    exact ⟨h4, _, (buildBase_spec hw hf _).1 ⟨b, hb, rfl⟩, (hid b hb).1 h2, h5, h6⟩
  · rintro ⟨rfl, t, h1, h2, h3, h4⟩
    obtain ⟨b, hb, rfl⟩ := (buildBase_spec hw hf _).2 h1
    refine ⟨(kv.1, (b, kv.2)), Option.filter_eq_some_iff.2 ⟨?_, (hid b hb).2 h2⟩, Res.toOpt_eq_some.2 ?_⟩
    · unfold entryOf; rw [hb]; rfl
    · exact Res.bind_eq_ok.2 ⟨(), verifyBase_ok.2 ⟨h3, h4⟩, rfl⟩

theorem names_eq (l : List (Str × SigHeaders)) :
    (filterKeyId (l.filterMap (entryOf m rf)) id).filterMap (fun x => (tryOne now k x).toOpt) = l.filterMap (accepted now m rf k id) := by
  rw [filterKeyId_eq, List.filterMap_filter, List.filterMap_filterMap]
  apply List.filterMap_congr
  intro kv _
  unfold accepted
  cases entryOf m rf kv with
  | none => rfl
  | some x => cases h : keyTest id x <;> simp [h, Option.filter]

theorem verifyOne_eq (hk : NoPanic k) (l : List (Str × SigHeaders)) :
    verifyOne now (l.filterMap (entryOf m rf)) k id =
      (if filterKeyId (l.filterMap (entryOf m rf)) id = [] then .err .noSignatureHeaders
       else match (l.filterMap (accepted now m rf k id)).head? with
        | none => .err .invalidSignature
        | some n => .ok n) := by
  unfold verifyOne
  simp only
  congr 1
  have : (fun kv : Str × (SigBase × SigHeaders) => (do verifyBase now kv.2.1 k kv.2.2; Res.ok kv.1 : Res SigErr Str)) = tryOne now k := rfl
  rw [this, Res.filterOk_of_not_panic (fun x _ => tryOne_ne_panic hk x)]
  simp only
  rw [names_eq, ← isOfList_head]
  cases isOfList (l.filterMap (accepted now m rf k id)) <;> rfl

theorem verifyOne_ok (hk : NoPanic k) (hw : WfHeaders m.headers) (hf : ∀ r, rf = some r → WfHeaders r.headers)
    (l : List (Str × SigHeaders)) (n : Str) :
    verifyOne now (l.filterMap (entryOf m rf)) k id = .ok n ↔ FirstWith (Repaired.Accepts now m rf k id) l n := by
  rw [verifyOne_eq hk]
  have key : (l.filterMap (accepted now m rf k id)).head? = some n ↔ FirstWith (Repaired.Accepts now m rf k id) l n := by
    rw [List.head?_filterMap, List.findSome?_eq_some_iff]
    unfold FirstWith
    constructor
    · rintro ⟨l1, x, l2, e, h1, h2⟩
      obtain ⟨rfl, h3⟩ := (accepted_iff hw hf x n).1 h1
      refine ⟨l1, x.2, l2, e, h3, ?_⟩
      intro kv hkv ha
      have := (accepted_iff hw hf kv kv.1).2 ⟨rfl, ha⟩
      rw [h2 kv hkv] at this; cases this
    · rintro ⟨l1, h, l2, e, h1, h2⟩
      refine ⟨l1, (n, h), l2, e, (accepted_iff hw hf _ n).2 ⟨rfl, h1⟩, ?_⟩
      intro kv hkv
      cases ha : accepted now m rf k id kv with
      | none => rfl
      | some x => exact absurd ((accepted_iff hw hf kv x).1 ha).2 (h2 kv hkv)
  constructor
  · intro h
    split at h
    · cases h
    · split at h
      · cases h
      · rename_i e; injection h with h; subst h; exact key.1 e
  · intro h
    rw [if_neg, key.2 h]
    intro e
    have := key.2 h
    rw [← names_eq, e] at this
    cases this

theorem verifyOne_ne_panic (hk : NoPanic k) (l : List (Str × SigHeaders)) : verifyOne now (l.filterMap (entryOf m rf)) k id ≠ .panic := by
  rw [verifyOne_eq hk]
  split
  · simp
  split <;> simp

theorem noHeaders (h : hasMessageSignature m.headers = false) : extractSignatureHeaders m = .err .noSignatureHeaders := by
  unfold extractSignatureHeaders
  simp only
  rw [if_pos]
  unfold hasMessageSignature at h
  rw [Bool.and_comm, h]; simp

theorem verifySignatures_eq (now : UInt64) (m : Msg) (keys : List (VerifyingKey × Option Str)) (rf : Option Request) :
    verifySignatures now m keys rf =
      (extractSignatureHeaders m >>= fun l => gather (keys.map (fun ki => verifyOne now (l.filterMap (entryOf m rf)) ki.1 ki.2))) := by
  unfold verifySignatures
  cases h : hasMessageSignature m.headers with
  | false => rw [noHeaders h]; rfl
  | true =>
    simp only [not_true, if_false]
    rw [extractSignatures_eq]
    cases extractSignatureHeaders m <;> rfl

theorem verifySignature_eq (now : UInt64) (m : Msg) (k : VerifyingKey) (id : Option Str) (rf : Option Request) :
    verifySignature now m k id rf =
      (extractSignatureHeaders m >>= fun l => verifyOne now (l.filterMap (entryOf m rf)) k id) := by
  unfold verifySignature
  rw [verifySignatures_eq]
  cases extractSignatureHeaders m with
  | err e => rfl
  | panic => rfl
  | ok l =>
    simp only [Res.bind_ok, List.map_cons, List.map_nil]
    cases verifyOne now (l.filterMap (entryOf m rf)) k id <;> rfl

theorem extract_ok (hw : WfHeaders m.headers) (l : List (Str × SigHeaders)) : extractSignatureHeaders m = .ok l ↔ Carries m.headers l :=
  extractSignatureHeaders_ok_iff.trans (Verif.extractSignatureHeaders_ok hw l)

theorem verifySignature_ok (hk : NoPanic k) (hw : WfHeaders m.headers) (hf : ∀ r, rf = some r → WfHeaders r.headers) (n : Str) :
    verifySignature now m k id rf = .ok n ↔ ∃ l, Carries m.headers l ∧ FirstWith (Repaired.Accepts now m rf k id) l n := by
  rw [verifySignature_eq, Res.bind_eq_ok]
  exact exists_congr fun l => and_congr (extract_ok hw l) (verifyOne_ok hk hw hf l n)

/-! ### What a base determines -/

theorem carried_writable {h : Headers} {l : List (Str × SigHeaders)} (hc : Carries h l) {kv : Str × SigHeaders} (hkv : kv ∈ l) :
    Writable kv.2.params := by
  obtain ⟨ts, us, a, b, _, _, _, _, _, hb, hA⟩ := hc
  obtain ⟨_, _, e, he, hp⟩ := hA.pairing kv hkv
  exact ofEntry_is_writable ((parseDict_legal hb).2 _ he).2 hp

theorem hasValue_line (hm : WfMsg m) (hf : ∀ r, rf = some r → WfRequest r) {i : CId} {v : Str} (hv : Repaired.HasValue m rf i v) :
    OneLine v := by
  have one : ∀ {m : Msg}, WfMsg m → Repaired.ValueIn m i v → OneLine v := by
    intro m hm hv
    obtain ⟨n, ps⟩ := i
    cases n with
    | field f =>
      obtain ⟨ts, out, h1, h2, _, h4⟩ := hv
      exact fieldValue_oneLine ⟨ts, out, h1, h2, h4⟩
    | derived d =>
      unfold Repaired.ValueIn at hv
      simp only at hv
      split at hv
      · obtain ⟨r, rfl, _, rfl⟩ := hv
        have hu : OneLineUri r.uri := hm.uri
        unfold target
        split
        · exact oneLine_getD hu.authority
        · have := requestValue_oneLine (r := { r with method := [] }) ⟨hm.headers, oneLine_nil, hm.uri⟩ (d := .requestTarget) (ps := [])
            (v := r.uri.pathAndQuery.getD []) (by simp [RequestValue])
          exact this
      · exact valueIn_oneLine hm hv
  unfold Repaired.HasValue at hv
  split at hv
  · obtain ⟨s, r, _, hr, hv⟩ := hv
    exact one (m := .req r) (hf r hr) hv
  · exact one hm hv

theorem splitOn_lines (f : CId → Str) (ids : List CId) (vs : List Str) (last : Str) (hlen : ids.length = vs.length)
    (hi : ∀ i ∈ ids, OneLine (f i)) (hv : ∀ v ∈ vs, OneLine v) (hp : OneLine last) :
    splitOn '\n' ((List.zipWith (fun i v => f i ++ c! ": " ++ v ++ c! "\n") ids vs).flatten ++ c! "\"@signature-params\": " ++ last) =
      List.zipWith (fun i v => f i ++ c! ": " ++ v) ids vs ++ [c! "\"@signature-params\": " ++ last] := by
  induction ids generalizing vs with
  | nil =>
    simp only [List.zipWith_nil_left, List.flatten_nil, List.nil_append]
    exact splitOn_no _ (oneLine_append (by decide) hp)
  | cons i t ih =>
    cases vs with
    | nil => simp at hlen
    | cons v vs =>
      have h1 : OneLine (f i ++ c! ": " ++ v) := oneLine_append (oneLine_append (hi i (by simp)) (by decide)) (hv v (by simp))
      have e : (List.zipWith (fun i v => f i ++ c! ": " ++ v ++ c! "\n") (i :: t) (v :: vs)).flatten ++ c! "\"@signature-params\": " ++ last
          = (f i ++ c! ": " ++ v) ++ '\n' :: ((List.zipWith (fun i v => f i ++ c! ": " ++ v ++ c! "\n") t vs).flatten ++ c! "\"@signature-params\": " ++ last) := by
        simp
      rw [e, splitOn_append _ _ h1, ih vs (by simpa using hlen) (fun j hj => hi j (by simp [hj])) (fun w hw => hv w (by simp [hw]))]
      simp

theorem serInner_disp (p : SigParams) : serInner (listOf p) = disp p := by
  rw [disp_eq, ← listOf_eq]; rfl

theorem zip_values (f : CId → Str) (ids : List CId) (vs ws : List Str) (h1 : ids.length = vs.length) (h2 : ids.length = ws.length)
    (h : List.zipWith (fun i v => f i ++ c! ": " ++ v) ids vs = List.zipWith (fun i v => f i ++ c! ": " ++ v) ids ws) : vs = ws := by
  induction ids generalizing vs ws with
  | nil => simp at h1 h2; rw [List.length_eq_zero_iff.1 h1.symm, List.length_eq_zero_iff.1 h2.symm]
  | cons i t ih =>
    cases vs with
    | nil => simp at h1
    | cons v vs =>
      cases ws with
      | nil => simp at h2
      | cons w ws =>
        simp only [List.zipWith_cons_cons, List.cons.injEq] at h
        rw [List.append_cancel_left h.1, ih vs ws (by simpa using h1) (by simpa using h2) h.2]

/-- The lines of a base. -/
theorem base_lines (hm : WfMsg m) (hf : ∀ r, rf = some r → WfRequest r) {p : SigParams} (hp : Writable p) {vs : List Str}
    (hv : List.Forall₂ (Repaired.HasValue m rf) p.covered vs) :
    splitOn '\n' ((List.zipWith (fun i v => serItem (itemOf i) ++ c! ": " ++ v ++ c! "\n") p.covered vs).flatten ++
      c! "\"@signature-params\": " ++ serInner (listOf p)) =
      List.zipWith (fun i v => serItem (itemOf i) ++ c! ": " ++ v) p.covered vs ++ [c! "\"@signature-params\": " ++ serInner (listOf p)] := by
  refine splitOn_lines (fun i => serItem (itemOf i)) _ _ _ hv.length_eq ?_ ?_ ?_
  · intro i hi
    rw [itemOf_eq]
    exact printable_oneLine (serItem_printable (idItem_writable (hp.ids i hi)))
  · intro v h
    obtain ⟨i, _, hx⟩ := forall₂_mem_right hv v h
    exact hasValue_line hm hf hx
  · rw [serInner_disp, disp_eq]
    exact printable_oneLine (serEntry_printable (paramsEntry_writable hp))

/-- Equal bases: equal parameters and equal values. -/
theorem base_determines {m' : Msg} {rf' : Option Request} (hm : WfMsg m) (hm' : WfMsg m') (hf : ∀ r, rf = some r → WfRequest r)
    (hf' : ∀ r, rf' = some r → WfRequest r) {p p' : SigParams} (hp : Writable p) (hp' : Writable p') {t t' : Str}
    (h : Repaired.BaseOf m rf p t) (h' : Repaired.BaseOf m' rf' p' t') (e : utf8 t = utf8 t') :
    p = p' ∧ ∃ vs, List.Forall₂ (Repaired.HasValue m rf) p.covered vs ∧ List.Forall₂ (Repaired.HasValue m' rf') p.covered vs := by
  obtain ⟨vs, h1, rfl⟩ := h
  obtain ⟨ws, h2, rfl⟩ := h'
  have e := congrArg (splitOn '\n') (utf8_inj e)
  rw [base_lines hm hf hp h1, base_lines hm' hf' hp' h2] at e
  obtain ⟨e1, e2⟩ := List.append_inj' e rfl
  simp only [List.cons.injEq, and_true] at e2
  have e3 := List.append_cancel_left e2
  rw [serInner_disp, serInner_disp] at e3
  have hpp : p = p' := by
    have := ofStr_disp_writable hp
    rw [e3, ofStr_disp_writable hp'] at this
    injection this with this; exact this.symm
  subst hpp
  refine ⟨rfl, vs, h1, ?_⟩
  rw [zip_values _ _ _ _ h1.length_eq h2.length_eq e1]
  exact h2

end Verif.Repair
