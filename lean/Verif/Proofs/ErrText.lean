import Verif.Model.ErrText
import Verif.Proofs.Hyper
/-!
The functions of `Model/ErrText.lean` without the messages are the functions of the other model files.
-/
namespace Verif
open Sfv

namespace Res
variable {ε ε' δ α β : Type}

theorem mapErr_bind' {g : ε → ε'} (x : Res ε α) (f : α → Res ε β) : (x >>= f).mapErr g = x.mapErr g >>= fun a => (f a).mapErr g := by
  cases x <;> rfl

theorem mapErr_ofOption (g : ε → ε') (e : ε) (o : Option α) : (ofOption e o).mapErr g = ofOption (g e) o := by cases o <;> rfl

theorem mapErr_comp (g : ε → ε') (f : δ → ε) (x : Res δ α) : (x.mapErr f).mapErr g = x.mapErr (fun e => g (f e)) := by cases x <;> rfl

theorem mapErr_self (x : Res ε α) : x.mapErr (fun e => e) = x := by cases x <;> rfl

theorem mapErr_collect {g : ε → ε'} {f : α → Res ε β} {f' : α → Res ε' β} {l : List α} (h : ∀ a ∈ l, (f a).mapErr g = f' a) :
    (collect f l).mapErr g = collect f' l := by
  induction l with
  | nil => rfl
  | cons a t ih =>
    have h1 := h a (by simp)
    have h2 := ih (fun b hb => h b (by simp [hb]))
    simp only [collect, ← h1, ← h2]
    cases f a with
    | ok b => simp only [mapErr_ok]; cases collect f t <;> rfl
    | _ => rfl

theorem filterOk_mapErr {g : ε → ε'} {f : α → Res ε β} {f' : α → Res ε' β} {l : List α} (h : ∀ a ∈ l, (f a).mapErr g = f' a) {δ' : Type} (g' : δ → δ') :
    (filterOk f l : Res δ _).mapErr g' = filterOk f' l := by
  induction l with
  | nil => rfl
  | cons a t ih =>
    have h1 := h a (by simp)
    have h2 := ih (fun b hb => h b (by simp [hb]))
    simp only [filterOk, ← h1, ← h2]
    cases f a with
    | ok b => simp only [mapErr_ok]; cases (filterOk f t : Res δ _) <;> rfl
    | err e => rfl
    | panic => rfl

end Res

section
variable (L : ErrLib)

theorem ofBareT_kind (b : Bare) : (CName.ofBareT L b).mapErr SigErrT.kind = CName.ofBare b := by
  cases b with
  | str s => simp only [CName.ofBareT, Res.mapErr_comp, Res.mapErr_self]
  | _ => rfl

theorem ofKVT_kind (kv : Str × Bare) : (CParam.ofKVT kv).mapErr SigErrT.kind = CParam.ofKV kv := by
  unfold CParam.ofKVT CParam.ofKV
  repeat' split
  all_goals first | rfl | (cases asString kv.2 <;> rfl)

theorem cparamsOfT_kind (p : Params) : (cparamsOfT p).mapErr SigErrT.kind = cparamsOf p := by
  unfold cparamsOfT cparamsOf
  rw [Res.mapErr_bind', Res.mapErr_collect (fun a _ => ofKVT_kind a)]
  rfl

theorem sfValueT_kind (v : Str) : (sfValueT v).mapErr SigErrT.kind = sfValue v := by
  unfold sfValueT sfValue
  cases parseList v with
  | some l => exact Res.mapErr_ofOption _ _ _
  | none =>
    cases parseDict v with
    | some d => exact Res.mapErr_ofOption _ _ _
    | none => rfl

theorem handleSfT_kind (vs : List Str) : (handleSfT vs).mapErr SigErrT.kind = handleSf vs := Res.mapErr_collect (fun a _ => sfValueT_kind a)

theorem handleKeyT_kind (vs : List Str) (k : Str) : (handleKeyT L vs k).mapErr SigErrT.kind = handleKey vs k := by
  unfold handleKeyT handleKey
  rw [Res.mapErr_bind', Res.mapErr_collect (fun a _ => Res.mapErr_ofOption _ _ _)]
  congr 1
  funext ds
  exact Res.mapErr_collect (fun a _ => Res.mapErr_ofOption _ _ _)

theorem checkT_kind (a : CId) : (CId.checkT a).mapErr SigErrT.kind = CId.check a := by
  unfold CId.checkT CId.check
  split
  · rfl
  · split <;> rfl

theorem ofItemT_kind (i : Item) : (CId.ofItemT L i).mapErr SigErrT.kind = CId.ofItem i := by
  unfold CId.ofItemT CId.ofItem
  simp only [Res.mapErr_bind', ofBareT_kind, cparamsOfT_kind, checkT_kind]

theorem ofStrT_kind (s : Str) : (CId.ofStrT L s).mapErr SigErrT.kind = CId.ofStr s := by
  unfold CId.ofStrT CId.ofStr
  simp only [Res.mapErr_bind', Res.mapErr_ofOption, ofItemT_kind]
  split <;> rfl

theorem componentOfStrT_kind (s : Str) : (Component.ofStrT L s).mapErr SigErrT.kind = Component.ofStr s := by
  unfold Component.ofStrT Component.ofStr
  cases splitOnce ':' s with
  | none => rfl
  | some iv =>
    simp only
    split
    · rw [Res.mapErr_bind', ofStrT_kind]; rfl
    · rfl

theorem derivedValueT_kind (d : Derived) (ps : List CParam) (vs : List Str) :
    (derivedValueT d ps vs).mapErr SigErrT.kind = derivedValue d ps vs := by
  cases d <;> simp only [derivedValueT, derivedValue]
  case queryParam => cases ps.findSome? CParam.nameOf <;> rfl
  case signatureParams =>
    cases vs with
    | nil => rfl
    | cons v t => simp only; cases splitOnce '=' (trim v) <;> rfl
  all_goals cases vs <;> rfl

theorem buildDerivedT_kind (id : CId) (vs : List Str) : (buildDerivedT id vs).mapErr SigErrT.kind = buildDerived id vs := by
  unfold buildDerivedT buildDerived
  cases id.name with
  | field f => rfl
  | derived d =>
    simp only
    split
    · rfl
    · split
      · rfl
      · simp only [Res.mapErr_bind', derivedValueT_kind]; rfl

theorem fieldParamsT_kind (ps : List CParam) (vs : List Str) : (fieldParamsT L ps vs).mapErr SigErrT.kind = fieldParams ps vs := by
  induction ps generalizing vs with
  | nil => rfl
  | cons p t ih =>
    cases p <;> simp only [fieldParamsT, fieldParams, Res.mapErr_bind', handleSfT_kind, handleKeyT_kind, ih] <;> rfl

theorem buildT_kind (id : CId) (vs : List Str) : (Component.buildT L id vs).mapErr SigErrT.kind = Component.build id vs := by
  obtain ⟨n, ps⟩ := id
  cases n with
  | field f => simp only [Component.buildT, Component.build, buildField, Res.mapErr_bind', fieldParamsT_kind]; rfl
  | derived d => simp only [Component.buildT, Component.build]; exact buildDerivedT_kind _ _

theorem tryNewT_kind (now : UInt64) (ids : List CId) : (SigParams.tryNewT now ids).mapErr SigErrT.kind = SigParams.tryNew now ids := by
  unfold SigParams.tryNewT SigParams.tryNew
  split <;> rfl

theorem ofEntryT_kind (e : Entry) : (SigParams.ofEntryT L e).mapErr SigErrT.kind = SigParams.ofEntry e := by
  cases e with
  | item i => rfl
  | inner l =>
    simp only [SigParams.ofEntryT, SigParams.ofEntry, Res.mapErr_bind']
    rw [Res.mapErr_collect (fun a _ => ofStrT_kind L _)]
    congr 1
    funext ids
    split
    · rfl
    · rw [Res.mapErr_comp, Res.mapErr_self]

theorem paramsOfStrT_kind (s : Str) : (SigParams.ofStrT L s).mapErr SigErrT.kind = SigParams.ofStr s := by
  unfold SigParams.ofStrT SigParams.ofStr
  simp only [Res.mapErr_bind', Res.mapErr_ofOption]
  congr 1
  funext l
  match l with
  | [] => rfl
  | [.inner i] => exact ofEntryT_kind L _
  | [.item _] => rfl
  | .inner _ :: _ :: _ => rfl
  | .item _ :: _ :: _ => rfl

theorem parseOneT_kind (a : Dict) (kv : Str × Entry) : (parseOneT L a kv).mapErr SigErrT.kind = parseOne a kv := by
  unfold parseOneT parseOne
  simp only [Res.mapErr_bind', ofEntryT_kind]
  congr 1
  funext p
  cases (imGet a kv.1).bind entryBytes <;> rfl

theorem tryParseT_kind (s t : Str) : (SigHeaders.tryParseT L s t).mapErr SigErrT.kind = SigHeaders.tryParse s t := by
  unfold SigHeaders.tryParseT SigHeaders.tryParse
  simp only [Res.mapErr_bind', Res.mapErr_ofOption]
  congr 1
  funext input
  congr 1
  funext signature
  split
  · rfl
  split
  · rfl
  split
  · rfl
  split
  · rfl
  rw [Res.mapErr_bind', Res.mapErr_collect (fun a _ => parseOneT_kind L _ _)]
  rfl

theorem baseTryNewT_kind (ls : List Component) (p : SigParams) : (SigBase.tryNewT ls p).mapErr SigErrT.kind = SigBase.tryNew ls p := by
  unfold SigBase.tryNewT SigBase.tryNew
  split
  · rfl
  · split <;> rfl

theorem headersT_kind (b : SigBase) (k : SigningKey) (n : Option Str) : (b.headersT L k n).mapErr SigErrT.kind = b.headers k n := by
  unfold SigBase.headersT
  rw [Res.mapErr_comp, Res.mapErr_self]

theorem up_kind {α : Type} (x : Res SigErrT α) : (x.mapErr SigErrT.up).mapErr HyperErrT.kind = (x.mapErr SigErrT.kind).mapErr .httpSig := by
  rw [Res.mapErr_comp, Res.mapErr_comp]; rfl

theorem methodT_kind (m : Msg) : m.methodT.mapErr HyperErrT.kind = m.method := by cases m <;> rfl
theorem uriT_kind (m : Msg) : m.uriT.mapErr HyperErrT.kind = m.uri := by cases m <;> rfl
theorem statusT_kind (m : Msg) : m.statusT.mapErr HyperErrT.kind = m.status := by cases m <;> rfl

theorem headerTextsT_kind (h : Headers) (n : Str) : (headerTextsT L h n).mapErr HyperErrT.kind = headerTexts h n :=
  Res.mapErr_collect (fun _ _ => Res.mapErr_ofOption _ _ _)

theorem extractSignatureHeadersT_kind (m : Msg) : (extractSignatureHeadersT L m).mapErr HyperErrT.kind = extractSignatureHeaders m := by
  unfold extractSignatureHeadersT extractSignatureHeaders
  simp only
  split
  · rfl
  · simp only [Res.mapErr_bind', headerTextsT_kind, up_kind, tryParseT_kind]

theorem extractHttpFieldT_kind (m : Msg) (id : CId) : (extractHttpFieldT L m id).mapErr HyperErrT.kind = extractHttpField m id := by
  unfold extractHttpFieldT extractHttpField
  cases id.name with
  | derived d => rfl
  | field f => simp only [Res.mapErr_bind', headerTextsT_kind, up_kind, buildT_kind]

theorem checkDerivedParamT_kind (m : Msg) (d : Derived) (p : CParam) :
    (checkDerivedParamT m d p).mapErr HyperErrT.kind = checkDerivedParam m d p := by
  cases p <;> simp only [checkDerivedParamT, checkDerivedParam] <;> first | rfl | (split <;> rfl)

theorem checkDerivedParamsT_kind (m : Msg) (d : Derived) (ps : List CParam) :
    (checkDerivedParamsT m d ps).mapErr HyperErrT.kind = checkDerivedParams m d ps := by
  induction ps with
  | nil => rfl
  | cons p t ih => simp only [checkDerivedParamsT, checkDerivedParams, Res.mapErr_bind', checkDerivedParamT_kind, ih]

theorem checkDerivedKindT_kind (m : Msg) (d : Derived) (ps : List CParam) :
    (checkDerivedKindT m d ps).mapErr HyperErrT.kind = checkDerivedKind m d ps := by
  unfold checkDerivedKindT checkDerivedKind
  cases m <;> simp only <;> repeat' split
  all_goals rfl

theorem derivedValuesT_kind (m : Msg) (d : Derived) : (derivedValuesT m d).mapErr HyperErrT.kind = derivedValues m d := by
  cases d <;> simp only [derivedValuesT, derivedValues, Res.mapErr_bind', methodT_kind, uriT_kind, statusT_kind] <;> try rfl
  congr 1
  funext x
  split
  · simp only [Res.mapErr_bind', uriT_kind]; rfl
  · split
    · rfl
    · simp only [Res.mapErr_bind', uriT_kind]; rfl

theorem extractDerivedT_kind (m : Msg) (id : CId) : (extractDerivedT L m id).mapErr HyperErrT.kind = extractDerived m id := by
  unfold extractDerivedT extractDerived
  cases id.name with
  | field f => rfl
  | derived d => simp only [Res.mapErr_bind', checkDerivedParamsT_kind, checkDerivedKindT_kind, derivedValuesT_kind, up_kind, buildT_kind]

theorem extractComponentT_kind (m : Msg) (id : CId) : (extractComponentT L m id).mapErr HyperErrT.kind = extractComponent m id := by
  unfold extractComponentT extractComponent
  cases id.name with
  | field f => exact extractHttpFieldT_kind L _ _
  | derived d => exact extractDerivedT_kind L _ _

theorem extractForT_kind (m : Msg) (rf : Option Request) (id : CId) : (extractForT L m rf id).mapErr HyperErrT.kind = extractFor m rf id := by
  unfold extractForT extractFor
  split
  · split
    · rfl
    · cases rf with
      | none => rfl
      | some r => exact extractComponentT_kind L _ _
  · exact extractComponentT_kind L _ _

theorem buildBaseT_kind (m : Msg) (p : SigParams) (rf : Option Request) : (buildBaseT L m p rf).mapErr HyperErrT.kind = buildBase m p rf := by
  unfold buildBaseT buildBase
  rw [Res.mapErr_bind', Res.mapErr_collect (fun a _ => extractForT_kind L m rf a)]
  simp only [up_kind, baseTryNewT_kind]

theorem extractSignaturesT_kind (m : Msg) (rf : Option Request) : (extractSignaturesT L m rf).mapErr HyperErrT.kind = extractSignatures m rf := by
  unfold extractSignaturesT extractSignatures
  rw [Res.mapErr_bind', extractSignatureHeadersT_kind]
  congr 1
  funext l
  rw [Res.mapErr_bind', Res.filterOk_mapErr (f' := fun kv => do let b ← buildBase m kv.2.params rf; Res.ok (kv.1, (b, kv.2))) (g := HyperErrT.kind)
    (fun a _ => by simp only [Res.mapErr_bind', buildBaseT_kind]; rfl)]
  rfl

theorem verifyOneT_kind (now : UInt64) (map : List (Str × (SigBase × SigHeaders))) (k : VerifyingKey) (i : Option Str) :
    (verifyOneT now map k i).mapErr HyperErrT.kind = verifyOne now map k i := by
  unfold verifyOneT verifyOne
  simp only
  split
  · rfl
  · have := Res.filterOk_mapErr (δ := HyperErrT) (δ' := HyperErr) (g := fun e : SigErr => e) (l := filterKeyId map i)
      (f := fun kv => do kv.2.1.verify now k kv.2.2; Res.ok kv.1) (f' := fun kv => do kv.2.1.verify now k kv.2.2; Res.ok kv.1)
      (fun a _ => Res.mapErr_self _) HyperErrT.kind
    rw [← this]
    generalize (Res.filterOk (fun kv : Str × (SigBase × SigHeaders) => do kv.2.1.verify now k kv.2.2; Res.ok kv.1) (filterKeyId map i) : Res HyperErrT (List Str)) = r
    cases r with
    | ok ns =>
      simp only [Res.mapErr_ok]
      cases isOfList ns <;> rfl
    | _ => rfl

theorem gather_mapErr {α ε δ γ γ' : Type} (k : ε → δ) (g : γ → γ') (l : List (Res ε α)) :
    (gather (l.map (Res.mapErr k)) : Res γ' _) = (gather l : Res γ _).mapErr g >>= fun r => .ok (r.map (Except.mapError k)) := by
  induction l with
  | nil => rfl
  | cons x t ih =>
    cases x with
    | panic => rfl
    | ok a =>
      simp only [List.map_cons, Res.mapErr_ok, gather, ih]
      cases (gather t : Res γ _) <;> rfl
    | err e =>
      simp only [List.map_cons, Res.mapErr_err, gather, ih]
      cases (gather t : Res γ _) <;> rfl

theorem verifySignaturesT_kind (now : UInt64) (m : Msg) (ks : List (VerifyingKey × Option Str)) (rf : Option Request) :
    ((verifySignaturesT L now m ks rf).mapErr HyperErrT.kind >>= fun r => .ok (r.map (Except.mapError HyperErrT.kind))) =
      verifySignatures now m ks rf := by
  unfold verifySignaturesT verifySignatures
  split
  · rfl
  · rw [Res.mapErr_bind', extractSignaturesT_kind]
    cases extractSignatures m rf with
    | ok map =>
      simp only [Res.bind_ok, verifyInner]
      rw [← gather_mapErr HyperErrT.kind HyperErrT.kind, List.map_map]
      congr 1
      apply List.map_congr_left
      intro ki _
      exact verifyOneT_kind _ _ _ _
    | _ => rfl

theorem verifySignatureT_kind (now : UInt64) (m : Msg) (k : VerifyingKey) (i : Option Str) (rf : Option Request) :
    (verifySignatureT L now m k i rf).mapErr HyperErrT.kind = verifySignature now m k i rf := by
  unfold verifySignatureT verifySignature
  rw [← verifySignaturesT_kind L]
  cases verifySignaturesT L now m [(k, i)] rf with
  | ok l =>
    simp only [Res.bind_ok, Res.mapErr_ok, List.getLast?_map]
    cases l.getLast? with
    | none => rfl
    | some r => cases r <;> rfl
  | _ => rfl

theorem signBasesT_kind (m : Msg) (l : List (SigParams × SigningKey × Option Str)) (rf : Option Request) :
    (signBasesT L m l rf).mapErr HyperErrT.kind = signBases m l rf := by
  unfold signBasesT signBases
  apply Res.mapErr_collect
  intro a _
  rw [Res.mapErr_bind', buildBaseT_kind]
  rfl

theorem signAllT_kind (l : List (SigBase × SigningKey × Option Str)) : (signAllT L l).mapErr HyperErrT.kind = signAll l := by
  unfold signAllT signAll
  have h : l.map (fun bkn => bkn.1.headers bkn.2.1 bkn.2.2) = (l.map (fun bkn => bkn.1.headersT L bkn.2.1 bkn.2.2)).map (Res.mapErr SigErrT.kind) := by
    rw [List.map_map]
    apply List.map_congr_left
    intro x _
    exact (headersT_kind L _ _ _).symm
  rw [h, gather_mapErr SigErrT.kind HyperErrT.kind, Res.mapErr_bind']
  generalize (gather (l.map (fun bkn => bkn.1.headersT L bkn.2.1 bkn.2.2)) : Res HyperErrT _) = r
  cases r with
  | ok rs =>
    simp only [Res.bind_ok, Res.mapErr_ok]
    rw [Res.collect_map]
    apply Res.mapErr_collect
    intro a _
    cases a <;> rfl
  | _ => rfl

theorem setSignaturesT_kind (m : Msg) (l : List (SigParams × SigningKey × Option Str)) (rf : Option Request) :
    (setSignaturesT L m l rf).1 = (setSignatures m l rf).1 ∧ (setSignaturesT L m l rf).2.mapErr HyperErrT.kind = (setSignatures m l rf).2 := by
  have h : (signBasesT L m l rf >>= fun bs => signAllT L bs).mapErr HyperErrT.kind = (signBases m l rf >>= fun bs => signAll bs) := by
    rw [Res.mapErr_bind', signBasesT_kind]
    simp only [signAllT_kind]
  unfold setSignaturesT setSignatures
  rw [← h]
  cases signBasesT L m l rf >>= fun bs => signAllT L bs with
  | ok hs =>
    simp only [Res.mapErr_ok, appendAllT]
    exact ⟨trivial, by rw [Res.mapErr_comp, Res.mapErr_self]⟩
  | _ => exact ⟨rfl, rfl⟩

theorem digestOfStrT_kind (s : Str) : (DigestType.ofStrT s).mapErr DigestErrT.kind = DigestType.ofStr s := by
  unfold DigestType.ofStrT DigestType.ofStr
  split
  · rfl
  · split <;> rfl

theorem setDigestT_kind (t : DigestType) (h : Headers) (b : Body) : (setDigestT t h b).mapErr DigestErrT.kind = setDigest t h b := by
  unfold setDigestT setDigest
  cases b with
  | fail => rfl
  | data b => simp only; cases hvOfStr (digestText t b) <;> rfl

theorem extractDigestT_kind (h : Headers) : (extractDigestT L h).mapErr DigestErrT.kind = extractDigest h := by
  unfold extractDigestT extractDigest
  simp only [Res.mapErr_bind', Res.mapErr_ofOption]
  congr 1; funext v
  congr 1; funext s
  congr 1; funext d
  split
  · rfl
  · match d with
    | [] => rfl
    | (k, e) :: t =>
      simp only [Res.mapErr_bind', Res.mapErr_comp]
      rw [← digestOfStrT_kind, Res.mapErr_comp]
      congr 1; funext ty
      split
      · rfl
      · cases entryBytes e <;> rfl

theorem verifyDigestT_kind (h : Headers) (b : Body) : (verifyDigestT L h b).mapErr DigestErrT.kind = verifyDigest h b := by
  unfold verifyDigestT verifyDigest
  simp only [Res.mapErr_bind', extractDigestT_kind]
  congr 1; funext te
  cases b with
  | fail => rfl
  | data b => simp only; split <;> rfl

end

end Verif
