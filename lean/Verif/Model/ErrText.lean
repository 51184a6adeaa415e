import Verif.Model.Hyper
import Verif.Model.Digest
/-!
Errors with their messages. The functions are those of Model/Component.lean, SigParams.lean, SigBase.lean, Hyper.lean and Digest.lean, with the
message beside the kind of every error; Props/C103.lean proves that without the messages they are the same. Errors of keys are in
KeyText.lean.
-/
namespace Verif
open Sfv

/-- Messages of other crates: errors of the parser of `sfv` for an item, a list and a dictionary, `Debug` of a bare item, errors of `to_str` and of
parsing a header value in `http`, and errors of a signing key (the keys of the library do not fail). -/
structure ErrLib where
  item : Str → Str
  list : Str → Str
  dict : Str → Str
  bare : Bare → Str
  toStr : Str
  headerValue : Str
  key : SigErr → Str

/-- `HttpSigError` with its message. -/
structure SigErrT where
  kind : SigErr
  text : Str
  deriving DecidableEq, Repr

/-- `HyperSigError` with its message; for `HttpSigError` the message of that. -/
structure HyperErrT where
  kind : HyperErr
  text : Str
  deriving DecidableEq, Repr

/-- `HyperDigestError` with its message. -/
structure DigestErrT where
  kind : DigestErr
  text : Str
  deriving DecidableEq, Repr

/-- The `#[error(...)]` attributes of httpsig/src/error.rs 9-69, without the message. -/
def SigErr.label : SigErr → Str
  | .base64Decode => c! "Base64 decode error: "
  | .parsePrivateKey => c! "Failed to parse private key: "
  | .parsePublicKey => c! "Failed to parse public key: "
  | .parseSignature => c! "Failed to parse signature: "
  | .invalidSignature => c! "Invalid Signature: "
  | .parseSFV => c! "Failed to parse structured field value: "
  | .invalidComponentName => c! "Invalid http message component name: "
  | .invalidComponentParam => c! "Invalid http message component param: "
  | .invalidComponentId => c! "Invalid http message component id: "
  | .invalidComponent => c! "Invalid http message component: "
  | .invalidSignatureParams => c! "Invalid signature params: "
  | .buildSignatureHeader => c! "Failed to build signature header: "
  | .buildSignatureBase => c! "Failed to build signature base: "
  | .expiredSignatureParams => c! "Expired signature params: "
  | .invalidAlgorithmName => c! "Invalid algorithm name: "
  | .notYetImplemented => c! "Not yet implemented: "

/-- The `#[error(...)]` attributes of httpsig-hyper/src/error.rs 11-36. -/
def HyperErr.label : HyperErr → Str
  | .noSignatureHeaders => c! "No signature headers found: "
  | .toStr => c! "Failed to stringify signature headers: "
  | .invalidHeaderValue => c! "Failed to parse header value: "
  | .invalidComponentName => c! "Invalid component name: "
  | .invalidComponentParam => c! "Invalid component param: "
  | .invalidSignature => c! "Invalid signature: "
  | .httpSig e => c! "HttpSigError: " ++ e.label

/-- The `#[error(...)]` attributes of httpsig-hyper/src/error.rs 46-67. -/
def DigestErr.label : DigestErr → Str
  | .httpBody => c! "Http body error: "
  | .noDigestHeader => c! "No content-digest header found: "
  | .invalidHeaderValue => c! "Failed to parse header value: "
  | .toStr => c! "Failed to stringify content-digest header: "
  | .invalidContentDigest => c! "Invalid content-digest: "
  | .invalidContentDigestType => c! "Invalid content-digest type: "

/-- `Display` (derived by thiserror). -/
def SigErrT.disp (e : SigErrT) : Str := e.kind.label ++ e.text
/-- `Display` (derived by thiserror). -/
def HyperErrT.disp (e : HyperErrT) : Str := e.kind.label ++ e.text
/-- `Display` (derived by thiserror). -/
def DigestErrT.disp (e : DigestErrT) : Str := e.kind.label ++ e.text

/-- `#[from] HttpSigError`, httpsig-hyper/src/error.rs 36. -/
def SigErrT.up (e : SigErrT) : HyperErrT := ⟨.httpSig e.kind, e.text⟩

section
variable (L : ErrLib)

/-! ### httpsig/src/message_component -/

/-- component_name.rs 14-30. The first character decides, as in `CName.ofBare`; a panic has no message. -/
def CName.ofBareT : Bare → Res SigErrT CName
  | .str s => (CName.ofBare (.str s)).mapErr (⟨·, []⟩)
  | b => .err ⟨.invalidComponentName, c! "Invalid http message component name: " ++ L.bare b⟩

/-- component_param.rs 40-65. -/
def CParam.ofKVT (kv : Str × Bare) : Res SigErrT CParam :=
  if kv.1 = c! "sf" then .ok .sf
  else if kv.1 = c! "bs" then .ok .bs
  else if kv.1 = c! "tr" then .ok .tr
  else if kv.1 = c! "req" then .ok .req
  else if kv.1 = c! "name" then do
    let n ← Res.ofOption ⟨.invalidComponentParam, c! "Invalid http field param: name"⟩ (asString kv.2)
    .ok (.name n)
  else if kv.1 = c! "key" then do
    let n ← Res.ofOption ⟨.invalidComponentParam, c! "Invalid http field param: key"⟩ (asString kv.2)
    .ok (.key n)
  else .err ⟨.invalidComponentParam, c! "Invalid http field param: " ++ kv.1⟩

/-- component_param.rs 79-88. -/
def cparamsOfT (p : Params) : Res SigErrT (List CParam) := do
  let l ← Res.collect CParam.ofKVT p
  .ok (isOfList l)

/-- component_param.rs 105-125. -/
def sfValueT (v : Str) : Res SigErrT Str :=
  match parseList v with
  | some l => Res.ofOption ⟨.invalidComponentParam, c! "Failed to parse structured field value: Failed to serialize structured field value for sf"⟩ (serList l)
  | none =>
    match parseDict v with
    | some d => Res.ofOption ⟨.invalidComponentParam, c! "Failed to parse structured field value: Failed to serialize structured field value for sf"⟩ (serDict d)
    | none => .err ⟨.invalidComponentParam, c! "Failed to parse structured field value: invalid structured field value for sf"⟩

/-- component_param.rs 105-125. -/
def handleSfT (vs : List Str) : Res SigErrT (List Str) := Res.collect sfValueT vs

/-- component_param.rs 129-150. -/
def handleKeyT (vs : List Str) (key : Str) : Res SigErrT (List Str) := do
  let dicts ← Res.collect (fun v => Res.ofOption ⟨.invalidComponentParam, c! "Failed to parse structured field value: " ++ L.dict v⟩ (parseDict v)) vs
  let found := dicts.filterMap (fun d => (imGet d key).map (fun e => serList [e]))
  Res.collect (fun o => Res.ofOption ⟨.invalidComponentParam, c! "Failed to serialize structured field value"⟩ o) found

/-- component_id.rs 56-77. -/
def CId.checkT (a : CId) : Res SigErrT CId :=
  if a.params.any CParam.isName && a.name != .derived .queryParam then
    .err ⟨.invalidComponentId, c! "Invalid http message component id: " ++ a.disp⟩
  else if a.params.any CParam.isFieldOnly && !a.name.isField then
    .err ⟨.invalidComponentId, c! "Invalid http message component id: " ++ a.disp⟩
  else .ok a

/-- component_id.rs 51-79. -/
def CId.ofItemT (i : Item) : Res SigErrT CId := do
  let n ← CName.ofBareT L i.bare
  let p ← cparamsOfT i.params
  CId.checkT ⟨n, p⟩

/-- component_id.rs 31-81; the message is that of the parser for the text it was given. -/
def CId.ofStrT (s : Str) : Res SigErrT CId := do
  let v := trim s
  let w := if v ≠ [] ∧ '"' ∉ v then '"' :: (v ++ ['"']) else v
  let item ← Res.ofOption ⟨.parseSFV, L.item w⟩ (parseItemTop w)
  CId.ofItemT L item

/-- component.rs 22-46. -/
def Component.ofStrT (s : Str) : Res SigErrT Component :=
  match splitOnce ':' s with
  | none => .err ⟨.invalidComponent, c! "Invalid http message component: " ++ s⟩
  | some (i, v) =>
    let i := trim i
    if i.head? = some '"' ∧ (i.getLast? = some '"' ∨ containsStr (c! "\";") i.tail) then do
      let id ← CId.ofStrT L i
      .ok ⟨id, .plain (trim v)⟩
    else .err ⟨.invalidComponentId, c! "Invalid http message component id: " ++ i⟩

/-- component.rs 96-136. -/
def derivedValueT (d : Derived) (params : List CParam) (vs : List Str) : Res SigErrT CValue :=
  match d with
  | .queryParam =>
    match params.findSome? CParam.nameOf with
    | none => .err ⟨.invalidComponent, c! "query-param derived component requires name parameter"⟩
    | some name => .ok (.plain (queryParamValue name vs))
  | d =>
    match vs with
    | [] => .panic
    | v :: _ =>
      match d with
      | .method => .ok (.plain (upper v))
      | .authority | .scheme => .ok (.plain (lower v))
      | .signatureParams =>
        match splitOnce '=' (trim v) with
        | none => .err ⟨.invalidComponent, c! "invalid signature-params derived component"⟩
        | some (k, w) => .ok (.keyValue k w)
      | _ => .ok (.plain v)

/-- component.rs 70-139. -/
def buildDerivedT (id : CId) (vs : List Str) : Res SigErrT Component :=
  match id.name with
  | .field _ => .err ⟨.invalidComponent, c! "invalid http message component name as derived component"⟩
  | .derived d =>
    if vs = [] then .err ⟨.invalidComponent, c! "derived component requires field values"⟩
    else if ¬ id.params.all CParam.okDerived then .err ⟨.invalidComponent, c! "invalid parameter for derived component"⟩
    else do
      let v ← derivedValueT d id.params vs
      .ok ⟨id, v⟩

/-- component.rs 151-172. -/
def fieldParamsT : List CParam → List Str → Res SigErrT (List Str)
  | [], vs => .ok vs
  | .sf :: t, vs => do let vs' ← handleSfT vs; fieldParamsT t vs'
  | .key k :: t, vs => do let vs' ← handleKeyT L vs k; fieldParamsT t vs'
  | .req :: t, vs => fieldParamsT t vs
  | .bs :: _, _ => .err ⟨.notYetImplemented, c! "`bs` is not supported yet"⟩
  | .tr :: _, _ => .err ⟨.notYetImplemented, c! "`tr` is not supported yet"⟩
  | .name _ :: _, _ => .err ⟨.notYetImplemented, c! "`name` is only for derived component query-params"⟩

/-- component.rs 48-58 and 144-183. -/
def Component.buildT (id : CId) (vs : List Str) : Res SigErrT Component :=
  match id.name with
  | .field _ => do
    let vs' ← fieldParamsT L id.params vs
    .ok ⟨id, .plain (join (c! ", ") vs')⟩
  | .derived _ => buildDerivedT id vs

/-! ### httpsig/src/signature_params.rs and signature_base.rs -/

/-- signature_params.rs 38-51. -/
def SigParams.tryNewT (now : UInt64) (ids : List CId) : Res SigErrT SigParams :=
  if ¬ hasUnique ids then .err ⟨.invalidSignatureParams, c! "duplicate covered component ids"⟩
  else .ok { created := some now, covered := ids }

/-- signature_params.rs 155-209; the loop at 193-206 has no error. -/
def SigParams.ofEntryT : Entry → Res SigErrT SigParams
  | .item _ => .err ⟨.invalidSignatureParams, c! "Invalid signature params"⟩
  | .inner l => do
    let ids ← Res.collect (fun i => CId.ofStrT L (serItem i)) l.items
    if ¬ hasUnique ids then .err ⟨.invalidSignatureParams, c! "duplicate covered component ids"⟩
    else (SigParams.setKVs { covered := ids } l.params).mapErr (⟨·, []⟩)

/-- signature_params.rs 211-224. -/
def SigParams.ofStrT (s : Str) : Res SigErrT SigParams := do
  let l ← Res.ofOption ⟨.parseSFV, L.list s⟩ (parseList s)
  match l with
  | [.inner i] => SigParams.ofEntryT L (.inner i)
  | _ => .err ⟨.invalidSignatureParams, c! "Invalid signature params"⟩

/-- signature_base.rs 76-97. -/
def parseOneT (signature : Dict) (kv : Str × Entry) : Res SigErrT (Str × SigHeaders) := do
  let p ← SigParams.ofEntryT L kv.2
  match (imGet signature kv.1).bind entryBytes with
  | some b => .ok (kv.1, ⟨kv.1, b, p⟩)
  | none => .panic

/-- signature_base.rs 32-100. -/
def SigHeaders.tryParseT (sigHeader inputHeader : Str) : Res SigErrT (List (Str × SigHeaders)) := do
  let input ← Res.ofOption ⟨.parseSFV, L.dict inputHeader⟩ (parseDict inputHeader)
  let signature ← Res.ofOption ⟨.parseSFV, L.dict sigHeader⟩ (parseDict sigHeader)
  if signature.length ≠ input.length then
    .err ⟨.buildSignatureHeader, c! "The number of signature and signature-input headers are not the same"⟩
  else if ¬ signature.all (fun kv => (imGet input kv.1).isSome) then
    .err ⟨.buildSignatureHeader, c! "The signature and signature-input headers are not the same"⟩
  else if ¬ signature.all (fun kv => (entryBytes kv.2).isSome) then
    .err ⟨.buildSignatureHeader, c! "The signature header is not a dictionary"⟩
  else if ¬ input.all (fun kv => entryIsInner kv.2) then
    .err ⟨.buildSignatureHeader, c! "The signature-input header is not a dictionary"⟩
  else do
    let l ← Res.collect (parseOneT L signature) input
    .ok (imOfList l)

/-- signature_base.rs 151-173. -/
def SigBase.tryNewT (lines : List Component) (p : SigParams) : Res SigErrT SigBase :=
  if lines.length ≠ p.covered.length then
    .err ⟨.buildSignatureBase, c! "The number of component lines is not the same as the number of covered message component ids"⟩
  else if ¬ (lines.zip p.covered).all (fun lc => lc.1.id.eqv lc.2) then
    .err ⟨.buildSignatureBase, c! "The order of component lines is not the same as the order of covered message component ids"⟩
  else .ok ⟨lines, p⟩

/-- signature_base.rs 188-199. -/
def SigBase.headersT (b : SigBase) (k : SigningKey) (name : Option Str) : Res SigErrT SigHeaders :=
  (b.headers k name).mapErr (fun e => ⟨e, L.key e⟩)

/-! ### httpsig-hyper/src/hyper_http.rs -/

/-- hyper_http.rs 712-719. -/
def Msg.methodT : Msg → Res HyperErrT Str
  | .req r => .ok r.method
  | .res _ => .err ⟨.invalidComponentName, c! "`method` is only for request"⟩

/-- hyper_http.rs 721-726. -/
def Msg.uriT : Msg → Res HyperErrT Uri
  | .req r => .ok r.uri
  | .res _ => .err ⟨.invalidComponentName, c! "`uri` is only for request"⟩

/-- hyper_http.rs 735-742. -/
def Msg.statusT : Msg → Res HyperErrT Nat
  | .res r => .ok r.status
  | .req _ => .err ⟨.invalidComponentName, c! "`status` is only for response"⟩

/-- hyper_http.rs 754-765 and 818-822. -/
def headerTextsT (h : Headers) (n : Str) : Res HyperErrT (List Str) :=
  Res.collect (fun v => Res.ofOption ⟨.toStr, L.toStr⟩ (hvToStr v)) (h.getAll n)

/-- hyper_http.rs 746-769; of a response too the message says request. -/
def extractSignatureHeadersT (m : Msg) : Res HyperErrT (List (Str × SigHeaders)) :=
  let h := m.headers
  if ¬ (h.contains hSignatureInput && h.contains hSignature) then
    .err ⟨.noSignatureHeaders, c! "The request does not have signature and signature-input headers"⟩
  else do
    let inputs ← headerTextsT L h hSignatureInput
    let sigs ← headerTextsT L h hSignature
    (SigHeaders.tryParseT L (join (c! ", ") sigs) (join (c! ", ") inputs)).mapErr SigErrT.up

/-- hyper_http.rs 807-825. -/
def extractHttpFieldT (m : Msg) (id : CId) : Res HyperErrT Component :=
  match id.name with
  | .derived _ => .err ⟨.invalidComponentName, c! "invalid http message component name as http field"⟩
  | .field n => do
    let vs ← headerTextsT L m.headers n
    (Component.buildT L id vs).mapErr SigErrT.up

/-- hyper_http.rs 841-858. -/
def checkDerivedParamT (m : Msg) (d : Derived) (p : CParam) : Res HyperErrT Unit :=
  match p with
  | .name _ => if d = .queryParam then .ok () else .err ⟨.invalidComponentParam, c! "`name` parameter is only allowed for `@query-param`"⟩
  | .req => if m.isReq then .ok () else .err ⟨.invalidComponentParam, c! "`req`-tagged component must be extracted from the source request"⟩
  | p => .err ⟨.invalidComponentParam, c! "parameter `" ++ p.disp ++ c! "` is not allowed on derived components"⟩

/-- hyper_http.rs 841-858. -/
def checkDerivedParamsT (m : Msg) (d : Derived) : List CParam → Res HyperErrT Unit
  | [] => .ok ()
  | p :: t => do checkDerivedParamT m d p; checkDerivedParamsT m d t

/-- hyper_http.rs 860-887. -/
def checkDerivedKindT (m : Msg) (d : Derived) (params : List CParam) : Res HyperErrT Unit :=
  match m with
  | .req _ => if d = .status then .err ⟨.invalidComponentName, c! "`status` is only for response"⟩ else .ok ()
  | .res _ =>
    let hasReq := params.contains .req
    if d ≠ .status ∧ d ≠ .signatureParams ∧ ¬ hasReq then
      .err ⟨.invalidComponentName, c! "derived components other than `@status` and `@signature-params` require `req` parameter for response"⟩
    else if d = .status ∧ hasReq then .err ⟨.invalidComponentParam, c! "`@status` does not accept `req` parameter"⟩
    else .ok ()

/-- hyper_http.rs 889-927. -/
def derivedValuesT (m : Msg) (d : Derived) : Res HyperErrT (List Str) :=
  match d with
  | .method => do let x ← m.methodT; .ok [x]
  | .targetUri => do let u ← m.uriT; .ok [u.toStr]
  | .authority => do let u ← m.uriT; .ok [u.authority.getD []]
  | .scheme => do let u ← m.uriT; .ok [u.scheme.getD []]
  | .requestTarget => do
    let x ← m.methodT
    if x = c! "CONNECT" then do let u ← m.uriT; .ok [u.authority.getD []]
    else if x = c! "OPTIONS" then .ok [c! "*"]
    else do let u ← m.uriT; .ok [u.pathAndQuery.getD []]
  | .path => do let u ← m.uriT; .ok [if u.path = [] then ['/'] else u.path]
  | .query => do
    let u ← m.uriT
    .ok [match u.query with | some q => '?' :: q | none => ['?']]
  | .queryParam => do
    let u ← m.uriT
    .ok ((splitOn '&' (u.query.getD [])).filter (· ≠ []))
  | .status => do let s ← m.statusT; .ok [natStr s]
  | .signatureParams => .ok ((m.headers.getAll hSignatureInput).map (fun v => (hvToStr v).getD []))

/-- hyper_http.rs 828-930. -/
def extractDerivedT (m : Msg) (id : CId) : Res HyperErrT Component :=
  match id.name with
  | .field _ => .err ⟨.invalidComponentName, c! "invalid http message component name as derived component"⟩
  | .derived d => do
    checkDerivedParamsT m d id.params
    checkDerivedKindT m d id.params
    let vs ← derivedValuesT m d
    (Component.buildT L id vs).mapErr SigErrT.up

/-- hyper_http.rs 934-942. -/
def extractComponentT (m : Msg) (id : CId) : Res HyperErrT Component :=
  match id.name with
  | .field _ => extractHttpFieldT L m id
  | .derived _ => extractDerivedT L m id

/-- hyper_http.rs 783-800. -/
def extractForT (m : Msg) (reqFor : Option Request) (id : CId) : Res HyperErrT Component :=
  if id.params.contains .req then
    if m.isReq then .err ⟨.invalidComponentParam, c! "`req` is not allowed in request"⟩
    else match reqFor with
      | none => .err ⟨.invalidComponentParam, c! "`req` is required for the param"⟩
      | some r => extractComponentT L (.req r) id
  else extractComponentT L m id

/-- hyper_http.rs 775-804. -/
def buildBaseT (m : Msg) (p : SigParams) (reqFor : Option Request) : Res HyperErrT SigBase := do
  let lines ← Res.collect (extractForT L m reqFor) p.covered
  (SigBase.tryNewT lines p).mapErr SigErrT.up

/-- hyper_http.rs 643-657: the errors of the bases are dropped. -/
def extractSignaturesT (m : Msg) (reqFor : Option Request) : Res HyperErrT (List (Str × (SigBase × SigHeaders))) := do
  let l ← extractSignatureHeadersT L m
  let e ← Res.filterOk (fun kv => do
    let b ← buildBaseT L m kv.2.params reqFor
    Res.ok (kv.1, (b, kv.2))) l
  .ok (imOfList e)

/-- hyper_http.rs 679-697: the errors of the key are dropped. -/
def verifyOneT (now : UInt64) (map : List (Str × (SigBase × SigHeaders))) (k : VerifyingKey) (i : Option Str) : Res HyperErrT Str :=
  let filtered := filterKeyId map i
  if filtered = [] then .err ⟨.noSignatureHeaders, c! "No signature as appropriate target for verification"⟩
  else
    match (Res.filterOk (fun kv => do kv.2.1.verify now k kv.2.2; Res.ok kv.1) filtered : Res HyperErrT (List Str)) with
    | .ok names =>
      match isOfList names with
      | [] => .err ⟨.invalidSignature, c! "Invalid signature for the verifying key"⟩
      | n :: _ => .ok n
    | .err e => .err e
    | .panic => .panic

/-- hyper_http.rs 330-345 and 460-476, with 660-701. -/
def verifySignaturesT (now : UInt64) (m : Msg) (keys : List (VerifyingKey × Option Str)) (reqFor : Option Request) :
    Res HyperErrT (List (Except HyperErrT Str)) :=
  if ¬ hasMessageSignature m.headers then
    .err ⟨.noSignatureHeaders,
      if m.isReq then c! "The request does not have signature and signature-input headers"
      else c! "The response does not have signature and signature-input headers"⟩
  else do
    let map ← extractSignaturesT L m reqFor
    gather (keys.map (fun ki => verifyOneT now map ki.1 ki.2))

/-- hyper_http.rs 318-328 and 442-458. -/
def verifySignatureT (now : UInt64) (m : Msg) (k : VerifyingKey) (i : Option Str) (reqFor : Option Request) : Res HyperErrT Str := do
  let l ← verifySignaturesT L now m [(k, i)] reqFor
  match l.getLast? with
  | some (.ok n) => .ok n
  | some (.error e) => .err e
  | none => .panic

/-- hyper_http.rs 303-311 and 427-435: both conversions have the one message of `http`. -/
def appendAllT (h : Headers) (l : List SigHeaders) : Headers × Res HyperErrT Unit :=
  ((appendAll h l).1, (appendAll h l).2.mapErr (fun e => ⟨e, L.headerValue⟩))

/-- hyper_http.rs 289-294 and 414-417. -/
def signBasesT (m : Msg) (l : List (SigParams × SigningKey × Option Str)) (reqFor : Option Request) :
    Res HyperErrT (List (SigBase × SigningKey × Option Str)) :=
  Res.collect (fun pkn => do let b ← buildBaseT L m pkn.1 reqFor; .ok (b, pkn.2)) l

/-- hyper_http.rs 295-302 and 418-425. -/
def signAllT (l : List (SigBase × SigningKey × Option Str)) : Res HyperErrT (List SigHeaders) := do
  let rs ← gather (l.map (fun bkn => bkn.1.headersT L bkn.2.1 bkn.2.2))
  Res.collect (fun r => match r with | .ok h => .ok h | .error e => .err e.up) rs

/-- hyper_http.rs 280-312 and 403-436. -/
def setSignaturesT (m : Msg) (l : List (SigParams × SigningKey × Option Str)) (reqFor : Option Request) : Headers × Res HyperErrT Unit :=
  match (do let bs ← signBasesT L m l reqFor; signAllT L bs : Res HyperErrT (List SigHeaders)) with
  | .ok hs => appendAllT L m.headers hs
  | .err e => (m.headers, .err e)
  | .panic => (m.headers, .panic)

/-! ### httpsig-hyper/src/hyper_content_digest.rs -/

/-- lib.rs 47-56. -/
def DigestType.ofStrT (s : Str) : Res DigestErrT DigestType :=
  if s = c! "sha-256" then .ok .sha256
  else if s = c! "sha-512" then .ok .sha512
  else .err ⟨.invalidContentDigestType, s⟩

/-- hyper_content_digest.rs 111-128 and 166-183. -/
def setDigestT (t : DigestType) (h : Headers) (body : Body) : Res DigestErrT (Headers × Body) :=
  match body with
  | .fail => .err ⟨.httpBody, c! "Failed to generate digest"⟩
  | .data b =>
    match hvOfStr (digestText t b) with
    | none => .panic
    | some v => .ok (h.insert hContentDigest v, .data b)

/-- hyper_content_digest.rs 220-256. -/
def extractDigestT (h : Headers) : Res DigestErrT (DigestType × Bytes) := do
  let v ← Res.ofOption ⟨.noDigestHeader, c! "No content-digest header"⟩ (h.get hContentDigest)
  let s ← Res.ofOption ⟨.toStr, L.toStr⟩ (hvToStr v)
  let d ← Res.ofOption ⟨.invalidHeaderValue, L.dict s⟩ (parseDict s)
  if d.length ≠ 1 then .err ⟨.invalidHeaderValue, c! "Content-Digest header should have only one value"⟩
  else match d with
    | [] => .panic
    | (k, e) :: _ => do
      let t ← (DigestType.ofStrT k).mapErr (fun e => ⟨.invalidHeaderValue, c! "Invalid Content-Digest type: " ++ e.disp⟩)
      if ¬ (entryBytes e).isSome then .err ⟨.invalidHeaderValue, c! "Invalid Content-Digest value"⟩
      else match entryBytes e with
        | some b => .ok (t, b)
        | none => .panic

/-- hyper_content_digest.rs 132-155 and 184-207. -/
def verifyDigestT (h : Headers) (body : Body) : Res DigestErrT (Headers × Body) := do
  let te ← extractDigestT L h
  match body with
  | .fail => .err ⟨.httpBody, c! "Failed to get body bytes"⟩
  | .data b =>
    if isEqualDigest (deriveDigest b te.1) te.2 then .ok (h, .data b)
    else .err ⟨.invalidContentDigest, c! "Content-Digest verification failed"⟩

end

end Verif
