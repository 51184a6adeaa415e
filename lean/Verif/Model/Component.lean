import Verif.Model.Sfv
/-!
Model of httpsig/src/message_component: names, parameters, ids, values and components.
-/
namespace Verif
open Sfv

/-- `HttpSigError`, httpsig/src/error.rs 7-63. Messages are dropped. -/
inductive SigErr where
  | base64Decode | parsePrivateKey | parsePublicKey | parseSignature | invalidSignature | parseSFV
  | invalidComponentName | invalidComponentParam | invalidComponentId | invalidComponent
  | invalidSignatureParams | buildSignatureHeader | buildSignatureBase | expiredSignatureParams
  | invalidAlgorithmName | notYetImplemented
  deriving DecidableEq, Repr

/-! ### Names (component_name.rs) -/

/-- `DerivedComponentName`, component_name.rs 45-56. -/
inductive Derived where
  | method | targetUri | authority | scheme | requestTarget | path | query | queryParam | status | signatureParams
  deriving DecidableEq, Repr

/-- `AsRef<str> for DerivedComponentName` and `Display`, component_name.rs 57-72, 96-100. -/
def Derived.toStr : Derived → Str
  | .method => c! "@method"
  | .targetUri => c! "@target-uri"
  | .authority => c! "@authority"
  | .scheme => c! "@scheme"
  | .requestTarget => c! "@request-target"
  | .path => c! "@path"
  | .query => c! "@query"
  | .queryParam => c! "@query-param"
  | .status => c! "@status"
  | .signatureParams => c! "@signature-params"

/-- `From<&str> for DerivedComponentName`, component_name.rs 78-94: panics on any other text. -/
def Derived.ofStr (s : Str) : Res SigErr Derived :=
  if s = c! "@method" then .ok .method
  else if s = c! "@target-uri" then .ok .targetUri
  else if s = c! "@authority" then .ok .authority
  else if s = c! "@scheme" then .ok .scheme
  else if s = c! "@request-target" then .ok .requestTarget
  else if s = c! "@path" then .ok .path
  else if s = c! "@query" then .ok .query
  else if s = c! "@query-param" then .ok .queryParam
  else if s = c! "@status" then .ok .status
  else if s = c! "@signature-params" then .ok .signatureParams
  else .panic

/-- `HttpMessageComponentName`, component_name.rs 7-12. -/
inductive CName where
  | field (s : Str)
  | derived (d : Derived)
  deriving DecidableEq, Repr

/-- `TryFrom<&BareItem> for HttpMessageComponentName`, component_name.rs 14-30. -/
def CName.ofBare : Bare → Res SigErr CName
  | .str s =>
    match s with
    | '@' :: _ => do
      let d ← Derived.ofStr s
      .ok (.derived d)
    | _ => .ok (.field s)
  | _ => .err .invalidComponentName

/-- `Display for HttpMessageComponentName`, component_name.rs 32-39: quoted, not escaped. -/
def CName.disp : CName → Str
  | .field s => '"' :: (s ++ ['"'])
  | .derived d => '"' :: (d.toStr ++ ['"'])

/-! ### Parameters (component_param.rs) -/

/-- `HttpMessageComponentParam`, component_param.rs 10-25. -/
inductive CParam where
  | sf | key (s : Str) | bs | tr | req | name (s : Str)
  deriving DecidableEq, Repr

/-- `From<HttpMessageComponentParam> for String`, component_param.rs 27-38: not escaped. -/
def CParam.disp : CParam → Str
  | .sf => c! "sf"
  | .key s => c! "key=\"" ++ s ++ ['"']
  | .bs => c! "bs"
  | .tr => c! "tr"
  | .req => c! "req"
  | .name s => c! "name=\"" ++ s ++ ['"']

/-- `BareItem::as_string`. -/
def asString : Bare → Option Str
  | .str s => some s
  | _ => none

/-- `TryFrom<(&str, &BareItem)> for HttpMessageComponentParam`, component_param.rs 40-65.
The value of a flag is not looked at. -/
def CParam.ofKV (kv : Str × Bare) : Res SigErr CParam :=
  if kv.1 = c! "sf" then .ok .sf
  else if kv.1 = c! "bs" then .ok .bs
  else if kv.1 = c! "tr" then .ok .tr
  else if kv.1 = c! "req" then .ok .req
  else if kv.1 = c! "name" then do
    let n ← Res.ofOption .invalidComponentParam (asString kv.2)
    .ok (.name n)
  else if kv.1 = c! "key" then do
    let n ← Res.ofOption .invalidComponentParam (asString kv.2)
    .ok (.key n)
  else .err .invalidComponentParam

/-- `TryFrom<&sfv::Parameters> for HttpMessageComponentParams`, component_param.rs 79-88. -/
def cparamsOf (p : Params) : Res SigErr (List CParam) := do
  let l ← Res.collect CParam.ofKV p
  .ok (isOfList l)

/-- `Display for HttpMessageComponentParams`, component_param.rs 89-101. -/
def cparamsDisp (l : List CParam) : Str :=
  if l = [] then [] else ';' :: join [';'] (l.map CParam.disp)

/-- One field value under `sf`: list first, then dictionary, component_param.rs 108-116. -/
def sfValue (v : Str) : Res SigErr Str :=
  match parseList v with
  | some l => Res.ofOption .invalidComponentParam (serList l)
  | none =>
    match parseDict v with
    | some d => Res.ofOption .invalidComponentParam (serDict d)
    | none => .err .invalidComponentParam

/-- `handle_params_sf`, component_param.rs 105-125. -/
def handleSf (vs : List Str) : Res SigErr (List Str) := Res.collect sfValue vs

/-- `handle_params_key_into`, component_param.rs 129-150. The list with one entry is never empty, so
`serialize` gives `Some`; the code's `collect::<Option<Vec<_>>>` is kept. -/
def handleKey (vs : List Str) (key : Str) : Res SigErr (List Str) := do
  let dicts ← Res.collect (fun v => Res.ofOption .invalidComponentParam (parseDict v)) vs
  let found := dicts.filterMap (fun d => (imGet d key).map (fun e => serList [e]))
  Res.collect (fun o => Res.ofOption .invalidComponentParam o) found

/-! ### Ids (component_id.rs) -/

/-- `HttpMessageComponentId`, component_id.rs 11-16. The parameter set is a list without repetitions
(an `IndexSet`); equality of Rust ids ignores its order, see `CId.eqv`. -/
structure CId where
  name : CName
  params : List CParam
  deriving DecidableEq, Repr

/-- `PartialEq for HttpMessageComponentId` (derived, component_id.rs 9); `IndexSet` equality compares
lengths and membership. -/
def CId.eqv (a b : CId) : Bool :=
  a.name == b.name && a.params.length == b.params.length && a.params.all (fun p => b.params.contains p)

/-- `add_req_param`, component_id.rs 20-22. -/
def CId.addReq (a : CId) : CId := { a with params := isInsert a.params .req }

/-- `Display for HttpMessageComponentId`, component_id.rs 25-29. -/
def CId.disp (a : CId) : Str := a.name.disp ++ cparamsDisp a.params

def CParam.isName : CParam → Bool
  | .name _ => true
  | _ => false

/-- `bs`, `sf`, `tr`, `key`: component_id.rs 67-72. -/
def CParam.isFieldOnly : CParam → Bool
  | .bs | .sf | .tr | .key _ => true
  | _ => false

def CName.isField : CName → Bool
  | .field _ => true
  | _ => false

/-- The two checks at component_id.rs 56-77. -/
def CId.check (a : CId) : Res SigErr CId :=
  if a.params.any CParam.isName && a.name != .derived .queryParam then .err .invalidComponentId
  else if a.params.any CParam.isFieldOnly && !a.name.isField then .err .invalidComponentId
  else .ok a

/-- `HttpMessageComponentId` from a parsed item, component_id.rs 51-79. -/
def CId.ofItem (i : Item) : Res SigErr CId := do
  let n ← CName.ofBare i.bare
  let p ← cparamsOf i.params
  CId.check ⟨n, p⟩

/-- `TryFrom<&str> for HttpMessageComponentId`, component_id.rs 31-81. The test
`!starts_with && !ends_with && !is_empty && !contains` of line 38 is `nonempty and contains no quote`. -/
def CId.ofStr (s : Str) : Res SigErr CId := do
  let v := trim s
  let item ← Res.ofOption .parseSFV
    (if v ≠ [] ∧ '"' ∉ v then parseItemTop ('"' :: (v ++ ['"'])) else parseItemTop v)
  CId.ofItem item

/-! ### Values (component_value.rs) -/

/-- `HttpMessageComponentValue`, component_value.rs 4-7 and 33-38. -/
inductive CValue where
  | plain (s : Str)
  | keyValue (k v : Str)
  deriving DecidableEq, Repr

/-- `Display`, component_value.rs 40-47, and `as_component_value`, 65-70. -/
def CValue.disp : CValue → Str
  | .plain s => s
  | .keyValue _ v => v

/-- `key`, component_value.rs 51-56. -/
def CValue.key : CValue → Option Str
  | .plain _ => none
  | .keyValue k _ => some k

/-- `as_field_value`, component_value.rs 58-63. -/
def CValue.asFieldValue : CValue → Str
  | .plain s => s
  | .keyValue k v => k ++ '=' :: v

/-! ### Components (component.rs) -/

/-- `HttpMessageComponent`, component.rs 15-20. -/
structure Component where
  id : CId
  value : CValue
  deriving DecidableEq, Repr

/-- `TryFrom<&str> for HttpMessageComponent`, component.rs 22-46. -/
def Component.ofStr (s : Str) : Res SigErr Component :=
  match splitOnce ':' s with
  | none => .err .invalidComponent
  | some (i, v) =>
    let i := trim i
    if i.head? = some '"' ∧ (i.getLast? = some '"' ∨ containsStr (c! "\";") i.tail) then do
      let id ← CId.ofStr i
      .ok ⟨id, .plain (trim v)⟩
    else .err .invalidComponentId

/-- `Display for HttpMessageComponent`, component.rs 60-66. -/
def Component.disp (c : Component) : Str := c.id.disp ++ ':' :: ' ' :: c.value.disp

def CParam.nameOf : CParam → Option Str
  | .name n => some n
  | _ => none

/-- `req` or `name`, component.rs 85-90. -/
def CParam.okDerived : CParam → Bool
  | .req | .name _ => true
  | _ => false

/-- The `@query-param` value, component.rs 105-124. -/
def queryParamValue (name : Str) (vs : List Str) : Str :=
  let kvs := (vs.filter (fun v => v.contains '=')).filterMap (splitOnce '=')
  join (c! ", ") ((kvs.filter (fun kv => kv.1 == name)).map Prod.snd)

/-- The value part of `build_derived_component`, component.rs 96-136. `field_values[0]` would panic on an empty
slice, so that case is `panic` here; it is excluded by the test at 79-83. -/
def derivedValue (d : Derived) (params : List CParam) (vs : List Str) : Res SigErr CValue :=
  match d with
  | .queryParam =>
    match params.findSome? CParam.nameOf with
    | none => .err .invalidComponent
    | some name => .ok (.plain (queryParamValue name vs))
  | d =>
    match vs with
    | [] => .panic
    | v :: _ =>
      match d with
      | .method => .ok (.plain (upper v))
      | .authority | .scheme => .ok (.plain (lower v))
      | .signatureParams =>
        match splitOnce '=' (trim v) with
        | none => .err .invalidComponent
        | some (k, w) => .ok (.keyValue k w)
      | _ => .ok (.plain v)

/-- `build_derived_component`, component.rs 70-139. -/
def buildDerived (id : CId) (vs : List Str) : Res SigErr Component :=
  match id.name with
  | .field _ => .err .invalidComponent
  | .derived d =>
    if vs = [] then .err .invalidComponent
    else if ¬ id.params.all CParam.okDerived then .err .invalidComponent
    else do
      let v ← derivedValue d id.params vs
      .ok ⟨id, v⟩

/-- The parameter loop of `build_http_field_component`, component.rs 151-172. -/
def fieldParams : List CParam → List Str → Res SigErr (List Str)
  | [], vs => .ok vs
  | .sf :: t, vs => do let vs' ← handleSf vs; fieldParams t vs'
  | .key k :: t, vs => do let vs' ← handleKey vs k; fieldParams t vs'
  | .req :: t, vs => fieldParams t vs
  | .bs :: _, _ => .err .notYetImplemented
  | .tr :: _, _ => .err .notYetImplemented
  | .name _ :: _, _ => .err .notYetImplemented

/-- `build_http_field_component`, component.rs 144-183. -/
def buildField (id : CId) (vs : List Str) : Res SigErr Component := do
  let vs' ← fieldParams id.params vs
  .ok ⟨id, .plain (join (c! ", ") vs')⟩

/-- `TryFrom<(&HttpMessageComponentId, &[String])>`, component.rs 48-58. -/
def Component.build (id : CId) (vs : List Str) : Res SigErr Component :=
  match id.name with
  | .field _ => buildField id vs
  | .derived _ => buildDerived id vs

end Verif
