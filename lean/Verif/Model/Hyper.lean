import Verif.Model.Http
/-!
Model of httpsig-hyper/src/hyper_http.rs. An async function is modelled by its result; `join_all` over futures that do
not suspend is a plain map (see `Model/JoinAll.lean` for schedules).
-/
namespace Verif
open Sfv

/-- `HyperSigError`, httpsig-hyper/src/error.rs. -/
inductive HyperErr where
  | noSignatureHeaders | toStr | invalidHeaderValue | invalidComponentName | invalidComponentParam
  | invalidSignature | httpSig (e : SigErr)
  deriving DecidableEq, Repr

/-- `RequestOrResponse`, hyper_http.rs 706-709. -/
inductive Msg where
  | req (r : Request)
  | res (r : Response)
  deriving DecidableEq, Repr

/-- `method`, hyper_http.rs 712-719. -/
def Msg.method : Msg → Res HyperErr Str
  | .req r => .ok r.method
  | .res _ => .err .invalidComponentName

/-- `uri`, hyper_http.rs 721-726. -/
def Msg.uri : Msg → Res HyperErr Uri
  | .req r => .ok r.uri
  | .res _ => .err .invalidComponentName

/-- `headers`, hyper_http.rs 728-733. -/
def Msg.headers : Msg → Headers
  | .req r => r.headers
  | .res r => r.headers

/-- `status`, hyper_http.rs 735-742. -/
def Msg.status : Msg → Res HyperErr Nat
  | .res r => .ok r.status
  | .req _ => .err .invalidComponentName

def Msg.isReq : Msg → Bool
  | .req _ => true
  | .res _ => false

def hSignature : Str := c! "signature"
def hSignatureInput : Str := c! "signature-input"

/-- `has_message_signature_inner`, hyper_http.rs 602-604. -/
def hasMessageSignature (h : Headers) : Bool := h.contains hSignature && h.contains hSignatureInput

/-- `get_all(name).iter().map(to_str).collect()?`, hyper_http.rs 754-765 and 818-822. -/
def headerTexts (h : Headers) (n : Str) : Res HyperErr (List Str) :=
  Res.collect (fun v => Res.ofOption .toStr (hvToStr v)) (h.getAll n)

/-- `extract_signature_headers_with_name`, hyper_http.rs 746-769. -/
def extractSignatureHeaders (m : Msg) : Res HyperErr (List (Str × SigHeaders)) :=
  let h := m.headers
  if ¬ (h.contains hSignatureInput && h.contains hSignature) then .err .noSignatureHeaders
  else do
    let inputs ← headerTexts h hSignatureInput
    let sigs ← headerTexts h hSignature
    (SigHeaders.tryParse (join (c! ", ") sigs) (join (c! ", ") inputs)).mapErr .httpSig

/-- `extract_http_field`, hyper_http.rs 807-825. -/
def extractHttpField (m : Msg) (id : CId) : Res HyperErr Component :=
  match id.name with
  | .derived _ => .err .invalidComponentName
  | .field n => do
    let vs ← headerTexts m.headers n
    (Component.build id vs).mapErr .httpSig

/-- Parameter check of one parameter, hyper_http.rs 841-858. -/
def checkDerivedParam (m : Msg) (d : Derived) (p : CParam) : Res HyperErr Unit :=
  match p with
  | .name _ => if d = .queryParam then .ok () else .err .invalidComponentParam
  | .req => if m.isReq then .ok () else .err .invalidComponentParam
  | _ => .err .invalidComponentParam

/-- `try_for_each` over the parameters, hyper_http.rs 841-858. -/
def checkDerivedParams (m : Msg) (d : Derived) : List CParam → Res HyperErr Unit
  | [] => .ok ()
  | p :: t => do checkDerivedParam m d p; checkDerivedParams m d t

/-- The message kind checks, hyper_http.rs 860-887. -/
def checkDerivedKind (m : Msg) (d : Derived) (params : List CParam) : Res HyperErr Unit :=
  match m with
  | .req _ => if d = .status then .err .invalidComponentName else .ok ()
  | .res _ =>
    let hasReq := params.contains .req
    if d ≠ .status ∧ d ≠ .signatureParams ∧ ¬ hasReq then .err .invalidComponentName
    else if d = .status ∧ hasReq then .err .invalidComponentParam
    else .ok ()

/-- The values of a derived component, hyper_http.rs 889-927. -/
def derivedValues (m : Msg) (d : Derived) : Res HyperErr (List Str) :=
  match d with
  | .method => do let x ← m.method; .ok [x]
  | .targetUri => do let u ← m.uri; .ok [u.toStr]
  | .authority => do let u ← m.uri; .ok [u.authority.getD []]
  | .scheme => do let u ← m.uri; .ok [u.scheme.getD []]
  | .requestTarget => do
    let x ← m.method
    if x = c! "CONNECT" then do let u ← m.uri; .ok [u.authority.getD []]
    else if x = c! "OPTIONS" then .ok [c! "*"]
    else do let u ← m.uri; .ok [u.pathAndQuery.getD []]
  | .path => do let u ← m.uri; .ok [if u.path = [] then ['/'] else u.path]
  | .query => do
    let u ← m.uri
    .ok [match u.query with | some q => '?' :: q | none => ['?']]
  | .queryParam => do
    let u ← m.uri
    .ok ((splitOn '&' (u.query.getD [])).filter (· ≠ []))
  | .status => do let s ← m.status; .ok [natStr s]
  | .signatureParams => .ok ((m.headers.getAll hSignatureInput).map (fun v => (hvToStr v).getD []))

/-- `extract_derived_component`, hyper_http.rs 828-930. -/
def extractDerived (m : Msg) (id : CId) : Res HyperErr Component :=
  match id.name with
  | .field _ => .err .invalidComponentName
  | .derived d => do
    checkDerivedParams m d id.params
    checkDerivedKind m d id.params
    let vs ← derivedValues m d
    (Component.build id vs).mapErr .httpSig

/-- `extract_http_message_component`, hyper_http.rs 934-942. -/
def extractComponent (m : Msg) (id : CId) : Res HyperErr Component :=
  match id.name with
  | .field _ => extractHttpField m id
  | .derived _ => extractDerived m id

/-- The closure of `build_signature_base`, hyper_http.rs 783-800. -/
def extractFor (m : Msg) (reqFor : Option Request) (id : CId) : Res HyperErr Component :=
  if id.params.contains .req then
    if m.isReq then .err .invalidComponentParam
    else match reqFor with
      | none => .err .invalidComponentParam
      | some r => extractComponent (.req r) id
  else extractComponent m id

/-- `build_signature_base`, hyper_http.rs 775-804. -/
def buildBase (m : Msg) (p : SigParams) (reqFor : Option Request) : Res HyperErr SigBase := do
  let lines ← Res.collect (extractFor m reqFor) p.covered
  (SigBase.tryNew lines p).mapErr .httpSig

/-- `get_alg_key_ids_inner`, hyper_http.rs 607-628; `rsa` is the feature flag. -/
def getAlgKeyIds (rsa : Bool) (m : Msg) : Res HyperErr (List (Str × (Option Alg × Option Str))) := do
  let l ← extractSignatureHeaders m
  .ok (imOfList (l.map (fun kv =>
    (kv.1, ((kv.2.params.alg.bind (fun a => match Alg.ofStr rsa a with | .ok x => some x | _ => none)),
      kv.2.params.keyid)))))

/-- `get_signature_params_inner`, hyper_http.rs 631-640. -/
def getSignatureParams (m : Msg) : Res HyperErr (List (Str × SigParams)) := do
  let l ← extractSignatureHeaders m
  .ok (imOfList (l.map (fun kv => (kv.1, kv.2.params))))

/-- `extract_signatures_inner`, hyper_http.rs 643-657: a signature whose base cannot be built is skipped. -/
def extractSignatures (m : Msg) (reqFor : Option Request) : Res HyperErr (List (Str × (SigBase × SigHeaders))) := do
  let l ← extractSignatureHeaders m
  let e ← Res.filterOk (fun kv => do
    let b ← buildBase m kv.2.params reqFor
    Res.ok (kv.1, (b, kv.2))) l
  .ok (imOfList e)

/-- Filter by key id, hyper_http.rs 669-676. -/
def filterKeyId (map : List (Str × (SigBase × SigHeaders))) : Option Str → List (Str × (SigBase × SigHeaders))
  | some i => map.filter (fun kv => kv.2.1.keyid == some i)
  | none => map

/-- The verification of one key, hyper_http.rs 679-697. Every candidate is verified, also after a success. -/
def verifyOne (now : UInt64) (map : List (Str × (SigBase × SigHeaders))) (k : VerifyingKey) (i : Option Str) :
    Res HyperErr Str :=
  let filtered := filterKeyId map i
  if filtered = [] then .err .noSignatureHeaders
  else
    match (Res.filterOk (fun kv => do kv.2.1.verify now k kv.2.2; Res.ok kv.1) filtered : Res HyperErr (List Str)) with
    | .ok names =>
      match isOfList names with
      | [] => .err .invalidSignature
      | n :: _ => .ok n
    | .err e => .err e
    | .panic => .panic

/-- Result of a list of calls run one after the other where an `Err` is an element and a panic ends everything. -/
def gather {α ε ε' : Type} : List (Res ε α) → Res ε' (List (Except ε α))
  | [] => .ok []
  | .ok a :: t => do let r ← gather t; .ok (.ok a :: r)
  | .err e :: t => do let r ← gather t; .ok (.error e :: r)
  | .panic :: _ => .panic

/-- `verify_message_signatures_inner`, hyper_http.rs 660-701. -/
def verifyInner (now : UInt64) (map : List (Str × (SigBase × SigHeaders))) (keys : List (VerifyingKey × Option Str)) :
    Res HyperErr (List (Except HyperErr Str)) :=
  gather (keys.map (fun ki => verifyOne now map ki.1 ki.2))

/-- `verify_message_signatures`, hyper_http.rs 330-345 (request, `reqFor = none`) and 460-476 (response). -/
def verifySignatures (now : UInt64) (m : Msg) (keys : List (VerifyingKey × Option Str)) (reqFor : Option Request) :
    Res HyperErr (List (Except HyperErr Str)) :=
  if ¬ hasMessageSignature m.headers then .err .noSignatureHeaders
  else do
    let map ← extractSignatures m reqFor
    verifyInner now map keys

/-- `verify_message_signature`, hyper_http.rs 318-328 and 442-458, including `.pop().unwrap()`. -/
def verifySignature (now : UInt64) (m : Msg) (k : VerifyingKey) (i : Option Str) (reqFor : Option Request) :
    Res HyperErr Str := do
  let l ← verifySignatures now m [(k, i)] reqFor
  match l.getLast? with
  | some (.ok n) => .ok n
  | some (.error e) => .err e
  | none => .panic

/-- One step of the header loop, hyper_http.rs 303-311 and 427-435. Returns the header map as left behind. -/
def appendOne (h : Headers) (s : SigHeaders) : Headers × Res HyperErr Unit :=
  match hvOfStr s.inputValue with
  | none => (h, .err .invalidHeaderValue)
  | some v =>
    let h1 := h.append hSignatureInput v
    match hvOfStr s.signatureValue with
    | none => (h1, .err .invalidHeaderValue)
    | some w => (h1.append hSignature w, .ok ())

/-- The header loop, hyper_http.rs 303-311 and 427-435. -/
def appendAll (h : Headers) : List SigHeaders → Headers × Res HyperErr Unit
  | [] => (h, .ok ())
  | s :: t =>
    match appendOne h s with
    | (h', .ok ()) => appendAll h' t
    | r => r

/-- The bases of `set_message_signatures`, hyper_http.rs 289-294 and 414-417. -/
def signBases (m : Msg) (l : List (SigParams × SigningKey × Option Str)) (reqFor : Option Request) :
    Res HyperErr (List (SigBase × SigningKey × Option Str)) :=
  Res.collect (fun pkn => do let b ← buildBase m pkn.1 reqFor; .ok (b, pkn.2)) l

/-- The signing stage, hyper_http.rs 295-302 and 418-425: all futures run, then the first `Err` is returned. -/
def signAll (l : List (SigBase × SigningKey × Option Str)) : Res HyperErr (List SigHeaders) := do
  let rs ← gather (l.map (fun bkn => bkn.1.headers bkn.2.1 bkn.2.2))
  Res.collect (fun r => match r with | .ok h => .ok h | .error e => .err (.httpSig e)) rs

/-- `set_message_signatures`, hyper_http.rs 280-312 and 403-436: the header map left behind and the result. -/
def setSignatures (m : Msg) (l : List (SigParams × SigningKey × Option Str)) (reqFor : Option Request) :
    Headers × Res HyperErr Unit :=
  match (do let bs ← signBases m l reqFor; signAll bs : Res HyperErr (List SigHeaders)) with
  | .ok hs => appendAll m.headers hs
  | .err e => (m.headers, .err e)
  | .panic => (m.headers, .panic)

/-- `set_message_signature`, hyper_http.rs 265-278 and 386-401. -/
def setSignature (m : Msg) (p : SigParams) (k : SigningKey) (name : Option Str) (reqFor : Option Request) :
    Headers × Res HyperErr Unit :=
  setSignatures m [(p, k, name)] reqFor

/-- The message with another header map (`headers_mut`). -/
def Msg.withHeaders (m : Msg) (h : Headers) : Msg :=
  match m with
  | .req r => .req { r with headers := h }
  | .res r => .res { r with headers := h }

/-! The public functions on requests and responses. A request is always processed without a corresponding request
(`None as Option<&Request<()>>`, hyper_http.rs 292 and 350). -/

def Request.setSignatures (r : Request) (l : List (SigParams × SigningKey × Option Str)) : Request × Res HyperErr Unit :=
  let x := Verif.setSignatures (.req r) l none
  ({ r with headers := x.1 }, x.2)

def Request.setSignature (r : Request) (p : SigParams) (k : SigningKey) (name : Option Str) : Request × Res HyperErr Unit :=
  r.setSignatures [(p, k, name)]

def Request.verifySignatures (now : UInt64) (r : Request) (keys : List (VerifyingKey × Option Str)) :=
  Verif.verifySignatures now (.req r) keys none

def Request.verifySignature (now : UInt64) (r : Request) (k : VerifyingKey) (i : Option Str) : Res HyperErr Str :=
  Verif.verifySignature now (.req r) k i none

def Response.setSignatures (r : Response) (l : List (SigParams × SigningKey × Option Str)) (reqFor : Option Request) :
    Response × Res HyperErr Unit :=
  let x := Verif.setSignatures (.res r) l reqFor
  ({ r with headers := x.1 }, x.2)

def Response.setSignature (r : Response) (p : SigParams) (k : SigningKey) (name : Option Str) (reqFor : Option Request) :
    Response × Res HyperErr Unit :=
  r.setSignatures [(p, k, name)] reqFor

def Response.verifySignatures (now : UInt64) (r : Response) (keys : List (VerifyingKey × Option Str))
    (reqFor : Option Request) :=
  Verif.verifySignatures now (.res r) keys reqFor

def Response.verifySignature (now : UInt64) (r : Response) (k : VerifyingKey) (i : Option Str)
    (reqFor : Option Request) : Res HyperErr Str :=
  Verif.verifySignature now (.res r) k i reqFor

end Verif
