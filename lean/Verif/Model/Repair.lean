import Verif.Model.Hyper
/-!
The library with eight local changes, one for each cause of a property that is false of the code as it is (DESIGN section 6).
This is not the code: it is what the code would be with these lines changed. Every definition names the lines it changes; what is
not defined again here is used unchanged.

1. component_name.rs 78-94: an unknown derived name is an error, not a panic.
2. signature_params.rs 197-198: a negative time is an error, not a panic.
3. asymmetric.rs 361 and 371: an ECDSA signature of another length is an error, not a panic.
4. component_name.rs 32-39, component_param.rs 27-38, signature_params.rs 123-153: strings are written with escapes.
5. component.rs 144-183: a field component without any value (absent field, absent member) is an error, not an empty value.
6. hyper_http.rs 894-902: `@request-target` of an OPTIONS request is its path and query.
7. hyper_http.rs 303-311 and 427-435: the lines are added all or none.
8. same lines: they are added only if the message then carries, as a receiver reads it, each signature as it was made.
-/
namespace Verif.Repair
open Sfv

/-- An error in place of a panic. -/
def caught {α : Type} (e : SigErr) : Res SigErr α → Res SigErr α
  | .panic => .err e
  | r => r

/-! ### Reading (changes 1 and 2) -/

/-- component_name.rs 14-30 with change 1; `CName.ofBare` panics for an unknown derived name only. -/
def nameOf (b : Bare) : Res SigErr CName := caught .invalidComponentName (CName.ofBare b)

/-- component_id.rs 51-79, unchanged but for `nameOf`. -/
def idOfItem (i : Item) : Res SigErr CId := do
  let n ← nameOf i.bare
  let p ← cparamsOf i.params
  CId.check ⟨n, p⟩

/-- component_id.rs 31-81, unchanged but for `idOfItem`. -/
def idOfStr (s : Str) : Res SigErr CId := do
  let v := trim s
  let item ← Res.ofOption .parseSFV
    (if v ≠ [] ∧ '"' ∉ v then parseItemTop ('"' :: (v ++ ['"'])) else parseItemTop v)
  idOfItem item

/-- signature_params.rs 193-206 with change 2; `SigParams.setKV` panics for a negative time only. -/
def setKVs (p : SigParams) : Params → Res SigErr SigParams
  | [] => .ok p
  | kv :: t => do let p' ← caught .invalidSignatureParams (p.setKV kv); setKVs p' t

/-- signature_params.rs 155-209, unchanged but for `idOfStr` and `setKVs`. -/
def ofEntry : Entry → Res SigErr SigParams
  | .item _ => .err .invalidSignatureParams
  | .inner l => do
    let ids ← Res.collect (fun i => idOfStr (serItem i)) l.items
    if ¬ hasUnique ids then .err .invalidSignatureParams
    else setKVs { covered := ids } l.params

/-- signature_params.rs 211-224, unchanged but for `ofEntry`. -/
def ofStr (s : Str) : Res SigErr SigParams := do
  let l ← Res.ofOption .parseSFV (parseList s)
  match l with
  | [.inner i] => ofEntry (.inner i)
  | _ => .err .invalidSignatureParams

/-- signature_base.rs 76-97, unchanged but for `ofEntry`. -/
def parseOne (signature : Dict) (kv : Str × Entry) : Res SigErr (Str × SigHeaders) := do
  let p ← ofEntry kv.2
  match (imGet signature kv.1).bind entryBytes with
  | some b => .ok (kv.1, ⟨kv.1, b, p⟩)
  | none => .panic

/-- signature_base.rs 32-100, unchanged but for `parseOne`. -/
def tryParse (sigHeader inputHeader : Str) : Res SigErr (List (Str × SigHeaders)) := do
  let input ← Res.ofOption .parseSFV (parseDict inputHeader)
  let signature ← Res.ofOption .parseSFV (parseDict sigHeader)
  if signature.length ≠ input.length then .err .buildSignatureHeader
  else if ¬ signature.all (fun kv => (imGet input kv.1).isSome) then .err .buildSignatureHeader
  else if ¬ signature.all (fun kv => (entryBytes kv.2).isSome) then .err .buildSignatureHeader
  else if ¬ input.all (fun kv => entryIsInner kv.2) then .err .buildSignatureHeader
  else do
    let l ← Res.collect (parseOne signature) input
    .ok (imOfList l)

/-- hyper_http.rs 746-769, unchanged but for `tryParse`. -/
def extractSignatureHeaders (m : Msg) : Res HyperErr (List (Str × SigHeaders)) :=
  let h := m.headers
  if ¬ (h.contains hSignatureInput && h.contains hSignature) then .err .noSignatureHeaders
  else do
    let inputs ← headerTexts h hSignatureInput
    let sigs ← headerTexts h hSignature
    (tryParse (join (c! ", ") sigs) (join (c! ", ") inputs)).mapErr .httpSig

/-! ### Keys (change 3) -/

/-- asymmetric.rs 358-402 with change 3. -/
def verify {P : Prims} (k : PublicKey P) (d s : Bytes) : Res SigErr Unit := caught .parseSignature (k.verify d s)

/-- A public key as the argument of verification. -/
def verifying {P : Prims} (k : PublicKey P) : VerifyingKey := ⟨verify k, k.keyId, k.alg⟩

/-! ### Writing (change 4) -/

/-- A string as RFC 9651 writes it: between quotes, with escapes. -/
def quote (s : Str) : Str := '"' :: (escStr s ++ ['"'])

/-- component_name.rs 32-39 with change 4. -/
def nameDisp : CName → Str
  | .field s => quote s
  | .derived d => quote d.toStr

/-- component_param.rs 27-38 with change 4. -/
def paramDisp : CParam → Str
  | .sf => c! "sf"
  | .key s => c! "key=" ++ quote s
  | .bs => c! "bs"
  | .tr => c! "tr"
  | .req => c! "req"
  | .name s => c! "name=" ++ quote s

/-- component_param.rs 89-101 and component_id.rs 25-29, unchanged but for `nameDisp` and `paramDisp`. -/
def idDisp (a : CId) : Str := nameDisp a.name ++ a.params.flatMap (fun p => ';' :: paramDisp p)

/-- One string parameter of signature_params.rs 138-150 with change 4. -/
def textDisp (name : Str) : Option Str → Str
  | none => []
  | some s => ';' :: (name ++ '=' :: quote s)

/-- signature_params.rs 123-153 with change 4. -/
def disp (p : SigParams) : Str :=
  '(' :: (join [' '] (p.covered.map idDisp) ++ ')' :: (dispNum (c! "created") p.created ++ dispNum (c! "expires") p.expires ++
    textDisp (c! "nonce") p.nonce ++ textDisp (c! "alg") p.alg ++ textDisp (c! "keyid") p.keyid ++
    textDisp (c! "tag") p.tag))

/-- signature_base.rs 237-247 and component.rs 60-66, unchanged but for `idDisp` and `disp`. -/
def baseDisp (b : SigBase) : Str :=
  b.lines.flatMap (fun l => idDisp l.id ++ ':' :: ' ' :: l.value.disp ++ ['\n']) ++ (c! "\"@signature-params\": " ++ disp b.params)

/-- signature_base.rs 122-124, unchanged but for `disp`. -/
def inputValue (h : SigHeaders) : Str := h.name ++ '=' :: disp h.params

/-! ### Components (changes 5 and 6) -/

/-- component.rs 144-183 with change 5. -/
def buildField (id : CId) (vs : List Str) : Res SigErr Component := do
  let vs' ← fieldParams id.params vs
  if vs' = [] then .err .invalidComponent else .ok ⟨id, .plain (join (c! ", ") vs')⟩

/-- hyper_http.rs 807-825, unchanged but for `buildField`. -/
def extractHttpField (m : Msg) (id : CId) : Res HyperErr Component :=
  match id.name with
  | .derived _ => .err .invalidComponentName
  | .field n => do
    let vs ← headerTexts m.headers n
    (buildField id vs).mapErr .httpSig

/-- hyper_http.rs 889-927 with change 6. -/
def derivedValues (m : Msg) (d : Derived) : Res HyperErr (List Str) :=
  match d with
  | .requestTarget => do
    let x ← m.method
    if x = c! "CONNECT" then do let u ← m.uri; .ok [u.authority.getD []]
    else do let u ← m.uri; .ok [u.pathAndQuery.getD []]
  | d => Verif.derivedValues m d

/-- hyper_http.rs 828-930, unchanged but for `derivedValues`. -/
def extractDerived (m : Msg) (id : CId) : Res HyperErr Component :=
  match id.name with
  | .field _ => .err .invalidComponentName
  | .derived d => do
    checkDerivedParams m d id.params
    checkDerivedKind m d id.params
    let vs ← derivedValues m d
    (Component.build id vs).mapErr .httpSig

/-- hyper_http.rs 934-942. -/
def extractComponent (m : Msg) (id : CId) : Res HyperErr Component :=
  match id.name with
  | .field _ => extractHttpField m id
  | .derived _ => extractDerived m id

/-- hyper_http.rs 783-800. -/
def extractFor (m : Msg) (reqFor : Option Request) (id : CId) : Res HyperErr Component :=
  if id.params.contains .req then
    if m.isReq then .err .invalidComponentParam
    else match reqFor with
      | none => .err .invalidComponentParam
      | some r => extractComponent (.req r) id
  else extractComponent m id

/-- hyper_http.rs 775-804. -/
def buildBase (m : Msg) (p : SigParams) (reqFor : Option Request) : Res HyperErr SigBase := do
  let lines ← Res.collect (extractFor m reqFor) p.covered
  (SigBase.tryNew lines p).mapErr .httpSig

/-! ### Verification -/

/-- hyper_http.rs 643-657. -/
def extractSignatures (m : Msg) (reqFor : Option Request) : Res HyperErr (List (Str × (SigBase × SigHeaders))) := do
  let l ← extractSignatureHeaders m
  let e ← Res.filterOk (fun kv => do
    let b ← buildBase m kv.2.params reqFor
    Res.ok (kv.1, (b, kv.2))) l
  .ok (imOfList e)

/-- signature_base.rs 202-214, unchanged but for the text of the base. -/
def verifyBase (now : UInt64) (b : SigBase) (k : VerifyingKey) (h : SigHeaders) : Res SigErr Unit :=
  if h.params.isExpired now then .err .expiredSignatureParams
  else k.verify (utf8 (baseDisp b)) h.signature

/-- hyper_http.rs 679-697. -/
def verifyOne (now : UInt64) (map : List (Str × (SigBase × SigHeaders))) (k : VerifyingKey) (i : Option Str) :
    Res HyperErr Str :=
  let filtered := filterKeyId map i
  if filtered = [] then .err .noSignatureHeaders
  else
    match (Res.filterOk (fun kv => do verifyBase now kv.2.1 k kv.2.2; Res.ok kv.1) filtered : Res HyperErr (List Str)) with
    | .ok names =>
      match isOfList names with
      | [] => .err .invalidSignature
      | n :: _ => .ok n
    | .err e => .err e
    | .panic => .panic

/-- hyper_http.rs 330-345, 460-476 and 660-701. -/
def verifySignatures (now : UInt64) (m : Msg) (keys : List (VerifyingKey × Option Str)) (reqFor : Option Request) :
    Res HyperErr (List (Except HyperErr Str)) :=
  if ¬ hasMessageSignature m.headers then .err .noSignatureHeaders
  else do
    let map ← extractSignatures m reqFor
    gather (keys.map (fun ki => verifyOne now map ki.1 ki.2))

/-- hyper_http.rs 318-328 and 442-458. -/
def verifySignature (now : UInt64) (m : Msg) (k : VerifyingKey) (i : Option Str) (reqFor : Option Request) :
    Res HyperErr Str := do
  let l ← verifySignatures now m [(k, i)] reqFor
  match l.getLast? with
  | some (.ok n) => .ok n
  | some (.error e) => .err e
  | none => .panic

/-! ### Signing (changes 7 and 8) -/

/-- signature_base.rs 188-199, unchanged but for the text of the base. -/
def headersOf (b : SigBase) (k : SigningKey) (name : Option Str) : Res SigErr SigHeaders := do
  let s ← k.sign (utf8 (baseDisp b))
  .ok ⟨name.getD (c! "sig"), s, b.params⟩

/-- hyper_http.rs 289-302 and 414-425. -/
def signAll (m : Msg) (l : List (SigParams × SigningKey × Option Str)) (reqFor : Option Request) : Res HyperErr (List SigHeaders) := do
  let bs ← Res.collect (fun pkn => do let b ← buildBase m pkn.1 reqFor; .ok (b, pkn.2)) l
  let rs ← gather (bs.map (fun (bkn : SigBase × SigningKey × Option Str) => headersOf bkn.1 bkn.2.1 bkn.2.2))
  Res.collect (fun r => match r with | .ok h => .ok h | .error e => .err (.httpSig e)) rs

/-- The two lines of a signature, hyper_http.rs 303-311 and 427-435. -/
def appendOne (h : Headers) (s : SigHeaders) : Res HyperErr Headers := do
  let v ← Res.ofOption .invalidHeaderValue (hvOfStr (inputValue s))
  let w ← Res.ofOption .invalidHeaderValue (hvOfStr s.signatureValue)
  .ok ((h.append hSignatureInput v).append hSignature w)

/-- The lines of all signatures. -/
def appendAll (h : Headers) : List SigHeaders → Res HyperErr Headers
  | [] => .ok h
  | s :: t => do let h' ← appendOne h s; appendAll h' t

/-- The message carries the signature under its name. -/
def carried (m : Msg) (s : SigHeaders) : Bool :=
  match extractSignatureHeaders m with
  | .ok l => imGet l s.name == some s
  | _ => false

/-- `set_message_signatures`, hyper_http.rs 280-312 and 403-436 with changes 7 and 8. -/
def setSignatures (m : Msg) (l : List (SigParams × SigningKey × Option Str)) (reqFor : Option Request) : Headers × Res HyperErr Unit :=
  match (do let hs ← signAll m l reqFor; let h ← appendAll m.headers hs; .ok (hs, h) : Res HyperErr (List SigHeaders × Headers)) with
  | .ok (hs, h) => if hs.all (carried (m.withHeaders h)) then (h, .ok ()) else (m.headers, .err .invalidHeaderValue)
  | .err e => (m.headers, .err e)
  | .panic => (m.headers, .panic)

end Verif.Repair
