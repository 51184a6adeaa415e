import Verif.Model.SigParams
/-!
Model of httpsig/src/signature_base.rs.
-/
namespace Verif
open Sfv

/-- `HttpSignatureHeaders`, signature_base.rs 21-28; the signature is the raw bytes of `HttpSignature`. -/
structure SigHeaders where
  name : Str
  signature : Bytes
  params : SigParams
  deriving DecidableEq, Repr

/-- The entry is an item holding a byte sequence, signature_base.rs 55-63 and 81-84. -/
def entryBytes : Entry → Option Bytes
  | .item ⟨.bytes b, _⟩ => some b
  | _ => none

/-- `matches!(v, ListEntry::InnerList(_))`, signature_base.rs 68. -/
def entryIsInner : Entry → Bool
  | .inner _ => true
  | _ => false

/-- The closure at signature_base.rs 76-97. The `unreachable!()` at 85 is `panic`. -/
def parseOne (signature : Dict) (kv : Str × Entry) : Res SigErr (Str × SigHeaders) := do
  let p ← SigParams.ofEntry kv.2
  match (imGet signature kv.1).bind entryBytes with
  | some b => .ok (kv.1, ⟨kv.1, b, p⟩)
  | none => .panic

/-- `HttpSignatureHeaders::try_parse`, signature_base.rs 32-100. -/
def SigHeaders.tryParse (sigHeader inputHeader : Str) : Res SigErr (List (Str × SigHeaders)) := do
  let input ← Res.ofOption .parseSFV (parseDict inputHeader)
  let signature ← Res.ofOption .parseSFV (parseDict sigHeader)
  if signature.length ≠ input.length then .err .buildSignatureHeader
  else if ¬ signature.all (fun kv => (imGet input kv.1).isSome) then .err .buildSignatureHeader
  else if ¬ signature.all (fun kv => (entryBytes kv.2).isSome) then .err .buildSignatureHeader
  else if ¬ input.all (fun kv => entryIsInner kv.2) then .err .buildSignatureHeader
  else do
    let l ← Res.collect (parseOne signature) input
    .ok (imOfList l)

/-- `signature_header_value`, signature_base.rs 118-120, with `Display for HttpSignature`, 130-135. -/
def SigHeaders.signatureValue (h : SigHeaders) : Str :=
  h.name ++ '=' :: ':' :: (Base64.encode h.signature ++ [':'])

/-- `signature_input_header_value`, signature_base.rs 122-124. -/
def SigHeaders.inputValue (h : SigHeaders) : Str := h.name ++ '=' :: h.params.disp

/-- `HttpSignatureBase`, signature_base.rs 139-144. -/
structure SigBase where
  lines : List Component
  params : SigParams
  deriving DecidableEq, Repr

/-- `HttpSignatureBase::try_new`, signature_base.rs 151-173. -/
def SigBase.tryNew (lines : List Component) (p : SigParams) : Res SigErr SigBase :=
  if lines.length ≠ p.covered.length then .err .buildSignatureBase
  else if ¬ (lines.zip p.covered).all (fun lc => lc.1.id.eqv lc.2) then .err .buildSignatureBase
  else .ok ⟨lines, p⟩

/-- `Display for HttpSignatureBase`, signature_base.rs 237-247. -/
def SigBase.disp (b : SigBase) : Str :=
  b.lines.flatMap (fun l => l.disp ++ ['\n']) ++ (c! "\"@signature-params\": " ++ b.params.disp)

/-- `as_bytes`, signature_base.rs 176-179. -/
def SigBase.bytes (b : SigBase) : Bytes := utf8 b.disp

/-- `build_raw_signature`, signature_base.rs 182-185. -/
def SigBase.rawSignature (b : SigBase) (k : SigningKey) : Res SigErr Bytes := k.sign b.bytes

/-- `build_signature_headers`, signature_base.rs 188-199. -/
def SigBase.headers (b : SigBase) (k : SigningKey) (name : Option Str) : Res SigErr SigHeaders := do
  let s ← b.rawSignature k
  .ok ⟨name.getD (c! "sig"), s, b.params⟩

/-- `verify_signature_headers`, signature_base.rs 202-214; `now` is the clock reading. -/
def SigBase.verify (now : UInt64) (b : SigBase) (k : VerifyingKey) (h : SigHeaders) : Res SigErr Unit :=
  if h.params.isExpired now then .err .expiredSignatureParams
  else k.verify b.bytes h.signature

/-- `keyid`, signature_base.rs 217-219. -/
def SigBase.keyid (b : SigBase) : Option Str := b.params.keyid
/-- `alg`, signature_base.rs 222-224. -/
def SigBase.alg (b : SigBase) : Option Str := b.params.alg
/-- `nonce`, signature_base.rs 227-229. -/
def SigBase.nonce (b : SigBase) : Option Str := b.params.nonce
/-- `covered_components`, signature_base.rs 232-234. -/
def SigBase.covered (b : SigBase) : List CId := b.params.covered

end Verif
