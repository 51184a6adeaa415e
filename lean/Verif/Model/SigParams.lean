import Verif.Model.Crypto
/-!
Model of httpsig/src/signature_params.rs and httpsig/src/util.rs.
-/
namespace Verif
open Sfv

/-- `HttpSignatureParams`, signature_params.rs 19-34. -/
structure SigParams where
  created : Option UInt64 := none
  expires : Option UInt64 := none
  nonce : Option Str := none
  alg : Option Str := none
  keyid : Option Str := none
  tag : Option Str := none
  covered : List CId
  deriving DecidableEq, Repr

/-- `has_unique_elements`, util.rs 2-9, on component ids: every element is inserted into a hash set; the answer is
whether all insertions were new. Set membership is `CId.eqv`; the hash is treated in `Props/C14`. -/
def hasUnique : List CId → Bool
  | [] => true
  | a :: t => !(t.any (fun b => a.eqv b)) && hasUnique t

/-- `HttpSignatureParams::try_new`, signature_params.rs 38-51; `now` is the clock reading. -/
def SigParams.tryNew (now : UInt64) (ids : List CId) : Res SigErr SigParams :=
  if ¬ hasUnique ids then .err .invalidSignatureParams
  else .ok { created := some now, covered := ids }

/-! Setters, signature_params.rs 54-102. -/
def SigParams.setCreated (p : SigParams) (t : UInt64) : SigParams := { p with created := some t }
def SigParams.setExpires (p : SigParams) (t : UInt64) : SigParams := { p with expires := some t }
def SigParams.setNonce (p : SigParams) (s : Str) : SigParams := { p with nonce := some s }
def SigParams.setAlg (p : SigParams) (a : Alg) : SigParams := { p with alg := some a.toStr }
def SigParams.setKeyid (p : SigParams) (s : Str) : SigParams := { p with keyid := some s }
def SigParams.setTag (p : SigParams) (s : Str) : SigParams := { p with tag := some s }
def SigParams.setKeyInfo (p : SigParams) (k : SigningKey) : SigParams :=
  { p with keyid := some k.keyId, alg := some k.alg.toStr }
/-- `set_random_nonce`, 97-102: `rnd` are the 32 random bytes. -/
def SigParams.setRandomNonce (p : SigParams) (rnd : Bytes) : SigParams :=
  { p with nonce := some (Base64.encode rnd) }

/-- `set_expires_with_duration`, signature_params.rs 105-110. `checked` is the build's `overflow-checks` setting. -/
def SigParams.setExpiresWithDuration (checked : Bool) (p : SigParams) (d : Option UInt64) : Res SigErr SigParams :=
  match p.created with
  | none => .panic
  | some c =>
    let d := d.getD 300
    if checked ∧ 2 ^ 64 ≤ c.toNat + d.toNat then .panic
    else .ok { p with expires := some (c + d) }

/-- `is_expired`, signature_params.rs 114-120. -/
def SigParams.isExpired (now : UInt64) (p : SigParams) : Bool :=
  match p.expires with
  | some e => decide (e < now)
  | none => false

/-- The fold at signature_params.rs 125-131. -/
def joinIds (l : List CId) : Str :=
  l.foldl (fun acc v => if acc = [] then v.disp else acc ++ ' ' :: v.disp) []

def dispNum (name : Str) : Option UInt64 → Str
  | none => []
  | some t => ';' :: (name ++ '=' :: natStr t.toNat)

def dispText (name : Str) : Option Str → Str
  | none => []
  | some s => ';' :: (name ++ '=' :: '"' :: (s ++ ['"']))

/-- `Display for HttpSignatureParams`, signature_params.rs 123-153: strings are not escaped. -/
def SigParams.disp (p : SigParams) : Str :=
  '(' :: (joinIds p.covered ++ ')' :: (dispNum (c! "created") p.created ++ dispNum (c! "expires") p.expires ++
    dispText (c! "nonce") p.nonce ++ dispText (c! "alg") p.alg ++ dispText (c! "keyid") p.keyid ++
    dispText (c! "tag") p.tag))

/-- `bare_item.as_integer().map(|v| v.try_into().unwrap())`, signature_params.rs 197-198: a negative integer panics. -/
def asTime : Bare → Res SigErr (Option UInt64)
  | .int (.ofNat n) => .ok (some (UInt64.ofNat n))
  | .int (.negSucc _) => .panic
  | _ => .ok none

/-- One step of the loop at signature_params.rs 193-206. -/
def SigParams.setKV (p : SigParams) (kv : Str × Bare) : Res SigErr SigParams :=
  if kv.1 = c! "created" then do let t ← asTime kv.2; .ok { p with created := t }
  else if kv.1 = c! "expires" then do let t ← asTime kv.2; .ok { p with expires := t }
  else if kv.1 = c! "nonce" then .ok { p with nonce := asString kv.2 }
  else if kv.1 = c! "alg" then .ok { p with alg := asString kv.2 }
  else if kv.1 = c! "keyid" then .ok { p with keyid := asString kv.2 }
  else if kv.1 = c! "tag" then .ok { p with tag := asString kv.2 }
  else .ok p

/-- The loop at signature_params.rs 193-206. -/
def SigParams.setKVs (p : SigParams) : Params → Res SigErr SigParams
  | [] => .ok p
  | kv :: t => do let p' ← p.setKV kv; p'.setKVs t

/-- `TryFrom<&ListEntry> for HttpSignatureParams`, signature_params.rs 155-209. -/
def SigParams.ofEntry : Entry → Res SigErr SigParams
  | .item _ => .err .invalidSignatureParams
  | .inner l => do
    let ids ← Res.collect (fun i => CId.ofStr (serItem i)) l.items
    if ¬ hasUnique ids then .err .invalidSignatureParams
    else SigParams.setKVs { covered := ids } l.params

/-- `TryFrom<&str> for HttpSignatureParams`, signature_params.rs 211-224. -/
def SigParams.ofStr (s : Str) : Res SigErr SigParams := do
  let l ← Res.ofOption .parseSFV (parseList s)
  match l with
  | [.inner i] => SigParams.ofEntry (.inner i)
  | _ => .err .invalidSignatureParams

end Verif
