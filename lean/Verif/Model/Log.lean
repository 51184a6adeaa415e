import Verif.Model.Hyper
/-!
The log. The functions of httpsig write lines with `tracing` (`debug!` and `error!`, httpsig/src/trace.rs). Here are the functions of the
other model files once more, as functions that also say what they log and when. Functions that log nothing are taken over. The lines
of one call are in the order in which they are written: the futures given to `join_all` do not wait for anything between two lines,
so they run one after the other.
-/
namespace Verif
open Sfv

inductive LogLevel where
  | debug | error
  deriving DecidableEq, Repr

/-- An event of `tracing`: its level and its message. -/
structure LogLine where
  level : LogLevel
  text : Str
  deriving DecidableEq, Repr

/-- What a call logs until it returns or panics, and its result. -/
structure Logged (ε α : Type) where
  log : List LogLine
  res : Res ε α

namespace Logged
variable {ε ε' α β : Type}

/-- A call that logs nothing. -/
def quiet (r : Res ε α) : Logged ε α := ⟨[], r⟩

/-- `debug!` or `error!`. -/
def line (l : LogLevel) (s : Str) : Logged ε Unit := ⟨[⟨l, s⟩], .ok ()⟩

/-- One call after another. -/
def bind (x : Logged ε α) (f : α → Logged ε β) : Logged ε β :=
  match x.res with
  | .ok a => ⟨x.log ++ (f a).log, (f a).res⟩
  | .err e => ⟨x.log, .err e⟩
  | .panic => ⟨x.log, .panic⟩

instance : Monad (Logged ε) where
  pure a := ⟨[], .ok a⟩
  bind := bind

def mapErr (g : ε → ε') (x : Logged ε α) : Logged ε' α := ⟨x.log, x.res.mapErr g⟩

/-- As `Res.collect`. -/
def collect (f : α → Logged ε β) : List α → Logged ε (List β)
  | [] => ⟨[], .ok []⟩
  | a :: t => do let b ← f a; let bs ← collect f t; ⟨[], .ok (b :: bs)⟩

/-- As `Res.filterOk`. -/
def filterOk (f : α → Logged ε β) : List α → Logged ε' (List β)
  | [] => ⟨[], .ok []⟩
  | a :: t =>
    match (f a).res with
    | .ok b => let r : Logged ε' (List β) := filterOk f t
      ⟨(f a).log ++ r.log, do let bs ← r.res; .ok (b :: bs)⟩
    | .err _ => let r : Logged ε' (List β) := filterOk f t
      ⟨(f a).log ++ r.log, r.res⟩
    | .panic => ⟨(f a).log, .panic⟩

/-- As `gather`. -/
def gather : List (Logged ε α) → Logged ε' (List (Except ε α))
  | [] => ⟨[], .ok []⟩
  | x :: t =>
    match x.res with
    | .ok a => let r : Logged ε' (List (Except ε α)) := gather t
      ⟨x.log ++ r.log, do let l ← r.res; .ok (.ok a :: l)⟩
    | .err e => let r : Logged ε' (List (Except ε α)) := gather t
      ⟨x.log ++ r.log, do let l ← r.res; .ok (.error e :: l)⟩
    | .panic => ⟨x.log, .panic⟩

end Logged

/-! ### Keys -/

/-- `SharedKey::from_base64`, symmetric.rs 23-33. -/
def SharedKey.fromBase64L (alg : Alg) (key : Str) : Logged SigErr SharedKey := do
  Logged.line .debug (c! "Create SharedKey from base64 string")
  .quiet (SharedKey.fromBase64 alg key)

/-- Reading a private key, asymmetric.rs 67-93: the line at the start of each case of `from_bytes`. -/
def readSecretLine (rsa : Bool) : Alg → List LogLine
  | .ecdsaP256Sha256 => [⟨.debug, c! "Read P256 private key"⟩]
  | .ecdsaP384Sha384 => [⟨.debug, c! "Read P384 private key"⟩]
  | .ed25519 => [⟨.debug, c! "Read Ed25519 private key"⟩]
  | .rsaV15Sha256 => if rsa then [⟨.debug, c! "Read RSA private key"⟩] else []
  | .rsaPssSha512 => if rsa then [⟨.debug, c! "Read RSA-PSS private key"⟩] else []
  | .hmacSha256 => []

/-- Reading a public key, asymmetric.rs 262-286. -/
def readPublicLine (rsa : Bool) : Alg → List LogLine
  | .ecdsaP256Sha256 => [⟨.debug, c! "Read P256 public key"⟩]
  | .ecdsaP384Sha384 => [⟨.debug, c! "Read P384 public key"⟩]
  | .ed25519 => [⟨.debug, c! "Read Ed25519 public key"⟩]
  | .rsaV15Sha256 => if rsa then [⟨.debug, c! "Read RSA public key"⟩] else []
  | .rsaPssSha512 => if rsa then [⟨.debug, c! "Read RSA-PSS public key"⟩] else []
  | .hmacSha256 => []

variable {P : Prims}

/-- `SecretKey::from_bytes`, asymmetric.rs 65-100. -/
def SecretKey.fromBytesL (rsa : Bool) (alg : Alg) (b : Bytes) : Logged SigErr (SecretKey P) :=
  ⟨readSecretLine rsa alg, SecretKey.fromBytes rsa alg b⟩

/-- `SecretKey::from_der`, asymmetric.rs 103-149. -/
def SecretKey.fromDerL (rsa : Bool) (alg : Alg) (der : Bytes) : Logged SigErr (SecretKey P) := do
  let pki ← .quiet (Res.ofOption .parsePrivateKey (P.pkiOfDer der))
  let b ← .quiet (skBytesOfPki P rsa alg pki)
  SecretKey.fromBytesL rsa alg b

/-- `SecretKey::from_pem`, asymmetric.rs 152-158. -/
def SecretKey.fromPemL (rsa : Bool) (alg : Alg) (pem : Str) : Logged SigErr (SecretKey P) := do
  let td ← .quiet (Res.ofOption .parsePrivateKey (P.pem pem))
  if td.1 ≠ c! "PRIVATE KEY" then .quiet (.err .parsePrivateKey)
  else SecretKey.fromDerL rsa alg td.2

/-- `PublicKey::from_bytes`, asymmetric.rs 260-293. -/
def PublicKey.fromBytesL (rsa : Bool) (alg : Alg) (b : Bytes) : Logged SigErr (PublicKey P) :=
  ⟨readPublicLine rsa alg, PublicKey.fromBytes rsa alg b⟩

/-- `PublicKey::from_pem`, asymmetric.rs 297-353. -/
def PublicKey.fromPemL (rsa : Bool) (alg : Alg) (pem : Str) : Logged SigErr (PublicKey P) := do
  let td ← .quiet (Res.ofOption .parsePublicKey (P.pem pem))
  if td.1 ≠ c! "PUBLIC KEY" then .quiet (.err .parsePublicKey)
  else do
    let spki ← .quiet (Res.ofOption .parsePublicKey (P.spkiOfDer td.2))
    let b ← .quiet (pkBytesOfSpki rsa alg spki)
    PublicKey.fromBytesL rsa alg b

/-- Names of algorithms in the lines of `sign` and `verify`. -/
def logName : Alg → Str
  | .hmacSha256 => c! "HmacSha256"
  | .ecdsaP256Sha256 => c! "EcdsaP256Sha256"
  | .ecdsaP384Sha384 => c! "EcdsaP384Sha384"
  | .ed25519 => c! "Ed25519"
  | .rsaV15Sha256 => c! "RsaV1_5Sha256"
  | .rsaPssSha512 => c! "RsaPssSha512"

/-- The line of `sign`: symmetric.rs 41, asymmetric.rs 179-207. -/
def signLine (a : Alg) : LogLine := ⟨.debug, c! "Sign " ++ logName a⟩
/-- The line of `verify`: symmetric.rs 64, asymmetric.rs 361-396. -/
def verifyLine (a : Alg) : LogLine := ⟨.debug, c! "Verify " ++ logName a⟩

/-- `trait SigningKey` with what `sign` logs. Other programs can have own keys. -/
structure LogSigningKey where
  key : SigningKey
  log : Bytes → List LogLine

/-- `trait VerifyingKey` with what `verify` logs. -/
structure LogVerifyingKey where
  key : VerifyingKey
  log : Bytes → Bytes → List LogLine

/-- symmetric.rs 38-47. -/
def SharedKey.signingL (k : SharedKey) : LogSigningKey := ⟨k.signing, fun _ => [signLine k.alg]⟩
/-- symmetric.rs 61-72. -/
def SharedKey.verifyingL (k : SharedKey) : LogVerifyingKey := ⟨k.verifying, fun _ _ => [verifyLine k.alg]⟩
/-- asymmetric.rs 176-212. -/
def SecretKey.signingL (k : SecretKey P) (rnd : Bytes) : LogSigningKey := ⟨k.signing rnd, fun _ => [signLine k.alg]⟩
/-- asymmetric.rs 225-228: as the public key. -/
def SecretKey.verifyingL (k : SecretKey P) : LogVerifyingKey := ⟨k.verifying, fun _ _ => [verifyLine k.alg]⟩
/-- asymmetric.rs 358-402. -/
def PublicKey.verifyingL (k : PublicKey P) : LogVerifyingKey := ⟨k.verifying, fun _ _ => [verifyLine k.alg]⟩

/-! ### Components -/

def reqLine : LogLine := ⟨.debug, c! "`req` is given for http field component"⟩

/-- The loop of `build_http_field_component`, component.rs 151-172. -/
def fieldParamsL : List CParam → List Str → Logged SigErr (List Str)
  | [], vs => ⟨[], .ok vs⟩
  | .sf :: t, vs => do let vs' ← .quiet (handleSf vs); fieldParamsL t vs'
  | .key k :: t, vs => do let vs' ← .quiet (handleKey vs k); fieldParamsL t vs'
  | .req :: t, vs => do Logged.line .debug (c! "`req` is given for http field component"); fieldParamsL t vs
  | .bs :: _, _ => .quiet (.err .notYetImplemented)
  | .tr :: _, _ => .quiet (.err .notYetImplemented)
  | .name _ :: _, _ => .quiet (.err .notYetImplemented)

/-- component.rs 48-58 and 144-183. -/
def Component.buildL (id : CId) (vs : List Str) : Logged SigErr Component :=
  match id.name with
  | .field _ => do
    let vs' ← fieldParamsL id.params vs
    .quiet (.ok ⟨id, .plain (join (c! ", ") vs')⟩)
  | .derived _ => .quiet (buildDerived id vs)

/-! ### Parameters -/

/-- The line for an unknown parameter, signature_params.rs 203-205. -/
def ignoreLine (k : Str) : LogLine := ⟨.error, c! "Ignore invalid signature parameter: " ++ k⟩

/-- The names in the `match` at signature_params.rs 196-202. -/
def paramNames : List Str := [c! "created", c! "expires", c! "nonce", c! "alg", c! "keyid", c! "tag"]

/-- The loop at signature_params.rs 193-206. -/
def SigParams.setKVsL (p : SigParams) : Params → Logged SigErr SigParams
  | [] => .quiet (.ok p)
  | kv :: t => do
    let p' ← ⟨if kv.1 ∈ paramNames then [] else [ignoreLine kv.1], p.setKV kv⟩
    p'.setKVsL t

/-- signature_params.rs 155-209. -/
def SigParams.ofEntryL : Entry → Logged SigErr SigParams
  | .item _ => .quiet (.err .invalidSignatureParams)
  | .inner l => do
    let ids ← .quiet (Res.collect (fun i => CId.ofStr (serItem i)) l.items)
    if ¬ hasUnique ids then .quiet (.err .invalidSignatureParams)
    else SigParams.setKVsL { covered := ids } l.params

/-- signature_base.rs 76-97. -/
def parseOneL (signature : Dict) (kv : Str × Entry) : Logged SigErr (Str × SigHeaders) := do
  let p ← SigParams.ofEntryL kv.2
  match (imGet signature kv.1).bind entryBytes with
  | some b => .quiet (.ok (kv.1, ⟨kv.1, b, p⟩))
  | none => .quiet .panic

/-- signature_base.rs 32-100. -/
def SigHeaders.tryParseL (sigHeader inputHeader : Str) : Logged SigErr (List (Str × SigHeaders)) := do
  let input ← .quiet (Res.ofOption .parseSFV (parseDict inputHeader))
  let signature ← .quiet (Res.ofOption .parseSFV (parseDict sigHeader))
  if signature.length ≠ input.length then .quiet (.err .buildSignatureHeader)
  else if ¬ signature.all (fun kv => (imGet input kv.1).isSome) then .quiet (.err .buildSignatureHeader)
  else if ¬ signature.all (fun kv => (entryBytes kv.2).isSome) then .quiet (.err .buildSignatureHeader)
  else if ¬ input.all (fun kv => entryIsInner kv.2) then .quiet (.err .buildSignatureHeader)
  else do
    let l ← Logged.collect (parseOneL signature) input
    .quiet (.ok (imOfList l))

/-! ### Messages -/

/-- hyper_http.rs 746-769. -/
def extractSignatureHeadersL (m : Msg) : Logged HyperErr (List (Str × SigHeaders)) :=
  let h := m.headers
  if ¬ (h.contains hSignatureInput && h.contains hSignature) then .quiet (.err .noSignatureHeaders)
  else do
    let inputs ← .quiet (headerTexts h hSignatureInput)
    let sigs ← .quiet (headerTexts h hSignature)
    (SigHeaders.tryParseL (join (c! ", ") sigs) (join (c! ", ") inputs)).mapErr .httpSig

/-- hyper_http.rs 807-825. -/
def extractHttpFieldL (m : Msg) (id : CId) : Logged HyperErr Component :=
  match id.name with
  | .derived _ => .quiet (.err .invalidComponentName)
  | .field n => do
    let vs ← .quiet (headerTexts m.headers n)
    (Component.buildL id vs).mapErr .httpSig

/-- hyper_http.rs 828-930. -/
def extractDerivedL (m : Msg) (id : CId) : Logged HyperErr Component :=
  match id.name with
  | .field _ => .quiet (.err .invalidComponentName)
  | .derived d => do
    Logged.quiet (checkDerivedParams m d id.params)
    Logged.quiet (checkDerivedKind m d id.params)
    let vs ← .quiet (derivedValues m d)
    (Component.buildL id vs).mapErr .httpSig

/-- hyper_http.rs 934-942. -/
def extractComponentL (m : Msg) (id : CId) : Logged HyperErr Component :=
  match id.name with
  | .field _ => extractHttpFieldL m id
  | .derived _ => extractDerivedL m id

/-- hyper_http.rs 783-800. -/
def extractForL (m : Msg) (reqFor : Option Request) (id : CId) : Logged HyperErr Component :=
  if id.params.contains .req then
    if m.isReq then .quiet (.err .invalidComponentParam)
    else match reqFor with
      | none => .quiet (.err .invalidComponentParam)
      | some r => extractComponentL (.req r) id
  else extractComponentL m id

/-- hyper_http.rs 775-804. -/
def buildBaseL (m : Msg) (p : SigParams) (reqFor : Option Request) : Logged HyperErr SigBase := do
  let lines ← Logged.collect (extractForL m reqFor) p.covered
  .quiet ((SigBase.tryNew lines p).mapErr .httpSig)

/-- hyper_http.rs 643-657. -/
def extractSignaturesL (m : Msg) (reqFor : Option Request) : Logged HyperErr (List (Str × (SigBase × SigHeaders))) := do
  let l ← extractSignatureHeadersL m
  let e ← Logged.filterOk (fun kv => do
    let b ← buildBaseL m kv.2.params reqFor
    .quiet (.ok (kv.1, (b, kv.2)))) l
  .quiet (.ok (imOfList e))

/-- signature_base.rs 202-214. -/
def SigBase.verifyL (now : UInt64) (b : SigBase) (k : LogVerifyingKey) (h : SigHeaders) : Logged SigErr Unit :=
  if h.params.isExpired now then .quiet (.err .expiredSignatureParams)
  else ⟨k.log b.bytes h.signature, k.key.verify b.bytes h.signature⟩

/-- hyper_http.rs 679-697. -/
def verifyOneL (now : UInt64) (map : List (Str × (SigBase × SigHeaders))) (k : LogVerifyingKey) (i : Option Str) :
    Logged HyperErr Str :=
  let filtered := filterKeyId map i
  if filtered = [] then .quiet (.err .noSignatureHeaders)
  else do
    let names ← Logged.filterOk (fun kv => do kv.2.1.verifyL now k kv.2.2; .quiet (.ok kv.1)) filtered
    match isOfList names with
    | [] => .quiet (.err .invalidSignature)
    | n :: _ => .quiet (.ok n)

/-- hyper_http.rs 330-345, 460-476 and 660-701. -/
def verifySignaturesL (now : UInt64) (m : Msg) (keys : List (LogVerifyingKey × Option Str)) (reqFor : Option Request) :
    Logged HyperErr (List (Except HyperErr Str)) :=
  if ¬ hasMessageSignature m.headers then .quiet (.err .noSignatureHeaders)
  else do
    let map ← extractSignaturesL m reqFor
    Logged.gather (keys.map (fun ki => verifyOneL now map ki.1 ki.2))

/-- signature_base.rs 188-199. -/
def SigBase.headersL (b : SigBase) (k : LogSigningKey) (name : Option Str) : Logged SigErr SigHeaders :=
  ⟨k.log b.bytes, b.headers k.key name⟩

/-- hyper_http.rs 289-302 and 414-425. -/
def signHeadersL (m : Msg) (l : List (SigParams × LogSigningKey × Option Str)) (reqFor : Option Request) : Logged HyperErr (List SigHeaders) := do
  let bs ← Logged.collect (fun pkn => do let b ← buildBaseL m pkn.1 reqFor; .quiet (.ok (b, pkn.2))) l
  let rs ← Logged.gather (bs.map (fun bkn => bkn.1.headersL bkn.2.1 bkn.2.2))
  .quiet (Res.collect (fun r => match r with | .ok h => .ok h | .error e => .err (.httpSig e)) rs)

/-- hyper_http.rs 280-312 and 403-436: the header map left behind, with the result and the log. -/
def setSignaturesL (m : Msg) (l : List (SigParams × LogSigningKey × Option Str)) (reqFor : Option Request) :
    Headers × Logged HyperErr Unit :=
  match (signHeadersL m l reqFor).res with
  | .ok hs => ((appendAll m.headers hs).1, ⟨(signHeadersL m l reqFor).log, (appendAll m.headers hs).2⟩)
  | .err e => (m.headers, ⟨(signHeadersL m l reqFor).log, .err e⟩)
  | .panic => (m.headers, ⟨(signHeadersL m l reqFor).log, .panic⟩)

end Verif
