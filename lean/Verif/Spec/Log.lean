import Verif.Model.Log
import Verif.Spec.Wire
/-!
What the library may write to the log. Only the types `LogLine` and `LogLevel` and the data types of messages are those of the model.
-/
namespace Verif.Spec
open Sfv

/-- The algorithm in the text of a line. -/
def algText : Alg → Str
  | .hmacSha256 => c! "HmacSha256"
  | .ecdsaP256Sha256 => c! "EcdsaP256Sha256"
  | .ecdsaP384Sha384 => c! "EcdsaP384Sha384"
  | .ed25519 => c! "Ed25519"
  | .rsaV15Sha256 => c! "RsaV1_5Sha256"
  | .rsaPssSha512 => c! "RsaPssSha512"

def debugLine (s : Str) : LogLine := ⟨.debug, s⟩

/-- The line of a key that is read. There is none for a shared key, and none for RSA without the feature. -/
def readText (rsa : Bool) (what : Str) : Alg → List LogLine
  | .ecdsaP256Sha256 => [debugLine (c! "Read P256 " ++ what ++ c! " key")]
  | .ecdsaP384Sha384 => [debugLine (c! "Read P384 " ++ what ++ c! " key")]
  | .ed25519 => [debugLine (c! "Read Ed25519 " ++ what ++ c! " key")]
  | .rsaV15Sha256 => if rsa then [debugLine (c! "Read RSA " ++ what ++ c! " key")] else []
  | .rsaPssSha512 => if rsa then [debugLine (c! "Read RSA-PSS " ++ what ++ c! " key")] else []
  | .hmacSha256 => []

/-- The lines of the covered components: one for each field with `req`. -/
def coverLines (is : List CId) : List LogLine :=
  is.flatMap fun i => match i.name with
    | .field _ => List.replicate (i.params.count .req) (debugLine (c! "`req` is given for http field component"))
    | .derived _ => []

/-- All lines of signing with these parameters and algorithms. -/
def signLines (l : List (List CId × Alg)) : List LogLine :=
  l.flatMap (fun x => coverLines x.1) ++ l.map (fun x => debugLine (c! "Sign " ++ algText x.2))

/-- The signature parameters that the library knows. -/
def known : List Str := [c! "created", c! "expires", c! "nonce", c! "alg", c! "keyid", c! "tag"]

/-- The other parameters in a dictionary, in order. -/
def unknownParams (d : Dict) : List Str :=
  d.flatMap fun kv => match kv.2 with
    | .inner l => (l.params.map Prod.fst).filter (fun k => k ∉ known)
    | .item _ => []

def errorLine (k : Str) : LogLine := ⟨.error, c! "Ignore invalid signature parameter: " ++ k⟩

/-- A line that verification may write: a fixed text, or an unknown parameter with the characters of a key. -/
inductive VerifyLine : LogLine → Prop where
  | req : VerifyLine (debugLine (c! "`req` is given for http field component"))
  | verify (a : Alg) : VerifyLine (debugLine (c! "Verify " ++ algText a))
  | ignored {k} : LegalKey k → k ∉ known → VerifyLine (errorLine k)

/-- The lines of level error. -/
def errorLines (l : List LogLine) : List LogLine := l.filter (fun x => x.level = .error)

/-- A signing key that writes one line with its algorithm per signature. -/
def PlainSigning (k : LogSigningKey) : Prop := ∀ d, k.log d = [debugLine (c! "Sign " ++ algText k.key.alg)]

def PlainVerifying (k : LogVerifyingKey) : Prop := ∀ d s, k.log d s = [debugLine (c! "Verify " ++ algText k.key.alg)]

end Verif.Spec
