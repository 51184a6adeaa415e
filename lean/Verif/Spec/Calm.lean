import Verif.Model.Std
import Verif.Model.Digest
import Verif.Spec.Guard
import Verif.Spec.Value
/-!
Programs over the public interface: they import keys, take messages, set and check digests, sign and verify, in any order. Every command is written
twice: as a plain call of the library, and behind a check that a caller can make. It is not code of the repository.
-/
namespace Verif.Calm
open Spec

/-- The bytes of a private key have the right length and are not all zero. -/
def bytesFine : Alg → Bytes → Bool
  | .ecdsaP256Sha256, b => b.length == 32
  | .ecdsaP384Sha384, b => b.length == 48
  | .ed25519, b => b.length == 32 && b.any (· != 0)
  | _, _ => true

/-- The same for a key file, read with the crates pkcs8 and sec1 that the library uses. A file that they cannot read is left to the library. -/
def derFine (L : Libs) (a : Alg) (der : Bytes) : Bool :=
  match L.prims.pkiOfDer der with
  | none => true
  | some i =>
    if a = .ed25519 then i.privateKey.length == 34 && bytesFine .ed25519 (i.privateKey.drop 2)
    else match L.prims.sec1 i.privateKey with
      | some b => bytesFine a b
      | none => true

def pemFine (L : Libs) (a : Alg) (t : Str) : Bool :=
  match L.prims.pem t with
  | some (_, der) => derFine L a der
  | none => true

/-- A key of the program that signs: a secret key with the randomness of this call, or a shared key. -/
inductive Signer where
  | secret (i : Nat) (rnd : Bytes)
  | shared (i : Nat)

/-- A key of the program that verifies. -/
inductive Verifier where
  | secret (i : Nat)
  | pub (i : Nat)
  | shared (i : Nat)

/-- What a program has. -/
structure State (P : Prims) where
  secrets : List (SecretKey P) := []
  publics : List (PublicKey P) := []
  shareds : List SharedKey := []
  msg : Msg

/-- What a program does next. -/
inductive Cmd where
  | secretBytes (a : Alg) (b : Bytes)
  | secretDer (a : Alg) (der : Bytes)
  | secretPem (a : Alg) (t : Str)
  | publicBytes (a : Alg) (b : Bytes)
  | publicPem (a : Alg) (t : Str)
  | sharedText (a : Alg) (t : Str)
  /-- a message comes in or is made -/
  | take (m : Msg)
  | setDigest (t : DigestType)
  | checkDigest
  | sign (l : List (SigParams × Signer × Option Str)) (rf : Option Request)
  | ask
  | verify (now : UInt64) (l : List (Verifier × Option Str)) (rf : Option Request)

/-- What a command tells. -/
inductive Answer where
  | done
  | failed
  | says (l : List (Str × SigParams))
  | results (l : List (Except HyperErr Str))

variable {P : Prims}

def State.signer (s : State P) : Signer → Option SigningKey
  | .secret i rnd => s.secrets[i]?.map (·.signing rnd)
  | .shared i => s.shareds[i]?.map (·.signing)

def State.verifier (s : State P) : Verifier → Option VerifyingKey
  | .secret i => s.secrets[i]?.map (·.verifying)
  | .pub i => s.publics[i]?.map (·.verifying)
  | .shared i => s.shareds[i]?.map (·.verifying)

def State.signers (s : State P) (l : List (SigParams × Signer × Option Str)) : List (SigParams × SigningKey × Option Str) :=
  l.filterMap fun x => (s.signer x.2.1).map fun k => (x.1, k, x.2.2)

def State.verifiers (s : State P) (l : List (Verifier × Option Str)) : List (VerifyingKey × Option Str) :=
  l.filterMap fun x => (s.verifier x.1).map fun k => (k, x.2)

/-- After a call: an error leaves the state as it is; `none` is a panic. -/
def after {ε α : Type} (s : State P) (r : Res ε α) (f : α → State P × Answer) : Option (State P × Answer) :=
  match r with
  | .ok a => some (f a)
  | .err _ => some (s, .failed)
  | .panic => none

def digestMsg (t : DigestType) : Msg → Res DigestErr Msg
  | .req r => (r.setContentDigest t).bind fun r => .ok (.req r)
  | .res r => (r.setContentDigest t).bind fun r => .ok (.res r)

def checkMsg : Msg → Res DigestErr Msg
  | .req r => r.verifyContentDigest.bind fun r => .ok (.req r)
  | .res r => r.verifyContentDigest.bind fun r => .ok (.res r)

/-- A command as a plain call of the library. -/
def plain (rsa : Bool) (s : State P) : Cmd → Option (State P × Answer)
  | .secretBytes a b => after s (SecretKey.fromBytes rsa a b) fun k => ({ s with secrets := s.secrets ++ [k] }, .done)
  | .secretDer a der => after s (SecretKey.fromDer rsa a der) fun k => ({ s with secrets := s.secrets ++ [k] }, .done)
  | .secretPem a t => after s (SecretKey.fromPem rsa a t) fun k => ({ s with secrets := s.secrets ++ [k] }, .done)
  | .publicBytes a b => after s (PublicKey.fromBytes rsa a b) fun k => ({ s with publics := s.publics ++ [k] }, .done)
  | .publicPem a t => after s (PublicKey.fromPem rsa a t) fun k => ({ s with publics := s.publics ++ [k] }, .done)
  | .sharedText a t => after s (SharedKey.fromBase64 a t) fun k => ({ s with shareds := s.shareds ++ [k] }, .done)
  | .take m => some ({ s with msg := m }, .done)
  | .setDigest t => after s (digestMsg t s.msg) fun m => ({ s with msg := m }, .done)
  | .checkDigest => after s (checkMsg s.msg) fun m => ({ s with msg := m }, .done)
  | .sign l rf =>
    match setSignatures s.msg (s.signers l) rf with
    | (_, .panic) => none
    | (h, .err _) => some ({ s with msg := s.msg.withHeaders h }, .failed)
    | (h, .ok _) => some ({ s with msg := s.msg.withHeaders h }, .done)
  | .ask => after s (getSignatureParams s.msg) fun l => (s, .says l)
  | .verify now l rf => after s (verifySignatures now s.msg (s.verifiers l) rf) fun rs => (s, .results rs)

/-- A command behind the checks. -/
def guarded (L : Libs) (rsa : Bool) (s : State L.prims) : Cmd → Option (State L.prims × Answer)
  | .secretBytes a b => if bytesFine a b then plain rsa s (.secretBytes a b) else some (s, .failed)
  | .secretDer a der => if derFine L a der then plain rsa s (.secretDer a der) else some (s, .failed)
  | .secretPem a t => if pemFine L a t then plain rsa s (.secretPem a t) else some (s, .failed)
  | .ask => if Guard.headersFine s.msg.headers then plain rsa s .ask else some (s, .failed)
  | .verify now l rf => after s (Guard.verifyAll now s.msg (s.verifiers l) rf) fun rs => (s, .results rs)
  | c => plain rsa s c

/-- A whole program: its commands one after the other. -/
def run (step : State P → Cmd → Option (State P × Answer)) : List Cmd → State P → Option (State P × List Answer)
  | [], s => some (s, [])
  | c :: cs, s =>
    match step s c with
    | none => none
    | some (s', a) =>
      match run step cs s' with
      | none => none
      | some (s'', as) => some (s'', a :: as)

/-- The messages of the commands have proper header names, which crate http sees to. -/
def Cmd.Fine : Cmd → Prop
  | .take m => WfHeaders m.headers
  | .sign _ rf => ∀ r, rf = some r → WfHeaders r.headers
  | .verify _ _ rf => ∀ r, rf = some r → WfHeaders r.headers
  | _ => True

/-- The private keys that the program asks for are Ed25519 keys. -/
def Cmd.EdOnly : Cmd → Prop
  | .secretBytes a _ => a = .ed25519
  | .secretDer a _ => a = .ed25519
  | .secretPem a _ => a = .ed25519
  | _ => True

end Verif.Calm
