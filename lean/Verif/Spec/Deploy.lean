import Verif.Spec.Guard
import Verif.Spec.Text
/-!
A sender and a receiver with checks of their own around the library. As `Spec/Guard.lean` this is not code of the repository: it is what a
caller can write with the public interface, so that theorems can say what it achieves.
-/
namespace Verif.Guard
open Sfv Spec

/-! ### Parameters -/

/-- A text that needs no escapes. -/
def optText : Option Str → Bool
  | some s => decide (SafeText s)
  | none => true

/-- A time that a structured field can hold. -/
def optTime : Option UInt64 → Bool
  | some t => decide (t.toNat < 10 ^ 15)
  | none => true

/-- The kind of a parameter. -/
def kind : CParam → Nat
  | .sf => 0
  | .key _ => 1
  | .bs => 2
  | .tr => 3
  | .req => 4
  | .name _ => 5

def paramHere (n : CName) : CParam → Bool
  | .req => true
  | .name s => decide (SafeText s) && n == .derived .queryParam
  | .key s => decide (SafeText s) && (match n with | .field _ => true | .derived _ => false)
  | _ => match n with | .field _ => true | .derived _ => false

/-- An identifier that can be written as it is. -/
def idFine (i : CId) : Bool :=
  decide (i.params.map kind).Nodup && i.params.all (paramHere i.name) &&
    (match i.name with | .field f => decide (SafeText f) && f.head? != some '@' | .derived _ => true)

/-- No two identifiers that differ at most in the order of their parameters. -/
def noTwins : List CId → Bool
  | [] => true
  | i :: t => t.all (fun j => !(i.name == j.name && i.params.isPerm j.params)) && noTwins t

/-- Signature parameters that can be written as they are. -/
def paramsFine (p : SigParams) : Bool :=
  optTime p.created && optTime p.expires && optText p.nonce && optText p.alg && optText p.keyid && optText p.tag &&
    p.covered.all idFine && noTwins p.covered

/-! ### Components -/

/-- For OPTIONS the library takes `*` for the request target, whatever it is. -/
def targetFine (r : Request) : Bool := r.method != c! "OPTIONS" || r.uri.pathAndQuery == some (c! "*")

/-- The component means something in this message: a field is present, and the request target is what the library takes for it. -/
def hereIn (m : Msg) (i : CId) : Bool :=
  match i.name, m with
  | .field f, _ => !(m.headers.getAll f).isEmpty
  | .derived .requestTarget, .req r => targetFine r
  | _, _ => true

/-- The same with the request that a response answers. -/
def idHere (m : Msg) (rf : Option Request) (i : CId) : Bool :=
  if i.params.contains .req then (match rf with | some r => hereIn (.req r) i | none => false) else hereIn m i

/-! ### The sender -/

/-- The message has no signature fields, or both, and they hold at least one signature. -/
def signaturesFine (m : Msg) : Bool :=
  ((m.headers.getAll hSignatureInput).isEmpty && (m.headers.getAll hSignature).isEmpty) ||
    (headersFine m.headers && (match extractSignatureHeaders m with | .ok (_ :: _) => true | _ => false))

def signerFine (m : Msg) (rf : Option Request) (x : SigParams × SigningKey × Option Str) : Bool :=
  paramsFine x.1 && decide (LegalKey (x.2.2.getD (c! "sig"))) && x.1.covered.all (idHere m rf)

/-- `set_message_signatures` behind the checks, and no label twice; `none` is a refusal. -/
def send (m : Msg) (l : List (SigParams × SigningKey × Option Str)) (rf : Option Request) : Headers × Res (Option HyperErr) Unit :=
  if signaturesFine m && l.all (signerFine m rf) && decide (l.map fun x => x.2.2.getD (c! "sig")).Nodup then
    let x := setSignatures m l rf
    (x.1, x.2.mapErr some)
  else (m.headers, .err none)

/-! ### The receiver -/

/-- No backslash in Signature-Input. -/
def clean (h : Headers) : Bool := (h.getAll hSignatureInput).all fun l => l.all (· != 92)

/-- The check of a result: all components that the signature covers mean something. -/
def accept (m : Msg) (rf : Option Request) (ps : List (Str × SigParams)) : Except HyperErr Str → Except (Option HyperErr) Str
  | .ok n =>
    match ps.find? (fun kv => kv.1 == n) with
    | some kv => if kv.2.covered.all (idHere m rf) then .ok n else .error none
    | none => .error none
  | .error e => .error (some e)

/-- `verify_message_signatures` behind the checks. -/
def receive (now : UInt64) (m : Msg) (keys : List (VerifyingKey × Option Str)) (rf : Option Request) :
    Res (Option HyperErr) (List (Except (Option HyperErr) Str)) :=
  if clean m.headers then do
    let ps ← call m (getSignatureParams m)
    let rs ← verifyAll now m keys rf
    .ok (rs.map (accept m rf ps))
  else .err none

end Verif.Guard
