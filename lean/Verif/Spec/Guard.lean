import Verif.Model.Hyper
/-!
A guard that a caller can put in front of the library. It is not code of the repository: it is a program over the public interface
(`VerifyingKey` is a trait), the `http` header map and the `sfv` parser, written down here so that theorems can say what it achieves.
-/
namespace Verif.Guard
open Sfv

/-- The names that a covered component may have if it starts with `@`. -/
def derivedNames : List Str :=
  [c! "@method", c! "@target-uri", c! "@authority", c! "@scheme", c! "@request-target", c! "@path", c! "@query", c! "@query-param",
    c! "@status", c! "@signature-params"]

/-- A covered item: no unknown name that starts with `@`, and no date. -/
def itemFine (i : Item) : Bool :=
  match i.bare with
  | .str s => s.head? != some '@' || derivedNames.contains s
  | .date _ => false
  | _ => true

/-- A signature parameter: no negative time. -/
def paramFine (kv : Str × Bare) : Bool :=
  match kv.2 with
  | .int n => decide (0 ≤ n) || (kv.1 != c! "created" && kv.1 != c! "expires")
  | _ => true

def memberFine : Entry → Bool
  | .inner l => l.items.all itemFine && l.params.all paramFine
  | .item _ => true

/-- The whole text of Signature-Input. What is no dictionary is left to the library. -/
def textFine (t : Str) : Bool :=
  match parseDict t with
  | some d => d.all fun kv => memberFine kv.2
  | none => true

/-- The lines of Signature-Input, joined. Lines that are no text are left to the library. -/
def headersFine (h : Headers) : Bool :=
  match headerTexts h hSignatureInput with
  | .ok ts => textFine (join (c! ", ") ts)
  | _ => true

/-- The lengths of ECDSA signatures; other algorithms check theirs. -/
def lengthFine : Alg → Bytes → Bool
  | .ecdsaP256Sha256, s => s.length == 64
  | .ecdsaP384Sha384, s => s.length == 96
  | _, _ => true

/-- A verifying key around another one: it looks at the length of the signature first. -/
def key (k : VerifyingKey) : VerifyingKey :=
  { k with verify := fun d s => if lengthFine k.alg s then k.verify d s else .err .parseSignature }

/-- A call behind the guard; `none` is the refusal of the guard. -/
def call {α : Type} (m : Msg) (r : Res HyperErr α) : Res (Option HyperErr) α :=
  if headersFine m.headers then r.mapErr some else .err none

/-- `verify_message_signatures` behind the guard. -/
def verifyAll (now : UInt64) (m : Msg) (keys : List (VerifyingKey × Option Str)) (rf : Option Request) :
    Res (Option HyperErr) (List (Except HyperErr Str)) :=
  call m (verifySignatures now m (keys.map fun ki => (key ki.1, ki.2)) rf)

/-- `verify_message_signature` behind the guard. -/
def verify (now : UInt64) (m : Msg) (k : VerifyingKey) (id : Option Str) (rf : Option Request) : Res (Option HyperErr) Str :=
  call m (verifySignature now m (key k) id rf)

end Verif.Guard
