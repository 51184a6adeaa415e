import Verif.Spec.Verify
import Verif.Spec.Safe
/-!
What signing a message should do.
-/
namespace Verif.Spec
open Sfv

/-- One entry of the argument of `set_message_signatures`: parameters, key, optional name. -/
abbrev Signer := SigParams × SigningKey × Option Str

/-- The label of a signer; without a name it is `sig`. -/
def Signer.label (x : Signer) : Str := x.2.2.getD (c! "sig")

/-- `sh` is what a signer adds to the message: the signature of the signature base under its label with its parameters. -/
structure SignedBy (m : Msg) (rf : Option Request) (x : Signer) (sh : SigHeaders) : Prop where
  name : sh.name = x.label
  params : sh.params = x.1
  signature : ∃ text, BaseOf m rf x.1 text ∧ x.2.1.sign (utf8 text) = .ok sh.signature

/-- The two lines of a signature. -/
def sigLines (sh : SigHeaders) : Headers :=
  [(c! "signature-input", utf8 (sh.name ++ c! "=" ++ sh.params.disp)),
   (c! "signature", utf8 (sh.name ++ c! "=:" ++ Base64.encode sh.signature ++ c! ":"))]

/-- The covered components do not include the signature fields of the message itself. -/
def NotSelf (p : SigParams) : Prop :=
  ∀ i ∈ p.covered, CParam.req ∉ i.params → i.name ≠ .derived .signatureParams ∧
    ∀ f, i.name = .field f → lower f ≠ c! "signature" ∧ lower f ≠ c! "signature-input"

/-- A verifying key that accepts what the signing key signs. -/
def KeyPair (sk : SigningKey) (vk : VerifyingKey) : Prop := ∀ d s, sk.sign d = .ok s → vk.verify d s = .ok ()

/-- The message with other headers. -/
def SameButHeaders (m m' : Msg) : Prop :=
  match m, m' with
  | .req r, .req r' => r'.method = r.method ∧ r'.uri = r.uri ∧ r'.body = r.body
  | .res s, .res s' => s'.status = s.status ∧ s'.body = s.body
  | _, _ => False

/-- The signatures of a message: none at all if both fields are missing, otherwise those it carries. -/
def HasSignatures (h : Headers) (l : List (Str × SigHeaders)) : Prop :=
  (fieldLines h (c! "signature-input") = [] ∧ fieldLines h (c! "signature") = [] ∧ l = []) ∨ (Carries h l ∧ l ≠ [])

/-- `l` with the entry `sh` put in: in place of an entry with the same label, otherwise at the end. -/
def putIn (l : List (Str × SigHeaders)) (sh : SigHeaders) : List (Str × SigHeaders) :=
  if sh.name ∈ l.map Prod.fst then l.map (fun kv => if kv.1 = sh.name then (sh.name, sh) else kv) else l ++ [(sh.name, sh)]

end Verif.Spec
