import Verif.Spec.Value
import Verif.Spec.Agree
/-!
What verification of a message should do, written from the description: which signatures a message carries, which of them are
candidates for a key, and which are accepted.
-/
namespace Verif.Spec
open Sfv

/-- The message carries these signatures, in the order of Signature-Input: both fields are present, all their lines are visible
text, and the lines joined with `, ` parse as dictionaries that belong together. -/
def Carries (h : Headers) (l : List (Str × SigHeaders)) : Prop :=
  ∃ ts us a b, LineTexts (fieldLines h (c! "signature-input")) ts ∧ LineTexts (fieldLines h (c! "signature")) us ∧ ts ≠ [] ∧ us ≠ [] ∧
    parseDict (join (c! ", ") us) = some a ∧ parseDict (join (c! ", ") ts) = some b ∧ Agree a b l

/-- `text` is the signature base of the message for these parameters. -/
def BaseOf (m : Msg) (rf : Option Request) (p : SigParams) (text : Str) : Prop :=
  ∃ vs, List.Forall₂ (HasValue m rf) p.covered vs ∧ text = baseText p.covered vs p.disp

/-- The signature is for this key id; no key id means any. -/
def ForKey (id : Option Str) (h : SigHeaders) : Prop := ∀ i, id = some i → h.params.keyid = some i

/-- A signature that is looked at: its base can be rebuilt and it is for this key id. -/
def Candidate (m : Msg) (rf : Option Request) (id : Option Str) (h : SigHeaders) : Prop :=
  (∃ text, BaseOf m rf h.params text) ∧ ForKey id h

/-- Not expired at this time. -/
def InTime (now : UInt64) (h : SigHeaders) : Prop := ∀ e, h.params.expires = some e → now ≤ e

/-- An accepted signature. -/
def Accepts (now : UInt64) (m : Msg) (rf : Option Request) (k : VerifyingKey) (id : Option Str) (h : SigHeaders) : Prop :=
  ∃ text, BaseOf m rf h.params text ∧ ForKey id h ∧ InTime now h ∧ k.verify (utf8 text) h.signature = .ok ()

/-- A signature on which the key panics. -/
def Crashes (now : UInt64) (m : Msg) (rf : Option Request) (k : VerifyingKey) (id : Option Str) (h : SigHeaders) : Prop :=
  ∃ text, BaseOf m rf h.params text ∧ ForKey id h ∧ InTime now h ∧ k.verify (utf8 text) h.signature = .panic

/-- The first entry, in order, with the property. -/
def FirstWith (q : SigHeaders → Prop) (l : List (Str × SigHeaders)) (n : Str) : Prop :=
  ∃ l1 h l2, l = l1 ++ (n, h) :: l2 ∧ q h ∧ ∀ kv ∈ l1, ¬ q kv.2

end Verif.Spec
