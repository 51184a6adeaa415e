import Verif.Spec.RfcAll
import Verif.Spec.Wire
/-!
A signature as RFC 9421 says, and what the two sides of an exchange have to agree on.
-/
namespace Verif.Spec.Rfc9421
open Sfv Grammar

/-- The message has the field Signature, which is the dictionary `a`, and the field Signature-Input, which is `b`. -/
def SigFields (h : Headers) (a b : Dict) : Prop :=
  ∃ ts us, Wire.LinesText h (c! "signature-input") ts ∧ Wire.LinesText h (c! "signature") us ∧ ts ≠ [] ∧ us ≠ [] ∧
    DictText b (Wire.commas ts) ∧ DictText a (Wire.commas us)

/-- A valid signature, section 3.2: it verifies for the base of the RFC, names the key if a key id is asked for, and has not expired. -/
structure Valid (c : Ctx) (now : UInt64) (m : Msg) (rf : Option Request) (k : VerifyingKey) (id : Option Str) (l : InnerList) (sig : Bytes) :
    Prop where
  verifies : ∃ t, base c m rf l = some t ∧ k.verify (utf8 t) sig = .ok ()
  keyid : ∀ i, id = some i → l.params.lookup (c! "keyid") = some (.str i)
  expires : ∀ e : Int, l.params.lookup (c! "expires") = some (.int e) → (now.toNat : Int) ≤ e

/-- Dictionaries in which the library can read all signatures, also those it is not asked about. -/
structure Readable (a b : Dict) : Prop where
  labels : ∀ n, n ∈ a.map Prod.fst ↔ n ∈ b.map Prod.fst
  bytes : ∀ kv ∈ a, ∃ sig ps, kv.2 = .item ⟨.bytes sig, ps⟩
  inner : ∀ kv ∈ b, ∃ l p, kv.2 = .inner l ∧ Wire.ParamsOf l p

/-- The member is written as the library writes it, and the values of its components are the same on both sides. -/
def Common (c : Ctx) (m : Msg) (rf : Option Request) (l : InnerList) : Prop :=
  UsualParams l.params ∧ ∀ it ∈ l.items, ∃ i, SafeId i ∧ serItem it = idText i ∧ ExactAll c m rf i it

end Verif.Spec.Rfc9421
