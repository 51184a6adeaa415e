import Verif.Spec.Wire
import Verif.Spec.Message
/-!
Content-Digest as RFC 9530 has it (sections 2 and 5): a dictionary whose members are byte sequences labelled by an algorithm of the registry. The
field is the whole of its lines (RFC 9651, section 4.2). A recipient may leave digests out that it does not know.
-/
namespace Verif.Rfc9530
open Sfv Spec Grammar

/-- The algorithms a recipient knows. -/
abbrev Registry := Str → Option (Bytes → Bytes)

/-- The two algorithms for use against attackers (section 5) are SHA-256 and SHA-512; the others do not matter. -/
structure Knows (reg : Registry) : Prop where
  sha256 : reg (c! "sha-256") = some (hashOf .sha256)
  sha512 : reg (c! "sha-512") = some (hashOf .sha512)

/-- The field of a message. -/
def Digests (h : Headers) (d : Dict) : Prop :=
  ∃ ts, Wire.LinesText h (c! "content-digest") ts ∧ ts ≠ [] ∧ DictText d (Wire.commas ts)

/-- The digest under this label is that of the content. -/
def Right (reg : Registry) (d : Dict) (content : Bytes) (l : Str) : Prop :=
  ∃ f ps, reg l = some f ∧ d.lookup l = some (.item ⟨.bytes (f content), ps⟩)

/-- What a recipient accepts that checks every digest it knows and wants one at least. -/
def Accepts (reg : Registry) (h : Headers) (content : Bytes) : Prop :=
  ∃ d, Digests h d ∧ (∃ l, Right reg d content l) ∧ ∀ l e, (l, e) ∈ d → (reg l).isSome = true → Right reg d content l

end Verif.Rfc9530
