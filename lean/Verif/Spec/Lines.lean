import Verif.Spec.Wire
import Verif.Spec.Layout
/-!
Specification of C86: component lines given as text, and the text made of them.
-/
namespace Verif.Wire
open Verif.Spec

/-- The component that a line of text is: an identifier in quotes before the first colon, the value after it. White space around
both is dropped. -/
def ComponentLine (s : Str) (c : Component) : Prop :=
  ∃ i v t w, s = i ++ ':' :: v ∧ ':' ∉ i ∧ Trimmed i t ∧ t.head? = some '"' ∧ (t.getLast? = some '"' ∨ c! "\";" <:+: t.tail) ∧
    IdText t c.id ∧ Trimmed v w ∧ c.value = .plain w

/-- What is written for a value: the value, without the label if it has one. -/
def valueText : CValue → Str
  | .plain v => v
  | .keyValue _ v => v

/-- The text of one line. -/
def componentText (c : Component) : Str := idText c.id ++ c! ": " ++ valueText c.value

/-- The text signed for these lines: each on its own line, then the parameters. -/
def linesText (cs : List Component) (p : SigParams) : Str :=
  (cs.map fun c => componentText c ++ c! "\n").flatten ++ c! "\"@signature-params\": " ++ paramsText p

end Verif.Wire
