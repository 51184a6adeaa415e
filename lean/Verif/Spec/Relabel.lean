import Verif.Spec.Reorder
import Verif.Spec.Sign
/-!
What somebody on the way can do with the signatures of a message, without any key: leave some out, repeat some, change their order,
and give them other labels.
-/
namespace Verif.Wire
open Spec

/-- The same octets and the same parameters; the label may be another. -/
def SameSignature (a b : SigHeaders) : Prop := a.signature = b.signature ∧ a.params = b.params

/-- `l'` is made of signatures of `l`, under labels of their own. -/
structure Taken (l l' : List (Str × SigHeaders)) : Prop where
  distinct : (l'.map Prod.fst).Nodup
  legal : ∀ kv ∈ l', LegalKey kv.1
  named : ∀ kv ∈ l', kv.2.name = kv.1
  taken : ∀ kv ∈ l', ∃ o ∈ l, SameSignature kv.2 o.2

/-- The messages differ at most in the lines of the two signature fields. -/
structure SameElse (m m' : Msg) : Prop where
  rest : SameButHeaders m m'
  lines : ∀ n, n.map Char.toLower ≠ c! "signature" → n.map Char.toLower ≠ c! "signature-input" → linesOf m.headers n = linesOf m'.headers n

end Verif.Wire
