import Verif.Spec.Wire
/-!
What a message may go through on its way, RFC 9110 section 5.3: the lines of one field may be combined into fewer lines, in order and
with a comma and a space between them, and lines of different fields may change places.
-/
namespace Verif.Wire

/-- `ls'` are the lines `ls`, some neighbours of them combined into one. -/
def Combined (ls ls' : List Bytes) : Prop :=
  ∃ gs : List (List Bytes), (∀ g ∈ gs, g ≠ []) ∧ ls = gs.flatten ∧ ls' = gs.map (List.intercalate [44, 32])

/-- Both come from the same lines by combining. In particular one may be split into the other. -/
def Regrouped (a b : List Bytes) : Prop := ∃ ls, Combined ls a ∧ Combined ls b

/-- The part of a message that a component refers to is the same, up to regrouping if the component is a field without `sf` and `key`. -/
def SamePart (m m' : Msg) (i : CId) : Prop :=
  match i.name, m, m' with
  | .field f, m, m' => linesOf m.headers f = linesOf m'.headers f ∨
      ((∀ p ∈ i.params, p = .req) ∧ Regrouped (linesOf m.headers f) (linesOf m'.headers f))
  | .derived .signatureParams, .req r, .req r' => linesOf r.headers (c! "signature-input") = linesOf r'.headers (c! "signature-input")
  | .derived .signatureParams, .res s, .res s' => linesOf s.headers (c! "signature-input") = linesOf s'.headers (c! "signature-input")
  | .derived _, .req r, .req r' => r.method = r'.method ∧ r.uri = r'.uri
  | .derived _, .res s, .res s' => s.status = s'.status
  | .derived _, _, _ => False

/-- The same for a component of a message with its request. -/
inductive SameFor (m m' : Msg) (rf rf' : Option Request) (i : CId) : Prop where
  | here : CParam.req ∉ i.params → SamePart m m' i → SameFor m m' rf rf' i
  | there {s s' r r'} : CParam.req ∈ i.params → m = .res s → m' = .res s' → rf = some r → rf' = some r' → SamePart (.req r) (.req r') i →
      SameFor m m' rf rf' i
  | never : CParam.req ∈ i.params → (∀ s r, m = .res s → rf ≠ some r) → (∀ s r, m' = .res s → rf' ≠ some r) → SameFor m m' rf rf' i

end Verif.Wire
