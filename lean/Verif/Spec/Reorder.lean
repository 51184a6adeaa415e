import Verif.Spec.Forward
/-!
The members of the signature fields in another order.
-/
namespace Verif.Wire
open Sfv Spec Grammar

/-- The line is this dictionary. -/
def LineDict (b : Bytes) (d : Dict) : Prop := ∃ t, LineText b t ∧ DictText d t

/-- The same lines in any order. Every line is a dictionary with at least one member, and no label stands in two lines. -/
structure Shuffled (ls ls' : List Bytes) : Prop where
  perm : ls.Perm ls'
  dict : ∀ b ∈ ls, ∃ d, LineDict b d ∧ d ≠ []
  apart : ls.Pairwise fun a b => ∀ d e, LineDict a d → LineDict b e → ∀ k ∈ d.map Prod.fst, k ∉ e.map Prod.fst

/-- In both messages the field is a dictionary, and the two have the same members, in any order. -/
def SameMembers (h h' : Headers) (n : Str) : Prop :=
  ∃ ts ts' d d', LinesText h n ts ∧ LinesText h' n ts' ∧ ts ≠ [] ∧ ts' ≠ [] ∧
    DictText d (commas ts) ∧ DictText d' (commas ts') ∧ d.Perm d'

/-- The component is worth the same: it refers to a part that is the same, or to one member of a field whose lines were shuffled. -/
def Unmoved (m m' : Msg) (rf rf' : Option Request) (i : CId) : Prop :=
  SameFor m m' rf rf' i ∨
    (CParam.req ∉ i.params ∧ ∃ f k ps, i.name = .field f ∧ i.params = .key k :: ps ∧ Shuffled (linesOf m.headers f) (linesOf m'.headers f))

/-- Results that differ at most in the name of the signature that was found. -/
def SameResult : Except HyperErr Str → Except HyperErr Str → Prop
  | .ok _, .ok _ => True
  | .error e, .error e' => e = e'
  | _, _ => False

end Verif.Wire
