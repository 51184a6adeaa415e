import Verif.Spec.Rfc9421
import Verif.Spec.Wire
import Verif.Spec.Grammar
/-!
Fields with `sf` or `key`: what RFC 9421 takes from the whole field, in terms of the single lines, each of which the library reads on
its own.
-/
namespace Verif.Spec.Rfc9421
open Sfv Grammar

/-- The parameter `q` is there, and nothing else but perhaps `req`. -/
def OnlyWith (i : CId) (q : CParam) : Prop := q ∈ i.params ∧ ∀ p ∈ i.params, p = .req ∨ p = q

/-- The header fields that the component is taken from. -/
def TakenFrom (m : Msg) (rf : Option Request) (i : CId) (h : Headers) : Prop :=
  (CParam.req ∉ i.params ∧ h = m.headers) ∨ (CParam.req ∈ i.params ∧ ∃ s r, m = .res s ∧ rf = some r ∧ h = r.headers)

/-- These are the lines of the field. -/
def SourceLines (m : Msg) (rf : Option Request) (i : CId) (f : Str) (ts : List Str) : Prop :=
  ∃ h, TakenFrom m rf i h ∧ Wire.LinesText h f ts

/-! ### `key` -/

/-- The line has a member with this key. -/
def HasMember (k t : Str) : Prop := ∃ d, DictText d t ∧ k ∈ d.map Prod.fst

/-- Exactly one line has it. -/
def Once (k : Str) (ts : List Str) : Prop := ∃ a t b, ts = a ++ t :: b ∧ HasMember k t ∧ ∀ u ∈ a ++ b, ¬ HasMember k u

/-- `v` is the text of the member on the last line that has it. -/
def LastMember (k : Str) (ts : List Str) (v : Str) : Prop :=
  ∃ a t b d e, ts = a ++ t :: b ∧ DictText d t ∧ d.lookup k = some e ∧ v = serEntry e ∧ ∀ u ∈ b, ¬ HasMember k u

/-! ### `sf` -/

/-- The whole field is of its kind. -/
def WholeField : Option Kind → List Str → Prop
  | none, _ => False
  | some .list, ts => ∀ t ∈ ts, ∃ l, ListText l t
  | some .dict, ts => ∀ t ∈ ts, ∃ d, DictText d t
  | some .item, ts => ∃ t i, ts = [t] ∧ ListText [.item i] t

/-- No key is on two lines, and none is twice on a line that can also be read as a list. -/
def NoRepeats (ts : List Str) : Prop :=
  ts.Pairwise (fun t u => ∀ k, HasMember k t → ¬ HasMember k u) ∧
  ∀ t ∈ ts, ∀ l d, ListText l t → DictText d t → l.length = d.length

end Verif.Spec.Rfc9421
