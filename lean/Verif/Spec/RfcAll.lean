import Verif.Spec.RfcExact
import Verif.Spec.RfcLax
import Verif.Spec.RfcStructured
/-!
Signature bases of the library and of RFC 9421, for all identifiers that can be written to a header: where the values are the same, and
where only one of the two exists.
-/
namespace Verif.Spec.Rfc9421
open Sfv Grammar

/-- The identifier without `sf`. -/
def withoutSf (i : CId) : CId := ⟨i.name, i.params.filter (· ≠ .sf)⟩

/-- `sf` stands before `key`. -/
def SfFirst (k : Str) (ps : List CParam) : Prop := [CParam.sf, .key k].Sublist ps

/-- Strict serialization, and not of a member. -/
def SfAlone (ps : List CParam) : Prop := CParam.sf ∈ ps ∧ ∀ k, CParam.key k ∉ ps

/-- The line is a list or a dictionary, and not blank. -/
def Strict (t : Str) : Prop := ((∃ l, ListText l t) ∨ ∃ d, DictText d t) ∧ ¬ Ows t

/-- A field with these lines: the library has a value and the RFC has none. -/
inductive LaxField (c : Ctx) (f : Str) (ps : List CParam) (ts : List Str) : Prop where
  /-- The name is not in lower case, or the field is not there. -/
  | plain : (∀ p ∈ ps, p = .req) → (lowerCase f ≠ f ∨ ts = []) → LaxField c f ps ts
  /-- Also: the field is not of its kind. -/
  | sf : CParam.sf ∈ ps → (∀ p ∈ ps, p = .req ∨ p = .sf) → (∀ t ∈ ts, Strict t) →
      (lowerCase f ≠ f ∨ ts = [] ∨ ¬ WholeField (c.kind f) ts) → LaxField c f ps ts
  /-- Also: a line is blank, or no line has the member. -/
  | key {k} : CParam.key k ∈ ps → (∀ p ∈ ps, p = .req ∨ p = .sf ∨ p = .key k) → (∀ t ∈ ts, ∃ d, DictText d t) →
      (SfFirst k ps → ∀ t ∈ ts, ¬ Ows t) → (lowerCase f ≠ f ∨ (∃ t ∈ ts, Ows t) ∨ ∀ t ∈ ts, ¬ HasMember k t) → LaxField c f ps ts

/-- The library has a value for the component and the RFC has none. -/
def LaxAll (c : Ctx) (m : Msg) (rf : Option Request) (i : CId) : Prop :=
  match i.name with
  | .field f => ∃ ts, SourceLines m rf i f ts ∧ LaxField c f i.params ts
  | .derived _ => Lax m rf i

/-- The RFC has a value for the component and the library has none: with `bs`, and if a line cannot be read by itself. -/
def Missing (m : Msg) (rf : Option Request) (i : CId) : Prop :=
  CParam.bs ∈ i.params ∨ ∃ f ts, i.name = .field f ∧ SourceLines m rf i f ts ∧
    ((∃ k, CParam.key k ∈ i.params ∧ ∃ t ∈ ts, ¬ ∃ d, DictText d t) ∨ (SfAlone i.params ∧ ∃ t ∈ ts, ¬ Strict t))

/-- A field with these lines, for which the RFC has a value: the library has the same. -/
structure ExactField (c : Ctx) (f : Str) (ps : List CParam) (ts : List Str) : Prop where
  plain : CParam.sf ∉ ps → (∀ k, CParam.key k ∉ ps) → ∀ t ∈ ts, strip t = t
  sf : SfAlone ps → (∀ t ∈ ts, Strict t) ∧ (c.kind f = some .dict → NoRepeats ts)
  key : ∀ k, CParam.key k ∈ ps → (∀ t ∈ ts, ∃ d, DictText d t) ∧ Once k ts

/-- The RFC has a value for the component, and the library has the same. -/
def ExactAll (c : Ctx) (m : Msg) (rf : Option Request) (i : CId) (it : Item) : Prop :=
  match i.name with
  | .field f => CParam.bs ∉ i.params ∧ ∀ ts, SourceLines m rf i f ts → ExactField c f i.params ts
  | .derived _ => ExactItem c m rf it

end Verif.Spec.Rfc9421
