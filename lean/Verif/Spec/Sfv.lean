import Verif.Model.Sfv
import Verif.Spec.Text
/-!
The data model of RFC 9651 section 3: which values a structured field may hold.
-/
namespace Verif.Spec
open Sfv

/-- Token: a letter or `*`, then `tchar`, `:` or `/` (RFC 9651 section 3.3.4). -/
def LegalTok (s : Str) : Prop :=
  (∃ c, s.head? = some c ∧ (('a' ≤ c ∧ c ≤ 'z') ∨ ('A' ≤ c ∧ c ≤ 'Z') ∨ c = '*')) ∧ ∀ c ∈ s, isTokChar c = true

/-- Range of a bare item (RFC 9651 section 3.3). -/
def LegalBare : Bare → Prop
  | .int n => n.natAbs < 10 ^ 15
  | .dec n => n.natAbs < 10 ^ 15
  | .str s => ∀ c ∈ s, Printable c
  | .tok s => LegalTok s
  | .bytes _ => True
  | .bool _ => True
  | .date n => n.natAbs < 10 ^ 15
  | .disp b => validUtf8 b = true

/-- Parameters: distinct legal keys, legal values. -/
def LegalParams (p : Params) : Prop :=
  (p.map Prod.fst).Nodup ∧ ∀ kv ∈ p, LegalKey kv.1 ∧ LegalBare kv.2

def LegalItem (i : Item) : Prop := LegalBare i.bare ∧ LegalParams i.params

def LegalEntry : Entry → Prop
  | .item i => LegalItem i
  | .inner l => (∀ i ∈ l.items, LegalItem i) ∧ LegalParams l.params

/-- Dictionary: distinct legal keys, legal members. -/
def LegalDict (d : Dict) : Prop :=
  (d.map Prod.fst).Nodup ∧ ∀ kv ∈ d, LegalKey kv.1 ∧ LegalEntry kv.2

def LegalList (l : SList) : Prop := ∀ e ∈ l, LegalEntry e

end Verif.Spec
