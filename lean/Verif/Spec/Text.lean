import Verif.Basic
/-!
Character conditions used in the statements, written without reference to the model's parser.
-/
namespace Verif.Spec

/-- Printable ASCII. -/
def Printable (c : Char) : Prop := 0x20 ≤ c.toNat ∧ c.toNat ≤ 0x7e

instance (c : Char) : Decidable (Printable c) := by unfold Printable; infer_instance

/-- Text that can stand between double quotes as it is: printable ASCII without `"` and `\`. -/
def SafeText (s : Str) : Prop := ∀ c ∈ s, Printable c ∧ c ≠ '"' ∧ c ≠ '\\'

instance (s : Str) : Decidable (SafeText s) := by unfold SafeText; infer_instance

/-- Lower-case ASCII letter. -/
def LowerAlpha (c : Char) : Prop := 'a' ≤ c ∧ c ≤ 'z'
/-- ASCII digit. -/
def Digit (c : Char) : Prop := '0' ≤ c ∧ c ≤ '9'

instance (c : Char) : Decidable (LowerAlpha c) := by unfold LowerAlpha; infer_instance
instance (c : Char) : Decidable (Digit c) := by unfold Digit; infer_instance

/-- Key of a structured field dictionary (RFC 9651 section 3.1.2): a lower-case letter or `*`, then lower-case letters,
digits, `_`, `-`, `.`, `*`. -/
def LegalKey (k : Str) : Prop :=
  (∃ c, k.head? = some c ∧ (LowerAlpha c ∨ c = '*')) ∧
  ∀ c ∈ k, LowerAlpha c ∨ Digit c ∨ c = '_' ∨ c = '-' ∨ c = '.' ∨ c = '*'

instance (k : Str) : Decidable (LegalKey k) := by
  unfold LegalKey
  have : Decidable (∃ c, k.head? = some c ∧ (LowerAlpha c ∨ c = '*')) := by
    cases k with
    | nil => exact isFalse (by simp)
    | cons c t =>
      exact decidable_of_iff (LowerAlpha c ∨ c = '*') (by simp)
  infer_instance

example : LegalKey (c! "sig-b26") := by decide
example : ¬ LegalKey (c! "Sig") := by decide
example : ¬ LegalKey [] := by decide

end Verif.Spec
