import Verif.Spec.Wire
/-!
Receivers that look for keys by what the message says of its signatures.
-/
namespace Verif.Wire

/-- A receiver's way to find a key, given the algorithm and the key id that a signature claims. An algorithm that is not known counts as absent. -/
abbrev Finder := Option Alg → Option Str → Option VerifyingKey

/-- The key found for the signature. -/
def Found (rsa : Bool) (find : Finder) (h : SigHeaders) (k : VerifyingKey) : Prop :=
  ∃ a, (∀ x, a = some x ↔ h.params.alg = some x.toStr ∧ x.available rsa = true) ∧ find a h.params.keyid = some k

/-- The signature is right for the key that is found for it. -/
def Good (rsa : Bool) (now : UInt64) (m : Msg) (rf : Option Request) (find : Finder) (h : SigHeaders) : Prop :=
  ∃ k, Found rsa find h k ∧ Checked now m rf k none h (.ok ())

/-- Every signature has a key id, and no two have the same. -/
def OwnIds (l : List (Str × SigHeaders)) : Prop :=
  (∀ x ∈ l, x.2.params.keyid ≠ none) ∧ ∀ x ∈ l, ∀ y ∈ l, x.2.params.keyid = y.2.params.keyid → x = y

/-- Keys are found by the key id alone. -/
def byId (store : Str → Option VerifyingKey) : Finder := fun _ i => i.bind store

end Verif.Wire
