import Verif.Model.SigBase
/-!
What it means that a Signature and a Signature-Input dictionary belong together.
-/
namespace Verif.Spec
open Sfv

/-- Specification of a successful parse of the two headers: `a` is the Signature dictionary, `b` the Signature-Input dictionary. -/
structure Agree (a b : Dict) (l : List (Str × SigHeaders)) : Prop where
  labels : ∀ k, k ∈ a.map Prod.fst ↔ k ∈ b.map Prod.fst
  bytes : ∀ kv ∈ a, ∃ x ps, kv.2 = .item ⟨.bytes x, ps⟩
  inner : ∀ kv ∈ b, ∃ il, kv.2 = .inner il
  order : l.map Prod.fst = b.map Prod.fst
  pairing : ∀ kh ∈ l, kh.2.name = kh.1 ∧ (∃ ps, (kh.1, .item ⟨.bytes kh.2.signature, ps⟩) ∈ a) ∧
    ∃ e, (kh.1, e) ∈ b ∧ SigParams.ofEntry e = .ok kh.2.params

end Verif.Spec
