import Verif.Spec.Deploy
import Verif.Spec.Wire
/-!
A receiver that wants the signatures of several members of a group. As `Spec/Deploy.lean` this is not code of the repository: it is what a
caller can write around `verify_message_signatures`.
-/
namespace Verif.Quorum
open Spec

/-- The keys of a group, each with the key id that is asked for. -/
abbrev Group := List (VerifyingKey × Option Str)

/-- At least `k` members of the list, counted with repetitions, have the property. -/
def AtLeast {α : Type} (k : Nat) (P : α → Prop) (g : List α) : Prop := ∃ s : List α, s.Sublist g ∧ s.length = k ∧ ∀ x ∈ s, P x

/-- One of the signatures `l` is right for the member. -/
def Voted (now : UInt64) (m : Msg) (rf : Option Request) (l : List (Str × SigHeaders)) (ki : VerifyingKey × Option Str) : Prop :=
  ∃ kv ∈ l, Wire.Checked now m rf ki.1 ki.2 kv.2 (.ok ())

/-- The member can be told from the others: each is asked for with a key id of its own. -/
def OwnNames (g : Group) : Prop := (∀ ki ∈ g, ki.2 ≠ none) ∧ (g.map Prod.snd).Nodup

def success {ε : Type} : Except ε Str → Bool
  | .ok _ => true
  | .error _ => false

/-- `verify_message_signatures`, and at least `k` results are successes. -/
def passes (now : UInt64) (k : Nat) (m : Msg) (g : Group) (rf : Option Request) : Bool :=
  match verifySignatures now m g rf with
  | .ok rs => decide (k ≤ rs.countP success)
  | _ => false

/-- The result names a signature that covers all components of the list. -/
def covers (need : List CId) (ps : List (Str × SigParams)) : Except (Option HyperErr) Str → Bool
  | .ok n =>
    match ps.find? (fun kv => kv.1 == n) with
    | some kv => need.all fun i => decide (i ∈ kv.2.covered)
    | none => false
  | .error _ => false

/-- The receiver of `Spec/Deploy.lean`, and at least `k` results name signatures over all components of the list. -/
def careful (now : UInt64) (k : Nat) (need : List CId) (m : Msg) (g : Group) (rf : Option Request) : Bool :=
  match Guard.receive now m g rf with
  | .ok rs =>
    match getSignatureParams m with
    | .ok ps => decide (k ≤ rs.countP (covers need ps))
    | _ => false
  | _ => false

end Verif.Quorum
