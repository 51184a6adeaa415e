import Verif.Spec.Wire
/-!
Which questions the keys get, in which order.
-/
namespace Verif.Wire

/-- The questions about the carried signatures `l` for a key that is tried with this key id: signed text and signature of each that is for
the key id, not expired and has a signature base, whatever the answers are. -/
inductive Questions (now : UInt64) (m : Msg) (rf : Option Request) (id : Option Str) : List (Str × SigHeaders) → List (Bytes × Bytes) → Prop where
  | nil : Questions now m rf id [] []
  | ask {kv l t Q} : ForKey id kv.2 → InTime now kv.2 → BaseOf m rf kv.2.params t → Questions now m rf id l Q →
      Questions now m rf id (kv :: l) ((utf8 t, kv.2.signature) :: Q)
  | skip {kv l Q} : ¬ (ForKey id kv.2 ∧ InTime now kv.2 ∧ ∃ t, BaseOf m rf kv.2.params t) → Questions now m rf id l Q →
      Questions now m rf id (kv :: l) Q

end Verif.Wire
