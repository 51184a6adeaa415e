import Verif.Spec.Clean
import Verif.Spec.Sign
/-!
A verifying key whose signatures cannot be forged: whatever it accepts is the base of something the holder signed.
-/
namespace Verif.Spec

/-- Something the holder of a key signed: a message, its corresponding request, and the parameters. -/
structure Signing where
  m : Msg
  rf : Option Request
  p : SigParams

/-- A signing as crate http and a signer allow it; the parameters contain no line break. -/
structure Signing.Wf (x : Signing) : Prop where
  msg : WfMsg x.m
  req : ∀ r, x.rf = some r → WfRequest r
  params : OneLineParams x.p

/-- The key accepts only data that is the signature base of something in `S`. -/
def OnlySigned (vk : VerifyingKey) (S : Signing → Prop) : Prop :=
  ∀ d s, vk.verify d s = .ok () → ∃ x, S x ∧ ∃ t, BaseOf x.m x.rf x.p t ∧ d = utf8 t

end Verif.Spec
