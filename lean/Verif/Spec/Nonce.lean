import Verif.Spec.Replay
/-!
Senders that take a nonce from `set_random_nonce` for every message, and the receiver of `Spec/Replay.lean`. Random octets are a value that
ranges over all possibilities: a statement on chances is a statement on how many possibilities there are.
-/
namespace Verif.Nonce

/-- The outcomes of one call of the random number generator: 32 octets. -/
abbrev Random := Fin 32 → Fin 256

/-- The octets of an outcome, in order. -/
def octets (r : Random) : Bytes := List.ofFn fun i => UInt8.ofNat (r i)

/-- What is to be sent: the message, for a response the request, the parameters before the nonce is set, the label, and the time when the
message will arrive. -/
structure Outgoing where
  m : Msg
  rf : Option Request := none
  p : SigParams
  name : Option Str := none
  now : UInt64

/-- The parameters with the nonce. -/
def params (o : Outgoing) (r : Random) : SigParams := o.p.setRandomNonce (octets r)

/-- The message is signed by the sender of `Spec/Deploy.lean`. -/
def sent (sk : SigningKey) (o : Outgoing) (r : Random) : Headers × Res (Option HyperErr) Unit := Guard.send o.m [(params o r, sk, o.name)] o.rf

/-- The signed message when it arrives. -/
def arrival (sk : SigningKey) (o : Outgoing) (r : Random) : Replay.Arrival := ⟨o.now, o.m.withHeaders (sent sk o r).1, o.rf⟩

/-- All messages that arrive are taken. -/
def AllTaken (vk : VerifyingKey) (id : Option Str) (as : List Replay.Arrival) : Prop :=
  (Replay.taken (Replay.careful vk id) [] as).map (fun z => z.1) = as

end Verif.Nonce
