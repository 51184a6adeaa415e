import Verif.Spec.Deploy
/-!
A receiver that takes every message at most once, by remembering nonces. The library does nothing against messages that are sent again; as
`Spec/Deploy.lean` this is a program of a caller, written with the public interface.
-/
namespace Verif.Replay

/-- A message that arrives: the time, the message, and for a response the request. -/
structure Arrival where
  now : UInt64
  m : Msg
  rf : Option Request := none

/-- The parameters that `get_signature_params` reports under the label. -/
def report (m : Msg) (n : Str) : Option (Str × SigParams) :=
  match getSignatureParams m with
  | .ok ps => ps.find? (fun kv => kv.1 == n)
  | _ => none

/-- Verification by the library alone: the label and the parameters of the accepted signature. -/
def plain (k : VerifyingKey) (id : Option Str) (a : Arrival) : Option (Str × SigParams) :=
  match verifySignature a.now a.m k id a.rf with
  | .ok n => report a.m n
  | _ => none

/-- Verification by the receiver of `Spec/Deploy.lean`. -/
def careful (k : VerifyingKey) (id : Option Str) (a : Arrival) : Option (Str × SigParams) :=
  match Guard.receive a.now a.m [(k, id)] a.rf with
  | .ok [.ok n] => report a.m n
  | _ => none

/-- What is remembered: nonces with the time until which the signature is valid. -/
abbrev Memory := List (Str × UInt64)

/-- A signature without nonce or without expiry is refused, so is a nonce that is remembered. What has expired is forgotten. -/
def remember (s : Memory) (now : UInt64) (p : SigParams) : Option Memory :=
  match p.nonce, p.expires with
  | some c, some e => if s.any (fun x => x.1 == c) then none else some ((c, e) :: s.filter (fun x => decide (now ≤ x.2)))
  | _, _ => none

/-- One message: the memory afterwards, and the label and the parameters if the message is taken. -/
def step (look : Arrival → Option (Str × SigParams)) (s : Memory) (a : Arrival) : Memory × Option (Str × SigParams) :=
  match look a with
  | none => (s, none)
  | some x =>
    match remember s a.now x.2 with
    | none => (s, none)
    | some s' => (s', some x)

/-- All messages that are taken, in order. -/
def taken (look : Arrival → Option (Str × SigParams)) : Memory → List Arrival → List (Arrival × Str × SigParams)
  | _, [] => []
  | s, a :: t =>
    match step look s a with
    | (s', some x) => (a, x) :: taken look s' t
    | (s', none) => taken look s' t

/-- The memory after all messages. -/
def memory (look : Arrival → Option (Str × SigParams)) : Memory → List Arrival → Memory
  | s, [] => s
  | s, a :: t => memory look (step look s a).1 t

/-- The clock does not go back. -/
def Ordered (l : List Arrival) : Prop := l.Pairwise (fun a b => a.now ≤ b.now)

/-- Every signature that passes verification is in time. -/
def Timely (look : Arrival → Option (Str × SigParams)) (l : List Arrival) : Prop :=
  ∀ a ∈ l, ∀ x, look a = some x → ∀ e, x.2.expires = some e → a.now ≤ e

end Verif.Replay
