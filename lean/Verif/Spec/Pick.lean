import Verif.Spec.Deploy
/-!
A receiver that looks at one line of Signature-Input and one line of Signature at a time. It is not code of the repository: it is a program
over the receiver of Spec/Deploy.lean and the `http` header map, written down here so that theorems can say what it achieves.
-/
namespace Verif.Pick

/-- All fields but the two that carry signatures. -/
def others (h : Headers) : Headers := h.filter fun kv => kv.1 != hSignatureInput && kv.1 != hSignature

/-- The message with these two lines as its only signature fields. -/
def only (m : Msg) (i s : Bytes) : Msg := m.withHeaders (others m.headers ++ [(hSignatureInput, i), (hSignature, s)])

/-- Every line of one field with every line of the other. -/
def candidates (m : Msg) : List Msg :=
  (m.headers.getAll hSignatureInput).flatMap fun i => (m.headers.getAll hSignature).map (only m i)

/-- The first of the messages that the receiver of Spec/Deploy.lean accepts, with the label. -/
def firstOf (now : UInt64) (k : VerifyingKey) (id : Option Str) (rf : Option Request) : List Msg → Res HyperErr (Option (Msg × Str))
  | [] => .ok none
  | x :: t =>
    match Guard.receive now x [(k, id)] rf with
    | .ok [.ok n] => .ok (some (x, n))
    | .panic => .panic
    | _ => firstOf now k id rf t

/-- The application goes on with the message that this returns. -/
def receive (now : UInt64) (m : Msg) (k : VerifyingKey) (id : Option Str) (rf : Option Request) : Res HyperErr (Option (Msg × Str)) :=
  firstOf now k id rf (candidates m)

end Verif.Pick
