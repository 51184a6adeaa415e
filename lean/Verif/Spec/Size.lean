import Verif.Spec.Wire
/-!
The size of the head of a message, written as HTTP/1.1 text: `GET uri HTTP/1.1`, `HTTP/1.1 200 `, one line `name: value` per header line,
an empty line. Used by C85.
-/
namespace Verif.Spec

def linesSize (h : Headers) : Nat := (h.map fun kv => kv.1.length + kv.2.length + 4).sum

def reqSize (r : Request) : Nat := r.method.length + (Wire.uriText r.uri).length + 14 + linesSize r.headers

def resSize (s : Response) : Nat := (decimal s.status).length + 14 + linesSize s.headers

def msgSize : Msg → Nat
  | .req r => reqSize r
  | .res s => resSize s

/-- The message, and the request it answers. -/
def bothSize (m : Msg) (rf : Option Request) : Nat := msgSize m + (match rf with | some r => reqSize r | none => 0)

/-- The parameters of an identifier that rewrite a field value. -/
def rewrites (i : CId) : Nat := i.params.countP (fun p => match p with | .sf | .key _ => true | _ => false)

end Verif.Spec
