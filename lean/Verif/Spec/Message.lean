import Verif.Model.Digest
import Verif.Spec.Text
/-!
Reading a message without the library: header lines by name, legal header maps.
-/
namespace Verif.Spec

/-- The values of the lines with this (lower-case) name, in arrival order. Names in a header map are in lower case. -/
def lines (h : Headers) (name : Str) : List Bytes := (h.filter (fun kv => kv.1 = name)).map Prod.snd

/-- The lines with another name. -/
def otherLines (h : Headers) (name : Str) : Headers := h.filter (fun kv => kv.1 ≠ name)

/-- The hash function named by a digest type. -/
def hashOf : DigestType → Bytes → Bytes
  | .sha256 => Sha2.sha256
  | .sha512 => Sha2.sha512

/-- The label of a digest type (RFC 9530). -/
def digestLabel : DigestType → Str
  | .sha256 => c! "sha-256"
  | .sha512 => c! "sha-512"

/-- The header line states this digest: it is a dictionary with a single member, labelled by the type, holding the bytes. -/
def States (line : Bytes) (t : DigestType) (d : Bytes) : Prop :=
  ∃ s ps, hvToStr line = some s ∧ Sfv.parseDict s = some [(digestLabel t, .item ⟨.bytes d, ps⟩)]

end Verif.Spec
