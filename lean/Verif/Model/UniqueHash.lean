import Verif.Model.SigParams
/-!
Model of the hash set inside `has_unique_elements` (httpsig/src/util.rs 2-9) with the library's own `Hash` of component
parameters (httpsig/src/message_component/component_param.rs 71-77). The hash function itself (FxHash over the derived
`Hash` of the name and the hash of the sorted strings) is a parameter: any function of the name and of the sorted list.
-/
namespace Verif

/-- `params.sort()` on strings, component_param.rs 74. Rust compares strings by bytes, which for UTF-8 is the order by
code points. -/
def sortStrs (l : List Str) : List Str := l.mergeSort (fun a b => decide (a ≤ b))

/-- What is fed to the hasher for an id: derived `Hash` of `HttpMessageComponentId` (component_id.rs 9) with the `Hash` of the
parameters (component_param.rs 71-77). -/
def hashInput (i : CId) : CName × List Str := (i.name, sortStrs (i.params.map CParam.disp))

/-- Membership test of the hash set: only elements with the same hash are compared. -/
def hsHas {κ : Type} [DecidableEq κ] (H : CName × List Str → κ) (s : List CId) (x : CId) : Bool :=
  s.any (fun y => decide (H (hashInput y) = H (hashInput x)) && y.eqv x)

/-- `iter.all(move |x| uniq.insert(x))`, util.rs 7-8: stops at the first element already present. -/
def uniqueHashed {κ : Type} [DecidableEq κ] (H : CName × List Str → κ) : List CId → List CId → Bool
  | _, [] => true
  | s, x :: t => if hsHas H s x then false else uniqueHashed H (x :: s) t

end Verif
