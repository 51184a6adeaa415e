import Verif.Spec.Failure
/-!
What a caller of `httpsig` gets that has an identifier and the texts that belong to it, without any HTTP library: the component, or the
error.
-/
namespace Verif.Wire
open Sfv Spec Grammar

/-- The first name among the parameters. -/
def FirstName (ps : List CParam) (n : Str) : Prop := ∃ a b, ps = a ++ .name n :: b ∧ ∀ x, CParam.name x ∉ a

/-- The value of a derived component for the texts `vs`. -/
inductive BuiltDerived (ps : List CParam) : Derived → List Str → CValue → Prop where
  | method {v vs} : BuiltDerived ps .method (v :: vs) (.plain (v.map Char.toUpper))
  | authority {v vs} : BuiltDerived ps .authority (v :: vs) (.plain (v.map Char.toLower))
  | scheme {v vs} : BuiltDerived ps .scheme (v :: vs) (.plain (v.map Char.toLower))
  | asIs {d v vs} : d ∈ [Derived.targetUri, .requestTarget, .path, .query, .status] → BuiltDerived ps d (v :: vs) (.plain v)
  | queryParam {n v vs out} : FirstName ps n → QueryValues n (v :: vs) out → BuiltDerived ps .queryParam (v :: vs) (.plain (commas out))
  | signatureParams {k w v vs} : Trimmed v (k ++ '=' :: w) → '=' ∉ k → BuiltDerived ps .signatureParams (v :: vs) (.keyValue k w)

/-- The value of a component for the texts `vs`. Of the parameters a derived component may have `req` and `name` only. -/
inductive Built (i : CId) (vs : List Str) : CValue → Prop where
  | field {f out} : i.name = .field f → Applied i.params vs out → Built i vs (.plain (commas out))
  | derived {d c} : i.name = .derived d → (∀ p ∈ i.params, p = .req ∨ ∃ n, p = .name n) → BuiltDerived i.params d vs c → Built i vs c

/-- There is no component, for this reason. -/
inductive BuildFails (i : CId) (vs : List Str) : SigErr → Prop where
  | field {f e} : i.name = .field f → Stops i.params vs e → BuildFails i vs e
  | empty {d} : i.name = .derived d → vs = [] → BuildFails i vs .invalidComponent
  | param {d p} : i.name = .derived d → p ∈ i.params → p ≠ .req → (∀ n, p ≠ .name n) → BuildFails i vs .invalidComponent
  | name : i.name = .derived .queryParam → (∀ n, CParam.name n ∉ i.params) → BuildFails i vs .invalidComponent
  | input {v} : i.name = .derived .signatureParams → vs.head? = some v → '=' ∉ v → BuildFails i vs .invalidComponent

end Verif.Wire
