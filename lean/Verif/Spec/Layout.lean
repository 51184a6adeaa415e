import Verif.Model.SigParams
/-!
The texts of component ids and signature parameters, written out from RFC 9421 sections 2 and 2.3 with the fixed order of this
library. Nothing here uses the printing functions of the model.
-/
namespace Verif.Spec

/-- The names of derived components (RFC 9421 section 2.2). -/
def derivedText : Derived → String
  | .method => "@method"
  | .targetUri => "@target-uri"
  | .authority => "@authority"
  | .scheme => "@scheme"
  | .requestTarget => "@request-target"
  | .path => "@path"
  | .query => "@query"
  | .queryParam => "@query-param"
  | .status => "@status"
  | .signatureParams => "@signature-params"

/-- A text between double quotes, as it is. -/
def quoted (s : Str) : Str := "\"".toList ++ s ++ "\"".toList

/-- A parameter of an id with the semicolon before it. -/
def paramText : CParam → Str
  | .sf => ";sf".toList
  | .bs => ";bs".toList
  | .tr => ";tr".toList
  | .req => ";req".toList
  | .key k => ";key=".toList ++ quoted k
  | .name n => ";name=".toList ++ quoted n

/-- An id: the quoted name and the parameters. -/
def idText (i : CId) : Str :=
  quoted (match i.name with | .field f => f | .derived d => (derivedText d).toList) ++ (i.params.map paramText).flatten

/-- Decimal digits of a number. -/
def decimal (n : Nat) : Str := Nat.toDigits 10 n

/-- `;name=value` if there is a value. -/
def ifPresent {α : Type} (name : String) (f : α → Str) : Option α → Str
  | none => []
  | some a => ";".toList ++ name.toList ++ "=".toList ++ f a

/-- Signature parameters: the ids in parentheses, separated by one space, then the parameters that are present, in this order. -/
def paramsText (p : SigParams) : Str :=
  "(".toList ++ List.intercalate " ".toList (p.covered.map idText) ++ ")".toList ++
  ifPresent "created" (fun t : UInt64 => decimal t.toNat) p.created ++ ifPresent "expires" (fun t : UInt64 => decimal t.toNat) p.expires ++
  ifPresent "nonce" quoted p.nonce ++ ifPresent "alg" quoted p.alg ++ ifPresent "keyid" quoted p.keyid ++ ifPresent "tag" quoted p.tag

end Verif.Spec
