import Verif.Spec.Forge
/-!
What the repaired library (`Model/Repair.lean`) should do: the value of a component, the signature base and an accepted signature.
Where nothing is changed the definitions are those of `Spec/Value.lean` and `Spec/Verify.lean`.
-/
namespace Verif.Spec.Repaired
open Sfv

/-- The target of a request line: the authority for CONNECT, otherwise the path with its query. -/
def target (r : Request) : Str :=
  if r.method = c! "CONNECT" then r.uri.authority.getD [] else r.uri.pathAndQuery.getD []

/-- Value of a field component; a field or member that is not there has none. -/
def FieldValue (h : Headers) (name : Str) (ps : List CParam) (v : Str) : Prop :=
  ∃ ts out, LineTexts (fieldLines h name) ts ∧ Applied ps ts out ∧ out ≠ [] ∧ v = join (c! ", ") out

/-- Value of a component id taken from one message. -/
def ValueIn (m : Msg) (i : CId) (v : Str) : Prop :=
  match i.name with
  | .field f => FieldValue m.headers f i.params v
  | .derived d =>
    if d = .requestTarget then ∃ r, m = .req r ∧ DerivedParams d i.params ∧ v = target r
    else Spec.ValueIn m i v

/-- Value of a component id for a message. -/
def HasValue (m : Msg) (rf : Option Request) (i : CId) (v : Str) : Prop :=
  if CParam.req ∈ i.params then ∃ s r, m = .res s ∧ rf = some r ∧ ValueIn (.req r) i v
  else ValueIn m i v

/-- A component parameter as a structured field parameter. -/
def kvOf : CParam → Str × Bare
  | .sf => (c! "sf", .bool true)
  | .bs => (c! "bs", .bool true)
  | .tr => (c! "tr", .bool true)
  | .req => (c! "req", .bool true)
  | .key s => (c! "key", .str s)
  | .name s => (c! "name", .str s)

/-- A component id as a structured field item (RFC 9421 section 2: a string with parameters). -/
def itemOf (i : CId) : Item :=
  ⟨.str (match i.name with | .field f => f | .derived d => d.toStr), i.params.map kvOf⟩

/-- Signature parameters as a structured field inner list (RFC 9421 section 2.3). -/
def listOf (p : SigParams) : InnerList :=
  ⟨p.covered.map itemOf,
   (p.created.map fun t => (c! "created", Bare.int t.toNat)).toList ++ (p.expires.map fun t => (c! "expires", Bare.int t.toNat)).toList ++
   (p.nonce.map fun s => (c! "nonce", Bare.str s)).toList ++ (p.alg.map fun s => (c! "alg", Bare.str s)).toList ++
   (p.keyid.map fun s => (c! "keyid", Bare.str s)).toList ++ (p.tag.map fun s => (c! "tag", Bare.str s)).toList⟩

/-- The signature base of RFC 9421 section 2.5: each id and the parameters in their structured field form. -/
def BaseOf (m : Msg) (rf : Option Request) (p : SigParams) (text : Str) : Prop :=
  ∃ vs, List.Forall₂ (HasValue m rf) p.covered vs ∧
    text = (List.zipWith (fun i v => serItem (itemOf i) ++ c! ": " ++ v ++ c! "\n") p.covered vs).flatten ++
      c! "\"@signature-params\": " ++ serInner (listOf p)

/-- An accepted signature. -/
def Accepts (now : UInt64) (m : Msg) (rf : Option Request) (k : VerifyingKey) (id : Option Str) (h : SigHeaders) : Prop :=
  ∃ text, BaseOf m rf h.params text ∧ ForKey id h ∧ InTime now h ∧ k.verify (utf8 text) h.signature = .ok ()

/-- What a signer adds to the message. -/
structure SignedBy (m : Msg) (rf : Option Request) (x : Signer) (sh : SigHeaders) : Prop where
  name : sh.name = x.label
  params : sh.params = x.1
  signature : ∃ text, BaseOf m rf x.1 text ∧ x.2.1.sign (utf8 text) = .ok sh.signature

/-- The two header lines of a signature, its parameters in their structured field form. -/
def newLines (sh : SigHeaders) : Headers :=
  [(c! "signature-input", utf8 (sh.name ++ c! "=" ++ serInner (listOf sh.params))),
   (c! "signature", utf8 (sh.name ++ c! "=:" ++ Base64.encode sh.signature ++ c! ":"))]

/-- An id that can be written: the rules, and printable texts. Quotes and backslashes are allowed. -/
structure WritableId (i : CId) : Prop extends IdRules i where
  nameText : ∀ f, i.name = .field f → ∀ c ∈ f, Printable c
  keyText : ∀ k, CParam.key k ∈ i.params → ∀ c ∈ k, Printable c
  nameParam : ∀ n, CParam.name n ∈ i.params → ∀ c ∈ n, Printable c

/-- Parameters that can be written. -/
structure Writable (p : SigParams) : Prop where
  created : ∀ t, p.created = some t → t.toNat < 10 ^ 15
  expires : ∀ t, p.expires = some t → t.toNat < 10 ^ 15
  nonce : ∀ s, p.nonce = some s → ∀ c ∈ s, Printable c
  alg : ∀ s, p.alg = some s → ∀ c ∈ s, Printable c
  keyid : ∀ s, p.keyid = some s → ∀ c ∈ s, Printable c
  tag : ∀ s, p.tag = some s → ∀ c ∈ s, Printable c
  ids : ∀ i ∈ p.covered, WritableId i
  distinct : p.covered.Pairwise (fun a b => ¬ SameId a b)

/-- The message from which the value of an id is taken. -/
def Source (m : Msg) (rf : Option Request) (i : CId) (m' : Msg) : Prop :=
  if CParam.req ∈ i.params then ∃ r, rf = some r ∧ m' = .req r else m' = m

/-- An id that changes 5 and 6 do not concern: a field that is there, not by member, and no target of an OPTIONS request. -/
structure Unchanged (m : Msg) (rf : Option Request) (i : CId) : Prop where
  present : ∀ m' f, Source m rf i m' → i.name = .field f → fieldLines m'.headers f ≠ []
  noKey : ∀ f k, i.name = .field f → CParam.key k ∉ i.params
  noOptions : ∀ r, Source m rf i (.req r) → i.name = .derived .requestTarget → r.method ≠ c! "OPTIONS"

/-- A verifying key that does not panic. -/
def NoPanic (k : VerifyingKey) : Prop := ∀ d s, k.verify d s ≠ .panic

/-- The second result is the first one, but in place of a panic it is one of these errors. -/
inductive Instead {α : Type} (E : List SigErr) : Res SigErr α → Res SigErr α → Prop where
  | ok (a : α) : Instead E (.ok a) (.ok a)
  | err (e : SigErr) : Instead E (.err e) (.err e)
  | caught {e : SigErr} : e ∈ E → Instead E .panic (.err e)

/-- The key accepts only data that is the signature base of something in `S`. -/
def OnlySigned (vk : VerifyingKey) (S : Signing → Prop) : Prop :=
  ∀ d s, vk.verify d s = .ok () → ∃ x, S x ∧ ∃ t, BaseOf x.m x.rf x.p t ∧ d = utf8 t

end Verif.Spec.Repaired
