import Verif.Spec.Wire
/-!
How building a signature base, signing, reading and verifying fail: which error is reported for which reason. The errors are those of
`HttpSigError` and `HyperSigError`; their messages are left out. Panics are the subject of C16 and C17.
-/
namespace Verif.Wire
open Sfv Spec Grammar

/-- The first element, in order, that is not `good` is `bad`. -/
def FirstBad {α : Type} (good bad : α → Prop) (l : List α) : Prop := ∃ a x b, l = a ++ x :: b ∧ bad x ∧ ∀ y ∈ a, good y

/-! ### Values of components -/

/-- Applying the parameters of a field from left to right to its lines stops with this error. -/
inductive Stops : List CParam → List Str → SigErr → Prop where
  | bs {ps vs} : Stops (.bs :: ps) vs .notYetImplemented
  | tr {ps vs} : Stops (.tr :: ps) vs .notYetImplemented
  | name {n ps vs} : Stops (.name n :: ps) vs .notYetImplemented
  | req {ps vs e} : Stops ps vs e → Stops (.req :: ps) vs e
  | badSf {ps vs v} : v ∈ vs → (∀ t, ¬ Canon v t) → Stops (.sf :: ps) vs .invalidComponentParam
  | sf {ps vs mid e} : List.Forall₂ Canon vs mid → Stops ps mid e → Stops (.sf :: ps) vs e
  | badKey {k ps vs v} : v ∈ vs → (∀ d, ¬ DictText d v) → Stops (.key k :: ps) vs .invalidComponentParam
  | key {k ps vs mid e} : Members k vs mid → Stops ps mid e → Stops (.key k :: ps) vs e

/-- A field: a line that is no text, or parameters that cannot be applied. -/
inductive FieldFails (h : Headers) (f : Str) (ps : List CParam) : HyperErr → Prop where
  | line {l} : l ∈ linesOf h f → (∀ t, ¬ LineText l t) → FieldFails h f ps .toStr
  | stops {ts e} : LinesText h f ts → Stops ps ts e → FieldFails h f ps (.httpSig e)

/-- Parameters that a derived component may have. -/
def ParamsFit (d : Derived) (ps : List CParam) : Prop := ∀ p ∈ ps, p = .req ∨ (d = .queryParam ∧ ∃ n, p = .name n)

/-- There is no line of Signature-Input, or the first one is no text or has no `=`. -/
def NoSigParams (h : Headers) : Prop := ∀ l t, (linesOf h (c! "signature-input")).head? = some l → LineText l t → '=' ∉ t

/-- A derived component of a request: a parameter that it may not have, `@status`, a query that is empty (or nothing but `&`), a query
parameter without a name, or no Signature-Input. -/
inductive RequestFails (r : Request) (d : Derived) (ps : List CParam) : HyperErr → Prop where
  | params : ¬ ParamsFit d ps → RequestFails r d ps .invalidComponentParam
  | status : ParamsFit d ps → d = .status → RequestFails r d ps .invalidComponentName
  | query : ParamsFit d ps → d = .queryParam → (∀ c ∈ r.uri.query.getD [], c = '&') → RequestFails r d ps (.httpSig .invalidComponent)
  | name : ParamsFit d ps → d = .queryParam → (∀ n, CParam.name n ∉ ps) → RequestFails r d ps (.httpSig .invalidComponent)
  | input : ParamsFit d ps → d = .signatureParams → NoSigParams r.headers → RequestFails r d ps (.httpSig .invalidComponent)

/-- A derived component of a response, without `req`: only `@status` and `@signature-params` exist. -/
inductive ResponseFails (s : Response) (d : Derived) (ps : List CParam) : HyperErr → Prop where
  | params : ¬ ParamsFit d ps → ResponseFails s d ps .invalidComponentParam
  | kind : ParamsFit d ps → d ≠ .status → d ≠ .signatureParams → ResponseFails s d ps .invalidComponentName
  | input : ParamsFit d ps → d = .signatureParams → NoSigParams s.headers → ResponseFails s d ps (.httpSig .invalidComponent)

def FailsIn (m : Msg) (i : CId) (e : HyperErr) : Prop :=
  match i.name, m with
  | .field f, .req r => FieldFails r.headers f i.params e
  | .field f, .res s => FieldFails s.headers f i.params e
  | .derived d, .req r => RequestFails r d i.params e
  | .derived d, .res s => ResponseFails s d i.params e

/-- An identifier has no value for a message, for this reason. With `req` there must be a response and its request. -/
inductive ValueFails (m : Msg) (rf : Option Request) (i : CId) : HyperErr → Prop where
  | here {e} : CParam.req ∉ i.params → FailsIn m i e → ValueFails m rf i e
  | there {s r e} : CParam.req ∈ i.params → m = .res s → rf = some r → FailsIn (.req r) i e → ValueFails m rf i e
  | request {r} : CParam.req ∈ i.params → m = .req r → ValueFails m rf i .invalidComponentParam
  | missing : CParam.req ∈ i.params → rf = none → ValueFails m rf i .invalidComponentParam

/-! ### Bases and signing -/

/-- The base cannot be built: the error is that of the first covered component without a value. -/
def BaseFails (m : Msg) (rf : Option Request) (p : SigParams) (e : HyperErr) : Prop :=
  FirstBad (fun i => ∃ v, HasValue m rf i v) (fun i => ValueFails m rf i e) p.covered

/-- Signing fails: a base cannot be built, a key fails, or a label or parameters hold a control character. -/
inductive SigningFails (m : Msg) (rf : Option Request) (l : List (SigParams × SigningKey × Option Str)) : HyperErr → Prop where
  | base {e} : FirstBad (fun x => ∃ t, BaseOf m rf x.1 t) (fun x => BaseFails m rf x.1 e) l → SigningFails m rf l e
  | key {e} : (∀ x ∈ l, ∃ t, BaseOf m rf x.1 t ∧ x.2.1.sign (utf8 t) ≠ .panic) →
      FirstBad (fun x => ∃ t s, BaseOf m rf x.1 t ∧ x.2.1.sign (utf8 t) = .ok s)
        (fun x => ∃ t, BaseOf m rf x.1 t ∧ x.2.1.sign (utf8 t) = .err e) l → SigningFails m rf l (.httpSig e)
  | header {x} : (∀ x ∈ l, ∃ t s, BaseOf m rf x.1 t ∧ x.2.1.sign (utf8 t) = .ok s) → x ∈ l →
      ¬ LineOk (utf8 (x.2.2.getD (c! "sig") ++ '=' :: paramsText x.1)) → SigningFails m rf l .invalidHeaderValue

/-! ### Reading -/

/-- An item is no identifier: not a string, a parameter that is unknown or has a value of the wrong type, or one where it may not
stand. -/
inductive IdFails : Item → SigErr → Prop where
  | name {it} : (∀ n, it.bare ≠ .str n) → IdFails it .invalidComponentName
  | param {it n c kv} : it.bare = .str n → NameOf n c → kv ∈ it.params → (∀ p, ¬ ParamOf kv p) → IdFails it .invalidComponentParam
  | place {it n c ps p} : it.bare = .str n → NameOf n c → List.Forall₂ ParamOf it.params ps → p ∈ ps → ¬ Allowed c p →
      IdFails it .invalidComponentId

/-- The item that a text is; a text without quotes is put between quotes. -/
def IdItem (s : Str) (it : Item) : Prop :=
  ∃ v, Trimmed s v ∧ (('"' ∈ v ∧ ItemFieldText it v) ∨ (v ≠ [] ∧ '"' ∉ v ∧ ItemFieldText it (quoted v)))

/-- A text is no identifier. -/
inductive IdTextFails (s : Str) : SigErr → Prop where
  | parse : (∀ it, ¬ IdItem s it) → IdTextFails s .parseSFV
  | item {it e} : IdItem s it → IdFails it e → IdTextFails s e

/-- A text is no component line: no colon, what is before it is not in quotes, or is no identifier. -/
inductive LineFails (s : Str) : SigErr → Prop where
  | colon : ':' ∉ s → LineFails s .invalidComponent
  | quotes {i v t} : s = i ++ ':' :: v → ':' ∉ i → Trimmed i t →
      ¬ (t.head? = some '"' ∧ (t.getLast? = some '"' ∨ c! "\";" <:+: t.tail)) → LineFails s .invalidComponentId
  | id {i v t e} : s = i ++ ':' :: v → ':' ∉ i → Trimmed i t →
      t.head? = some '"' → (t.getLast? = some '"' ∨ c! "\";" <:+: t.tail) → IdTextFails t e → LineFails s e

/-- An item of Signature-Input is no covered component; an item without a quote in its text never fails. -/
def CoveredFails (it : Item) (e : SigErr) : Prop := ∃ t, CanonItem it t ∧ '"' ∈ t ∧ IdFails it e

/-- An inner list is no set of parameters: an item fails, or two are the same. -/
inductive InnerFails (l : InnerList) : SigErr → Prop where
  | item {e} : FirstBad (fun it => ∃ i, CoveredId it i) (fun it => CoveredFails it e) l.items → InnerFails l e
  | twice {ids} : List.Forall₂ CoveredId l.items ids → ¬ ids.Pairwise (fun i j => ¬ (i.name = j.name ∧ i.params.Perm j.params)) →
      InnerFails l .invalidSignatureParams

/-- A text is no set of parameters: no list, not one inner list, or one that fails. -/
inductive ParamsTextFails (s : Str) : SigErr → Prop where
  | parse : (∀ l, ¬ ListText l s) → ParamsTextFails s .parseSFV
  | shape {l} : ListText l s → (∀ i, l ≠ [.inner i]) → ParamsTextFails s .invalidSignatureParams
  | inner {i e} : ListText [.inner i] s → InnerFails i e → ParamsTextFails s e

/-- Signature and Signature-Input belong together: the same labels, byte sequences on one side, inner lists on the other. -/
def Paired (a b : Dict) : Prop :=
  (∀ k, k ∈ a.map Prod.fst ↔ k ∈ b.map Prod.fst) ∧ (∀ kv ∈ a, ∃ x ps, kv.2 = .item ⟨.bytes x, ps⟩) ∧ ∀ kv ∈ b, ∃ il, kv.2 = .inner il

/-- Two texts are no Signature and Signature-Input. -/
inductive HeadersFail (s t : Str) : SigErr → Prop where
  | parse : (∀ a, ¬ DictText a s) ∨ (∀ b, ¬ DictText b t) → HeadersFail s t .parseSFV
  | labels {a b} : DictText a s → DictText b t → ¬ Paired a b → HeadersFail s t .buildSignatureHeader
  | params {a b e} : DictText a s → DictText b t → Paired a b →
      FirstBad (fun kv => ∃ il p, kv.2 = .inner il ∧ ParamsOf il p) (fun kv => ∃ il, kv.2 = .inner il ∧ InnerFails il e) b →
      HeadersFail s t e

/-- The header lines say nothing: a field is missing, a line is no text, or the fields make no sense. -/
inductive CarriesFails (h : Headers) : HyperErr → Prop where
  | missing : linesOf h (c! "signature-input") = [] ∨ linesOf h (c! "signature") = [] → CarriesFails h .noSignatureHeaders
  | line {l} : linesOf h (c! "signature-input") ≠ [] → linesOf h (c! "signature") ≠ [] →
      l ∈ linesOf h (c! "signature-input") ++ linesOf h (c! "signature") → (∀ t, ¬ LineText l t) → CarriesFails h .toStr
  | parse {ts us e} : LinesText h (c! "signature-input") ts → LinesText h (c! "signature") us → ts ≠ [] → us ≠ [] →
      HeadersFail (commas us) (commas ts) e → CarriesFails h (.httpSig e)

/-- Verification fails: no signatures can be read, none is for this key, or none of those that are is accepted. -/
inductive VerifyFails (now : UInt64) (m : Msg) (rf : Option Request) (k : VerifyingKey) (id : Option Str) : HyperErr → Prop where
  | carries {e} : CarriesFails m.headers e → VerifyFails now m rf k id e
  | none {l} : Carries m.headers l → (∀ kv ∈ l, ¬ Candidate m rf id kv.2) → VerifyFails now m rf k id .noSignatureHeaders
  | invalid {l kv} : Carries m.headers l → kv ∈ l → Candidate m rf id kv.2 → (∀ kv ∈ l, ¬ Checked now m rf k id kv.2 .panic) →
      (∀ kv ∈ l, ¬ Checked now m rf k id kv.2 (.ok ())) → VerifyFails now m rf k id .invalidSignature

end Verif.Wire
