import Verif.Spec.Failure
import Verif.Spec.Message
import Verif.Model.ErrText
/-!
What the errors say. The relations are those of `Spec/Failure.lean` with the message of the error beside its kind; where several reasons have one
kind but not one message, they are told apart. Messages of other crates are those of `ErrLib`.
-/
namespace Verif.Wire
open Sfv Spec Grammar

section
variable (L : ErrLib)

/-! ### Values of components -/

/-- What `sf` says about a line: one that is empty is a list without members, which has no text. -/
inductive SfSays (v : Str) : Str → Prop where
  | empty : ListText [] v → SfSays v (c! "Failed to parse structured field value: Failed to serialize structured field value for sf")
  | bad : (∀ l, ¬ ListText l v) → (∀ d, ¬ DictText d v) →
      SfSays v (c! "Failed to parse structured field value: invalid structured field value for sf")

/-- Applying the parameters of a field from left to right to its lines stops, and what is said. -/
inductive StopsSaying : List CParam → List Str → SigErr → Str → Prop where
  | bs {ps vs} : StopsSaying (.bs :: ps) vs .notYetImplemented (c! "`bs` is not supported yet")
  | tr {ps vs} : StopsSaying (.tr :: ps) vs .notYetImplemented (c! "`tr` is not supported yet")
  | name {n ps vs} : StopsSaying (.name n :: ps) vs .notYetImplemented (c! "`name` is only for derived component query-params")
  | req {ps vs e t} : StopsSaying ps vs e t → StopsSaying (.req :: ps) vs e t
  | badSf {ps vs t} : FirstBad (fun v => ∃ w, Canon v w) (fun v => SfSays v t) vs → StopsSaying (.sf :: ps) vs .invalidComponentParam t
  | sf {ps vs mid e t} : List.Forall₂ Canon vs mid → StopsSaying ps mid e t → StopsSaying (.sf :: ps) vs e t
  | badKey {k ps vs t} : FirstBad (fun v => ∃ d, DictText d v)
      (fun v => (∀ d, ¬ DictText d v) ∧ t = c! "Failed to parse structured field value: " ++ L.dict v) vs →
      StopsSaying (.key k :: ps) vs .invalidComponentParam t
  | key {k ps vs mid e t} : Members k vs mid → StopsSaying ps mid e t → StopsSaying (.key k :: ps) vs e t

inductive FieldSays (h : Headers) (f : Str) (ps : List CParam) : HyperErr → Str → Prop where
  | line {l} : l ∈ linesOf h f → (∀ t, ¬ LineText l t) → FieldSays h f ps .toStr L.toStr
  | stops {ts e t} : LinesText h f ts → StopsSaying L ps ts e t → FieldSays h f ps (.httpSig e) t

/-- A parameter that a derived component may not have; it is named by its text without the semicolon. -/
inductive ParamSays (d : Derived) : CParam → Str → Prop where
  | name {n} : d ≠ .queryParam → ParamSays d (.name n) (c! "`name` parameter is only allowed for `@query-param`")
  | other {p} : p = .sf ∨ p = .bs ∨ p = .tr ∨ (∃ k, p = .key k) →
      ParamSays d p (c! "parameter `" ++ (paramText p).tail ++ c! "` is not allowed on derived components")

/-- The first parameter that a derived component may not have. -/
def ParamsSay (d : Derived) (ps : List CParam) (t : Str) : Prop :=
  FirstBad (fun p => p = .req ∨ (d = .queryParam ∧ ∃ n, p = .name n)) (fun p => ParamSays d p t) ps

/-- There is no line of Signature-Input, or the first one is no text or has no `=`. -/
inductive InputSays (h : Headers) : Str → Prop where
  | none : linesOf h (c! "signature-input") = [] → InputSays h (c! "derived component requires field values")
  | first : linesOf h (c! "signature-input") ≠ [] → NoSigParams h → InputSays h (c! "invalid signature-params derived component")

inductive RequestSays (r : Request) (d : Derived) (ps : List CParam) : HyperErr → Str → Prop where
  | params {t} : ParamsSay d ps t → RequestSays r d ps .invalidComponentParam t
  | status : ParamsFit d ps → d = .status → RequestSays r d ps .invalidComponentName (c! "`status` is only for response")
  | query : ParamsFit d ps → d = .queryParam → (∀ c ∈ r.uri.query.getD [], c = '&') →
      RequestSays r d ps (.httpSig .invalidComponent) (c! "derived component requires field values")
  | name : ParamsFit d ps → d = .queryParam → (∃ c ∈ r.uri.query.getD [], c ≠ '&') → (∀ n, CParam.name n ∉ ps) →
      RequestSays r d ps (.httpSig .invalidComponent) (c! "query-param derived component requires name parameter")
  | input {t} : ParamsFit d ps → d = .signatureParams → InputSays r.headers t → RequestSays r d ps (.httpSig .invalidComponent) t

inductive ResponseSays (s : Response) (d : Derived) (ps : List CParam) : HyperErr → Str → Prop where
  | params {t} : ParamsSay d ps t → ResponseSays s d ps .invalidComponentParam t
  | kind : ParamsFit d ps → d ≠ .status → d ≠ .signatureParams → ResponseSays s d ps .invalidComponentName
      (c! "derived components other than `@status` and `@signature-params` require `req` parameter for response")
  | input {t} : ParamsFit d ps → d = .signatureParams → InputSays s.headers t → ResponseSays s d ps (.httpSig .invalidComponent) t

def SaysIn (m : Msg) (i : CId) (e : HyperErr) (t : Str) : Prop :=
  match i.name, m with
  | .field f, .req r => FieldSays L r.headers f i.params e t
  | .field f, .res s => FieldSays L s.headers f i.params e t
  | .derived d, .req r => RequestSays r d i.params e t
  | .derived d, .res s => ResponseSays s d i.params e t

inductive ValueSays (m : Msg) (rf : Option Request) (i : CId) : HyperErr → Str → Prop where
  | here {e t} : CParam.req ∉ i.params → SaysIn L m i e t → ValueSays m rf i e t
  | there {s r e t} : CParam.req ∈ i.params → m = .res s → rf = some r → SaysIn L (.req r) i e t → ValueSays m rf i e t
  | request {r} : CParam.req ∈ i.params → m = .req r → ValueSays m rf i .invalidComponentParam (c! "`req` is not allowed in request")
  | missing {s} : CParam.req ∈ i.params → m = .res s → rf = none →
      ValueSays m rf i .invalidComponentParam (c! "`req` is required for the param")

/-! ### Bases and signing -/

def BaseSays (m : Msg) (rf : Option Request) (p : SigParams) (e : HyperErr) (t : Str) : Prop :=
  FirstBad (fun i => ∃ v, HasValue m rf i v) (fun i => ValueSays L m rf i e t) p.covered

inductive SigningSays (m : Msg) (rf : Option Request) (l : List (SigParams × SigningKey × Option Str)) : HyperErr → Str → Prop where
  | base {e t} : FirstBad (fun x => ∃ t, BaseOf m rf x.1 t) (fun x => BaseSays L m rf x.1 e t) l → SigningSays m rf l e t
  | key {e} : (∀ x ∈ l, ∃ t, BaseOf m rf x.1 t ∧ x.2.1.sign (utf8 t) ≠ .panic) →
      FirstBad (fun x => ∃ t s, BaseOf m rf x.1 t ∧ x.2.1.sign (utf8 t) = .ok s)
        (fun x => ∃ t, BaseOf m rf x.1 t ∧ x.2.1.sign (utf8 t) = .err e) l → SigningSays m rf l (.httpSig e) (L.key e)
  | header {x} : (∀ x ∈ l, ∃ t s, BaseOf m rf x.1 t ∧ x.2.1.sign (utf8 t) = .ok s) → x ∈ l →
      ¬ LineOk (utf8 (x.2.2.getD (c! "sig") ++ '=' :: paramsText x.1)) → SigningSays m rf l .invalidHeaderValue L.headerValue

/-! ### Reading -/

/-- An item is no identifier. Of the parameters the first that is unknown, or has a value of the wrong type, is named. -/
inductive IdSays : Item → SigErr → Str → Prop where
  | name {it} : (∀ n, it.bare ≠ .str n) → IdSays it .invalidComponentName (c! "Invalid http message component name: " ++ L.bare it.bare)
  | param {it n c t} : it.bare = .str n → NameOf n c →
      FirstBad (fun kv => ∃ p, ParamOf kv p) (fun kv => (∀ p, ¬ ParamOf kv p) ∧ t = c! "Invalid http field param: " ++ kv.1) it.params →
      IdSays it .invalidComponentParam t
  | place {it n c ps p} : it.bare = .str n → NameOf n c → List.Forall₂ ParamOf it.params ps → p ∈ ps → ¬ Allowed c p →
      IdSays it .invalidComponentId (c! "Invalid http message component id: " ++ idText ⟨c, ps⟩)

/-- The text that is given to the parser; a text without quotes is put between quotes. -/
inductive Asked (s : Str) : Str → Prop where
  | plain {v} : Trimmed s v → v = [] ∨ '"' ∈ v → Asked s v
  | quoted {v} : Trimmed s v → v ≠ [] → '"' ∉ v → Asked s (quoted v)

inductive IdTextSays (s : Str) : SigErr → Str → Prop where
  | parse {w} : Asked s w → (∀ it, ¬ ItemFieldText it w) → IdTextSays s .parseSFV (L.item w)
  | item {w it e t} : Asked s w → ItemFieldText it w → IdSays L it e t → IdTextSays s e t

inductive LineSays (s : Str) : SigErr → Str → Prop where
  | colon : ':' ∉ s → LineSays s .invalidComponent (c! "Invalid http message component: " ++ s)
  | quotes {i v t} : s = i ++ ':' :: v → ':' ∉ i → Trimmed i t →
      ¬ (t.head? = some '"' ∧ (t.getLast? = some '"' ∨ c! "\";" <:+: t.tail)) →
      LineSays s .invalidComponentId (c! "Invalid http message component id: " ++ t)
  | id {i v t e x} : s = i ++ ':' :: v → ':' ∉ i → Trimmed i t →
      t.head? = some '"' → (t.getLast? = some '"' ∨ c! "\";" <:+: t.tail) → IdTextSays L t e x → LineSays s e x

def CoveredSays (it : Item) (e : SigErr) (x : Str) : Prop := ∃ t, CanonItem it t ∧ '"' ∈ t ∧ IdSays L it e x

inductive InnerSays (l : InnerList) : SigErr → Str → Prop where
  | item {e t} : FirstBad (fun it => ∃ i, CoveredId it i) (fun it => CoveredSays L it e t) l.items → InnerSays l e t
  | twice {ids} : List.Forall₂ CoveredId l.items ids → ¬ ids.Pairwise (fun i j => ¬ (i.name = j.name ∧ i.params.Perm j.params)) →
      InnerSays l .invalidSignatureParams (c! "duplicate covered component ids")

inductive ParamsTextSays (s : Str) : SigErr → Str → Prop where
  | parse : (∀ l, ¬ ListText l s) → ParamsTextSays s .parseSFV (L.list s)
  | shape {l} : ListText l s → (∀ i, l ≠ [.inner i]) → ParamsTextSays s .invalidSignatureParams (c! "Invalid signature params")
  | inner {i e t} : ListText [.inner i] s → InnerSays L i e t → ParamsTextSays s e t

/-- Signature and Signature-Input do not belong together: they do not have the same number of members, or not the same labels, a signature is no
byte sequence, an input no inner list. The first of these in this order is said. -/
inductive PairSays (a b : Dict) : Str → Prop where
  | number : a.length ≠ b.length → PairSays a b (c! "The number of signature and signature-input headers are not the same")
  | labels {k} : a.length = b.length → k ∈ a.map Prod.fst → k ∉ b.map Prod.fst →
      PairSays a b (c! "The signature and signature-input headers are not the same")
  | bytes {kv} : (∀ k, k ∈ a.map Prod.fst ↔ k ∈ b.map Prod.fst) → kv ∈ a → (∀ x ps, kv.2 ≠ .item ⟨.bytes x, ps⟩) →
      PairSays a b (c! "The signature header is not a dictionary")
  | inner {kv} : (∀ k, k ∈ a.map Prod.fst ↔ k ∈ b.map Prod.fst) → (∀ kv ∈ a, ∃ x ps, kv.2 = .item ⟨.bytes x, ps⟩) → kv ∈ b →
      (∀ il, kv.2 ≠ .inner il) → PairSays a b (c! "The signature-input header is not a dictionary")

/-- Two texts are no Signature and Signature-Input; Signature-Input is read first. -/
inductive HeadersSay (s t : Str) : SigErr → Str → Prop where
  | input : (∀ b, ¬ DictText b t) → HeadersSay s t .parseSFV (L.dict t)
  | signature {b} : DictText b t → (∀ a, ¬ DictText a s) → HeadersSay s t .parseSFV (L.dict s)
  | pair {a b x} : DictText a s → DictText b t → PairSays a b x → HeadersSay s t .buildSignatureHeader x
  | params {a b e x} : DictText a s → DictText b t → Paired a b →
      FirstBad (fun kv => ∃ il p, kv.2 = .inner il ∧ ParamsOf il p) (fun kv => ∃ il, kv.2 = .inner il ∧ InnerSays L il e x) b →
      HeadersSay s t e x

/-- The header lines say nothing. -/
inductive CarriesSay (h : Headers) : HyperErr → Str → Prop where
  | missing : linesOf h (c! "signature-input") = [] ∨ linesOf h (c! "signature") = [] →
      CarriesSay h .noSignatureHeaders (c! "The request does not have signature and signature-input headers")
  | line {l} : linesOf h (c! "signature-input") ≠ [] → linesOf h (c! "signature") ≠ [] →
      l ∈ linesOf h (c! "signature-input") ++ linesOf h (c! "signature") → (∀ t, ¬ LineText l t) → CarriesSay h .toStr L.toStr
  | parse {ts us e x} : LinesText h (c! "signature-input") ts → LinesText h (c! "signature") us → ts ≠ [] → us ≠ [] →
      HeadersSay L (commas us) (commas ts) e x → CarriesSay h (.httpSig e) x

/-- Verification fails. -/
inductive VerifySays (now : UInt64) (m : Msg) (rf : Option Request) (k : VerifyingKey) (id : Option Str) : HyperErr → Str → Prop where
  | request {r} : m = .req r → linesOf m.headers (c! "signature-input") = [] ∨ linesOf m.headers (c! "signature") = [] →
      VerifySays now m rf k id .noSignatureHeaders (c! "The request does not have signature and signature-input headers")
  | response {s} : m = .res s → linesOf m.headers (c! "signature-input") = [] ∨ linesOf m.headers (c! "signature") = [] →
      VerifySays now m rf k id .noSignatureHeaders (c! "The response does not have signature and signature-input headers")
  | carries {e x} : linesOf m.headers (c! "signature-input") ≠ [] → linesOf m.headers (c! "signature") ≠ [] → CarriesSay L m.headers e x →
      VerifySays now m rf k id e x
  | none {l} : Carries m.headers l → (∀ kv ∈ l, ¬ Candidate m rf id kv.2) →
      VerifySays now m rf k id .noSignatureHeaders (c! "No signature as appropriate target for verification")
  | invalid {l kv} : Carries m.headers l → kv ∈ l → Candidate m rf id kv.2 → (∀ kv ∈ l, ¬ Checked now m rf k id kv.2 .panic) →
      (∀ kv ∈ l, ¬ Checked now m rf k id kv.2 (.ok ())) → VerifySays now m rf k id .invalidSignature (c! "Invalid signature for the verifying key")

/-! ### Parameters and lines of a caller -/

/-- Identifiers of a caller are no covered components. -/
inductive NewSays (ids : List CId) : SigErr → Str → Prop where
  | twice : ¬ ids.Pairwise (fun i j => ¬ (i.name = j.name ∧ i.params.Perm j.params)) →
      NewSays ids .invalidSignatureParams (c! "duplicate covered component ids")

/-- Lines of a caller are no base for these parameters: too few or too many, else a line that is not in its place. -/
inductive LinesSay (ls : List Component) (p : SigParams) : SigErr → Str → Prop where
  | number : ls.length ≠ p.covered.length → LinesSay ls p .buildSignatureBase
      (c! "The number of component lines is not the same as the number of covered message component ids")
  | order : ls.length = p.covered.length → ¬ List.Forall₂ (fun c i => c.id.name = i.name ∧ c.id.params.Perm i.params) ls p.covered →
      LinesSay ls p .buildSignatureBase
      (c! "The order of component lines is not the same as the order of covered message component ids")

/-! ### Content-Digest -/

/-- The one member that a line of Content-Digest has. -/
def DigestMember (h : Headers) (k : Str) (e : Entry) : Prop :=
  ∃ l t, (lines h (c! "content-digest")).head? = some l ∧ LineText l t ∧ DictText [(k, e)] t

/-- The digest of a body is not confirmed. Only the first line counts. -/
inductive DigestSays (h : Headers) (body : Body) : DigestErr → Str → Prop where
  | absent : lines h (c! "content-digest") = [] → DigestSays h body .noDigestHeader (c! "No content-digest header")
  | line {l} : (lines h (c! "content-digest")).head? = some l → (∀ t, ¬ LineText l t) → DigestSays h body .toStr L.toStr
  | parse {l t} : (lines h (c! "content-digest")).head? = some l → LineText l t → (∀ d, ¬ DictText d t) →
      DigestSays h body .invalidHeaderValue (L.dict t)
  | number {l t d} : (lines h (c! "content-digest")).head? = some l → LineText l t → DictText d t → d.length ≠ 1 →
      DigestSays h body .invalidHeaderValue (c! "Content-Digest header should have only one value")
  | kind {k e} : DigestMember h k e → (∀ t, k ≠ digestLabel t) →
      DigestSays h body .invalidHeaderValue (c! "Invalid Content-Digest type: Invalid content-digest type: " ++ k)
  | value {t e} : DigestMember h (digestLabel t) e → (∀ x ps, e ≠ .item ⟨.bytes x, ps⟩) →
      DigestSays h body .invalidHeaderValue (c! "Invalid Content-Digest value")
  | body {t x ps} : DigestMember h (digestLabel t) (.item ⟨.bytes x, ps⟩) → body = .fail →
      DigestSays h body .httpBody (c! "Failed to get body bytes")
  | wrong {t x ps b} : DigestMember h (digestLabel t) (.item ⟨.bytes x, ps⟩) → body = .data b → x ≠ hashOf t b →
      DigestSays h body .invalidContentDigest (c! "Content-Digest verification failed")

/-- A digest cannot be set. -/
inductive DigestSetSays (body : Body) : DigestErr → Str → Prop where
  | body : body = .fail → DigestSetSays body .httpBody (c! "Failed to generate digest")

end

end Verif.Wire
