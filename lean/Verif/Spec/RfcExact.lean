import Verif.Spec.Rfc9421
/-!
Where the library takes the value of RFC 9421 for a covered component, and where not. The conditions of `Usual` suffice; these are
also needed. They are for components without `sf` and `key`.
-/
namespace Verif.Spec.Rfc9421
open Sfv

/-- No strict serialization and no member of a dictionary. -/
def PlainItem (i : Item) : Prop := ∀ kv ∈ i.params, kv.1 ≠ c! "sf" ∧ kv.1 ≠ c! "key"

/-- A derived component of a request. -/
structure ExactRequest (c : Ctx) (r : Request) (name : Str) (w : Wants) : Prop where
  method : name = c! "@method" → ∀ ch ∈ r.method, ¬ ('a' ≤ ch ∧ ch ≤ 'z')
  targetUri : name = c! "@target-uri" → r.uri.scheme ≠ none
  authority : name = c! "@authority" → ∃ a, r.uri.authority = some a ∧
    ∀ p, defaultPort (r.uri.scheme.getD c.scheme) = some p → ¬ p <:+ a
  scheme : name = c! "@scheme" → r.uri.scheme ≠ none
  requestTarget : name = c! "@request-target" → r.uri.scheme = none ∧
    (r.method = c! "CONNECT" → r.uri.authority ≠ none) ∧
    (r.method = c! "OPTIONS" → r.uri.pathData = c! "*" ∧ r.uri.query = none) ∧
    (r.method ≠ c! "CONNECT" → r.method ≠ c! "OPTIONS" → ∀ ch, r.uri.pathData.head? = some ch → ch = '/' ∨ ch = '*')
  queryParam : name = c! "@query-param" → ∀ n v, w.name = some n → queryParam (r.uri.query.getD []) n = some v →
    v = [] ∨ n ++ '=' :: v ∈ pieces (r.uri.query.getD [])

/-- A component taken from this message. -/
def ExactIn (c : Ctx) (m : Msg) (name : Str) (w : Wants) : Prop :=
  if name.head? = some '@' then ∀ r, m = .req r → ExactRequest c r name w
  else w.bs = false ∧ ∀ l ∈ fieldLines m.headers name, ∀ t, hvToStr l = some t → strip t = t

/-- A covered component: with `req` it is taken from the request. -/
def ExactItem (c : Ctx) (m : Msg) (rf : Option Request) (i : Item) : Prop :=
  ∀ name w, i.bare = .str name → wants i.params = some w →
    if w.req then ∀ r, rf = some r → ExactIn c (.req r) name w else ExactIn c m name w

end Verif.Spec.Rfc9421
