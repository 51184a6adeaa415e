import Verif.Spec.Path
import Verif.Spec.Http1Stream
/-!
Caches: RFC 9111 sections 3.2, 4, 4.1, 4.3.4 and 5.1. Simplified: a request matches a stored one if the lines named by Vary are the same (section 4.1 also lets a cache
see through blanks and the like), and how long an answer may be used is left to the cache. Nothing of it is code of the repository.
-/
namespace Verif.Cache
open Wire Spec

/-- The field Vary names this field: RFC 9110 section 12.5.5. -/
def Varies (h : Headers) (f : Str) : Prop :=
  ∃ v ∈ linesOf h (c! "vary"), ∃ w ∈ v.splitOn 44, ∃ a g b, w = a ++ utf8 g ++ b ∧ (∀ x ∈ a ++ b, Http1.Ows x) ∧ g.map Char.toLower = f.map Char.toLower

/-- Sections 4 and 4.1: an answer that was stored for one request may be used for another. -/
structure Selected (r0 : Request) (s : Response) (r : Request) : Prop where
  method : r.method = r0.method
  target : r.uri = r0.uri
  vary : ∀ f, Varies s.headers f → linesOf r.headers f = linesOf r0.headers f
  star : ¬ Varies s.headers (c! "*")

/-- Sections 4 and 5.1: the cache sends a stored answer, with its age. -/
structure Reused (s s' : Response) : Prop where
  status : s'.status = s.status
  body : s'.body = s.body
  fields : ∀ f : Str, f.map Char.toLower ≠ c! "age" → linesOf s'.headers f = linesOf s.headers f
  age : ∃ t n, linesOf s'.headers (c! "age") = [utf8 t] ∧ Http1.Number t n
  wf : WfHeaders s'.headers

/-- Sections 3.2 and 4.3.4: the stored answer gets the lines of an answer 304, which replace those of the same name; the names in `out`, as Content-Length, are
excepted. -/
structure Freshened (out : List Str) (s u s' : Response) : Prop where
  code : u.status = 304
  length : c! "content-length" ∈ out
  status : s'.status = s.status
  body : s'.body = s.body
  new : ∀ f : Str, f.map Char.toLower ∉ out → linesOf u.headers f ≠ [] → linesOf s'.headers f = linesOf u.headers f
  old : ∀ f : Str, f.map Char.toLower ∈ out ∨ linesOf u.headers f = [] → linesOf s'.headers f = linesOf s.headers f
  wf : WfHeaders s'.headers

/-- What becomes of an answer in caches and on the ways between them. Lines of the names in the list may have changed. -/
inductive Life : List Str → Response → Response → Prop where
  | stored {s} : Life [] s s
  | sent {ns s s1 s2} : Life ns s s1 → Reused s1 s2 → Life (c! "age" :: ns) s s2
  | fresh {ns out s s1 u s2} : Life ns s s1 → Freshened out s1 u s2 → Life ((u.headers.map fun kv => kv.1.map Char.toLower).filter (· ∉ out) ++ ns) s s2
  | carried {ns ms s s1 s2} : Life ns s s1 → Path.WayBack ms s1 s2 → Life (ms ++ ns) s s2

/-- A component of the request that is the same for all requests for which the answer is used. -/
def Bound (s : Response) (i : CId) : Prop :=
  (∀ f, i.name = .field f → Varies s.headers f) ∧ (i.name = .derived .signatureParams → Varies s.headers (c! "signature-input"))

/-- What is covered stays the same in caches. -/
def Lasts (ns : List Str) (s : Response) (i : CId) : Prop := if CParam.req ∈ i.params then Bound s i else Arrival.Clear ns i

end Verif.Cache
