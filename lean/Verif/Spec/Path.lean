import Verif.Spec.Http2
import Verif.Spec.Value
/-!
A request on its way through proxies, over connections of either kind, and the answer on its way back. Nothing of it is code of the repository.
-/
namespace Verif.Path
open Arrival Http1 Http2 Spec

/-- A URI that is not an authority alone. -/
def Whole (u : Uri) : Prop := u.scheme = none → u.authority = none

/-- What a proxy may do with a request between reading and sending: give it another scheme and authority, and add, remove or change lines of these names. -/
structure Passes (names : List Str) (r r' : Request) : Prop where
  method : r'.method = r.method
  target : originForm r'.uri = originForm r.uri
  whole : Whole r'.uri
  fields : ∀ f : Str, f.map Char.toLower ∉ names → Wire.linesOf r'.headers f = Wire.linesOf r.headers f
  wf : WfHeaders r'.headers

/-- One step: over HTTP/1.1, over HTTP/2, or through a proxy. Lines of the names in the list may have changed. The body is that of the request (C131, C132). -/
inductive Step : List Str → Request → Request → Prop where
  | http1 {extra r r' wire} : Sendable r → WfHeaders (extra ++ r.headers) → SendableLines (extra ++ r.headers) → Reads (written extra r ++ wire) r' → r'.body = r.body →
      Step (changed extra r.headers) r r'
  | http2 {extra r r' fs} : Sendable r → WfHeaders (extra ++ r.headers) → SendableLines (extra ++ r.headers) → (∀ kv ∈ extra ++ r.headers, NoOuter kv.2) →
      (∀ kv ∈ extra, kv.1 ∉ connectionNames) → SentAs extra r fs → ReqFields fs r' → r'.body = r.body → Step (changed2 extra) r r'
  | proxy {names r r'} : Passes names r r' → r'.body = r.body → Step names r r'

/-- Any number of steps. -/
inductive Way : List Str → Request → Request → Prop where
  | here {r} : Way [] r r
  | step {a b r r1 r2} : Step a r r1 → Way b r1 r2 → Way (a ++ b) r r2

/-- One step of an answer. -/
inductive Back : List Str → Response → Response → Prop where
  | http1 {extra reason s s' wire} : Status s.status → (∀ c ∈ reason, ValueByte c) → WfHeaders (extra ++ s.headers) → SendableLines (extra ++ s.headers) →
      ReadsRes (writtenRes reason extra s ++ wire) s' → s'.body = s.body → Back (changed extra s.headers) s s'
  | http2 {extra s s' fs} : Status s.status → WfHeaders (extra ++ s.headers) → SendableLines (extra ++ s.headers) → (∀ kv ∈ extra ++ s.headers, NoOuter kv.2) →
      (∀ kv ∈ extra, kv.1 ∉ connectionNames) → AnsweredAs extra s fs → ResFields fs s' → s'.body = s.body → Back (changed2 extra) s s'
  | proxy {names s s'} : s'.status = s.status → (∀ f : Str, f.map Char.toLower ∉ names → Wire.linesOf s'.headers f = Wire.linesOf s.headers f) →
      WfHeaders s'.headers → s'.body = s.body → Back names s s'

inductive WayBack : List Str → Response → Response → Prop where
  | here {s} : WayBack [] s s
  | step {a b s s1 s2} : Back a s s1 → WayBack b s1 s2 → WayBack (a ++ b) s s2

end Verif.Path
