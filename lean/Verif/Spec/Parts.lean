import Verif.Spec.Cache
/-!
Answers to HEAD and parts of answers: RFC 9110 sections 9.3.2, 14.4, 15.3.7 and RFC 9111 section 3.4. Simplified: a part or an answer to HEAD has all lines of the whole
answer (some may be left out), there is one range at a time (no multipart/byteranges), and that the parts that are put together are of one answer, which a client sees
by the entity tag, is part of `Row`. Nothing of it is code of the repository.
-/
namespace Verif.Cache
open Wire Spec

/-- RFC 9111 section 4: a stored answer to GET may be used for a request with HEAD. -/
structure SelectedHead (r0 : Request) (s : Response) (r : Request) : Prop where
  get : r0.method = c! "GET"
  head : r.method = c! "HEAD"
  same : Selected r0 s { r with method := c! "GET" }

/-- RFC 9110 section 9.3.2: the lines of the answer without its content. -/
structure Headed (s s' : Response) : Prop where
  status : s'.status = s.status
  body : s'.body = .data []
  fields : ∀ f : Str, linesOf s'.headers f = linesOf s.headers f
  wf : WfHeaders s'.headers

/-- The bytes from `a` to `b`, both of them too. -/
def between (a b : Nat) (c : Bytes) : Bytes := (c.drop a).take (b + 1 - a)

/-- The lines that a part has for itself. -/
def partNames : List Str := [c! "content-range", c! "content-length"]

/-- RFC 9110 sections 14.4 and 15.3.7: an answer 206 with the bytes from `a` to `b` of an answer 200. -/
structure Part (s : Response) (c : Bytes) (a b : Nat) (s' : Response) : Prop where
  whole : s.status = 200
  content : s.body = .data c
  bounds : a ≤ b ∧ b < c.length
  status : s'.status = 206
  body : s'.body = .data (between a b c)
  range : ∃ ta tb tn, Http1.Number ta a ∧ Http1.Number tb b ∧ Http1.Number tn c.length ∧
    linesOf s'.headers (c! "content-range") = [utf8 (c! "bytes " ++ ta ++ c! "-" ++ tb ++ c! "/" ++ tn)]
  fields : ∀ f : Str, f.map Char.toLower ∉ partNames → linesOf s'.headers f = linesOf s.headers f
  wf : WfHeaders s'.headers

/-- Parts of an answer, one after the other, from the byte `a` to the end. -/
inductive Row (s : Response) (c : Bytes) : Nat → List Response → Prop where
  | last {a b p} : Part s c a b p → b + 1 = c.length → Row s c a [p]
  | more {a b p ps} : Part s c a b p → Row s c (b + 1) ps → Row s c a (p :: ps)

/-- RFC 9111 section 3.4: parts are put together to an answer 200; it has the lines of one of them, but none that says that it is a part. -/
structure Joined (ps : List Response) (s' : Response) : Prop where
  status : s'.status = 200
  body : ∃ bs, List.Forall₂ (fun p b => p.body = Body.data b) ps bs ∧ s'.body = .data bs.flatten
  range : linesOf s'.headers (c! "content-range") = []
  fields : ∃ p ∈ ps, ∀ f : Str, f.map Char.toLower ∉ partNames → linesOf s'.headers f = linesOf p.headers f
  wf : WfHeaders s'.headers

end Verif.Cache
