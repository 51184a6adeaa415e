import Verif.Spec.Chain
import Verif.Props.C133
/-!
Signed messages on their way through stations that sign them too, RFC 9421 section 4.3. Nothing of it is code of the repository except the signing.
-/
namespace Verif.Path
open Arrival Spec

/-- A signer whose label is new and untouched: neither it nor the earlier signers cover members with this label. -/
structure Joins (l0 : List (Str × SigHeaders)) (l : List Signer) (x : Signer) : Prop where
  params : SafeParams x.1
  label : LegalKey x.label
  new : x.label ∉ l0.map Prod.fst ++ l.map Signer.label
  other : ∀ y ∈ l ++ [x], ∀ c ∈ y.1.covered, OtherLabel [x.label] c

/-- A request that carries the signatures `l0` is on its way; the signers `l` have signed it, each where it was then. What they cover was kept since. -/
inductive Trip (l0 : List (Str × SigHeaders)) : List Signer → Request → Request → Prop where
  | start {r} : Trip l0 [] r r
  | way {l ns r r1 r2} : Trip l0 l r r1 → Way ns r1 r2 → Untouched ns → (∀ x ∈ l, ∀ c ∈ x.1.covered, Kept ns r1 r2 c) → Trip l0 l r r2
  | sign {l x r r1 r2} : Trip l0 l r r1 → Joins l0 l x → r1.setSignature x.1 x.2.1 x.2.2 = (r2, .ok ()) → Trip l0 (l ++ [x]) r r2

/-- An answer to the client's request `r`. Each station signs with the request as it came to this station. -/
inductive TripBack (r : Request) (l0 : List (Str × SigHeaders)) : List Signer → Response → Response → Prop where
  | start {s} : TripBack r l0 [] s s
  | way {l ns s s1 s2} : TripBack r l0 l s s1 → WayBack ns s1 s2 → Untouched ns → (∀ x ∈ l, ∀ c ∈ x.1.covered, CParam.req ∉ c.params → Clear ns c) →
      TripBack r l0 l s s2
  | sign {l x there q s s1 s2} : TripBack r l0 l s s1 → Joins l0 l x → Way there r q → (∀ c ∈ x.1.covered, CParam.req ∈ c.params → Kept there r q c) →
      s1.setSignature x.1 x.2.1 x.2.2 (some q) = (s2, .ok ()) → TripBack r l0 (l ++ [x]) s s2

end Verif.Path
