import Verif.Model.Timing
/-!
Somebody who sends data and tags to a receiver and watches. What they send next may depend on everything seen before. Beside the library there is a receiver that
compares the usual way and stops at the first difference; it is not code of the repository and serves as a measure of what watching can do.
-/
namespace Verif.Timing

/-- Data, a tag, and what was seen. -/
abbrev Seen (α : Type) := Bytes × Bytes × α

/-- What is sent next. -/
abbrev Sender (α : Type) := List (Seen α) → Bytes × Bytes

/-- The first `n` rounds, the latest first. -/
def talk {α : Type} (see : Bytes → Bytes → α) (A : Sender α) : Nat → List (Seen α)
  | 0 => []
  | n + 1 =>
    let h := talk see A n
    let q := A h
    (q.1, q.2, see q.1 q.2) :: h

/-- Comparison that stops at the first difference. -/
def earlyLoop : Bytes → Bytes → Nat → Bool × List Ev
  | a :: as, b :: bs, i =>
    if a = b then
      let r := earlyLoop as bs (i + 1)
      (r.1, .load i :: .branch true :: r.2)
    else (false, [.load i, .branch false])
  | _, _, _ => (true, [])

/-- A receiver that compares in this way. -/
def earlyRun (k data tag : Bytes) : Bool × List Ev :=
  let m := hmacRun k data
  if tag.length ≠ 32 then (false, m.2 ++ [.branch true])
  else
    let r := earlyLoop m.1 tag 0
    (r.1, m.2 ++ .branch false :: r.2)

end Verif.Timing
