import Verif.Model.Hyper
/-!
Model of the asynchronous layer: `futures::future::join_all` (futures 0.3) as used at hyper_http.rs 295-300, 418-423 and 699, the
`async fn`s around it. `futures::executor::block_on`, used by the blocking wrappers (hyper_http.rs 490-597), is one of the executors
covered: it polls until the future is ready.

A future is a finite state machine: a poll either makes it suspend and continue later, or finish, or panic. The futures of this
library have no suspension point (their `async move` blocks contain no `await`), but nothing here depends on that. Futures share
only immutable data, so polling one does not change another.
-/
namespace Verif

/-- A future. -/
inductive Fut (R : Type) where
  | ready (r : R)
  | panic
  | pend (next : Fut R)
  deriving DecidableEq, Repr

/-- `MaybeDone` of futures: a future or its stored output. -/
inductive Slot (R : Type) where
  | todo (f : Fut R)
  | done (r : R)
  deriving DecidableEq, Repr

/-- What a poll, or a whole run, gives. -/
inductive Out (R : Type) where
  | ready (r : R)
  | panic
  deriving DecidableEq, Repr

/-! ### Up to 30 futures: `JoinAllKind::Small` -/

/-- `MaybeDone::poll`: `none` is a panic. -/
def Slot.poll {R : Type} : Slot R → Option (Slot R)
  | .todo (.ready r) => some (.done r)
  | .todo .panic => none
  | .todo (.pend f) => some (.todo f)
  | .done r => some (.done r)

def Slot.isDone {R : Type} : Slot R → Bool
  | .done _ => true
  | .todo _ => false

def Slot.output {R : Type} : Slot R → Option R
  | .done r => some r
  | .todo _ => none

/-- The loop of `JoinAll::poll`: every element is polled, in order, also when an earlier one is pending. -/
def pollElems {R : Type} : List (Slot R) → Option (List (Slot R))
  | [] => some []
  | s :: t =>
    match s.poll with
    | none => none
    | some s' =>
      match pollElems t with
      | none => none
      | some t' => some (s' :: t')

/-- `JoinAll::poll` for the small kind: the state afterwards (`inl`) or the outcome (`inr`). -/
def pollSmall {R : Type} (l : List (Slot R)) : List (Slot R) ⊕ Out (List R) :=
  match pollElems l with
  | none => .inr .panic
  | some l' => if l'.all Slot.isDone then .inr (.ready (l'.filterMap Slot.output)) else .inl l'

/-- The outcome after at most `n` polls, `none` when still pending. The executor cannot influence the result in any other way than
by the number of polls. -/
def runSmall {R : Type} : Nat → List (Slot R) → Option (Out (List R))
  | 0, _ => none
  | n + 1, l =>
    match pollSmall l with
    | .inl l' => runSmall n l'
    | .inr o => some o

/-! ### More than 30 futures: `FuturesOrdered` collected into a vector -/

/-- `FuturesOrdered`: running futures with their index, the heap of outputs that came early, the next index to give out; and the
vector of `Collect`. -/
structure Big (R : Type) where
  running : List (Nat × Fut R)
  heap : List (Nat × R)
  next : Nat
  out : List R

/-- State of a run. -/
inductive BigState (R : Type) where
  | going (b : Big R)
  | finished (o : Out (List R))

def withIndex {α : Type} (n : Nat) : List α → List (Nat × α)
  | [] => []
  | a :: t => (n, a) :: withIndex (n + 1) t

/-- The start: futures are numbered in input order. -/
def Big.start {R : Type} (fs : List (Fut R)) : Big R := ⟨withIndex 0 fs, [], 0, []⟩

/-- One step of `Collect` over `FuturesOrdered::poll_next`. Which running future is polled next (`poll…`) is up to the executor and
the wakers: any one may be chosen, at any time, again and again. -/
inductive Big.Step {R : Type} : Big R → BigState R → Prop
  /-- the heap's first output is the next one -/
  | pop {b : Big R} {r : R} {h1 h2 : List (Nat × R)} : b.heap = h1 ++ (b.next, r) :: h2 →
      Big.Step b (.going { b with heap := h1 ++ h2, next := b.next + 1, out := b.out ++ [r] })
  /-- a polled future suspends -/
  | pollPending {b : Big R} {i : Nat} {f : Fut R} {r1 r2 : List (Nat × Fut R)} : (∀ r, (b.next, r) ∉ b.heap) →
      b.running = r1 ++ (i, .pend f) :: r2 → Big.Step b (.going { b with running := r1 ++ (i, f) :: r2 })
  /-- a polled future gives the next output -/
  | pollNext {b : Big R} {r : R} {r1 r2 : List (Nat × Fut R)} : (∀ r, (b.next, r) ∉ b.heap) →
      b.running = r1 ++ (b.next, .ready r) :: r2 →
      Big.Step b (.going { b with running := r1 ++ r2, next := b.next + 1, out := b.out ++ [r] })
  /-- a polled future gives an output that is not yet due -/
  | pollEarly {b : Big R} {i : Nat} {r : R} {r1 r2 : List (Nat × Fut R)} : (∀ r, (b.next, r) ∉ b.heap) → i ≠ b.next →
      b.running = r1 ++ (i, .ready r) :: r2 →
      Big.Step b (.going { b with running := r1 ++ r2, heap := (i, r) :: b.heap })
  /-- a polled future panics -/
  | pollPanic {b : Big R} {i : Nat} {r1 r2 : List (Nat × Fut R)} : (∀ r, (b.next, r) ∉ b.heap) →
      b.running = r1 ++ (i, .panic) :: r2 → Big.Step b (.finished .panic)
  /-- nothing is running any more -/
  | finish {b : Big R} : (∀ r, (b.next, r) ∉ b.heap) → b.running = [] → Big.Step b (.finished (.ready b.out))

/-- A run of any number of steps. -/
inductive Big.Run {R : Type} : Big R → BigState R → Prop
  | here (b : Big R) : Big.Run b (.going b)
  | more {a b : Big R} {s : BigState R} : Big.Run a (.going b) → Big.Step b s → Big.Run a s

/-- `JoinAll` completes with this outcome under some schedule. -/
def JoinAll {R : Type} (fs : List (Fut R)) (o : Out (List R)) : Prop :=
  if fs.length ≤ 30 then ∃ n, runSmall n (fs.map .todo) = some o else Big.Run (Big.start fs) (.finished o)

/-! ### The async functions -/

/-- A call that returned, as the output of a future; a panic stays a panic. -/
def Fut.ofRes {ε α : Type} : Res ε α → Fut (Except ε α)
  | .ok a => .ready (.ok a)
  | .err e => .ready (.error e)
  | .panic => .panic

/-- A future that is polled to the end. -/
def Fut.value {R : Type} : Fut R → Out R
  | .ready r => .ready r
  | .panic => .panic
  | .pend f => f.value

/-- The future is an `async` block around this call, with any number of suspensions. -/
def Fut.Computes {ε α : Type} (f : Fut (Except ε α)) (x : Res ε α) : Prop := f.value = (Fut.ofRes x).value

/-- Back to a result. -/
def Out.toRes {ε α : Type} : Out α → Res ε α
  | .ready a => .ok a
  | .panic => .panic

/-- `verify_message_signatures`, hyper_http.rs 330-345, 460-476 and 660-701, as an asynchronous function: an outcome under some
schedule. -/
def VerifyAsync (now : UInt64) (m : Msg) (keys : List (VerifyingKey × Option Str)) (rf : Option Request)
    (o : Res HyperErr (List (Except HyperErr Str))) : Prop :=
  if ¬ hasMessageSignature m.headers then o = .err .noSignatureHeaders
  else match extractSignatures m rf with
    | .err e => o = .err e
    | .panic => o = .panic
    | .ok map => ∃ fs : List (Fut (Except HyperErr Str)), List.Forall₂ (fun f ki => Fut.Computes f (verifyOne now map ki.1 ki.2)) fs keys ∧
        ∃ out, JoinAll fs out ∧ o = out.toRes

/-- Where a call of `set_message_signatures` is. -/
inductive SetPc where
  /-- created, not yet polled -/
  | start
  /-- waiting in `join_all` -/
  | joining (fs : List (Fut (Except SigErr SigHeaders)))
  | finished (r : Res HyperErr Unit)

/-- An element of the joined results for `collect::<Result<Vec<_>, _>>()?`, hyper_http.rs 301-302 and 424-425. -/
def okOrErr : Except SigErr SigHeaders → Res HyperErr SigHeaders
  | .ok h => .ok h
  | .error e => .err (.httpSig e)

/-- hyper_http.rs 301-311 and 424-435: what follows the `await`. -/
def setRest (h : Headers) (rs : List (Except SigErr SigHeaders)) : Headers × SetPc :=
  match Res.collect okOrErr rs with
  | .ok hs => ((appendAll h hs).1, .finished (appendAll h hs).2)
  | .err e => (h, .finished (.err e))
  | .panic => (h, .finished .panic)

/-- One poll of the future of `set_message_signatures`, hyper_http.rs 280-312 and 403-436, up to the next suspension: the message's
header map and the position, before and after. The exclusive borrow of the message lasts until the future is dropped, so nobody else
changes the header map in between. -/
inductive SetStep (m : Msg) (l : List (SigParams × SigningKey × Option Str)) (rf : Option Request) :
    Headers × SetPc → Headers × SetPc → Prop
  | baseErr {h : Headers} {e : HyperErr} : signBases (m.withHeaders h) l rf = .err e → SetStep m l rf (h, .start) (h, .finished (.err e))
  | basePanic {h : Headers} : signBases (m.withHeaders h) l rf = .panic → SetStep m l rf (h, .start) (h, .finished .panic)
  | bases {h : Headers} {bs : List (SigBase × SigningKey × Option Str)} {fs : List (Fut (Except SigErr SigHeaders))} :
      signBases (m.withHeaders h) l rf = .ok bs → List.Forall₂ (fun f b => Fut.Computes f (b.1.headers b.2.1 b.2.2)) fs bs →
      SetStep m l rf (h, .start) (h, .joining fs)
  | panic {h : Headers} {fs : List (Fut (Except SigErr SigHeaders))} : JoinAll fs .panic →
      SetStep m l rf (h, .joining fs) (h, .finished .panic)
  | joined {h : Headers} {fs : List (Fut (Except SigErr SigHeaders))} {rs : List (Except SigErr SigHeaders)} : JoinAll fs (.ready rs) →
      SetStep m l rf (h, .joining fs) (setRest h rs)

/-- Any number of steps of a call on this message; the future may be dropped after any of them. -/
inductive SetRun (m : Msg) (l : List (SigParams × SigningKey × Option Str)) (rf : Option Request) : Headers × SetPc → Prop
  | created : SetRun m l rf (m.headers, .start)
  | more {a b : Headers × SetPc} : SetRun m l rf a → SetStep m l rf a b → SetRun m l rf b

end Verif
