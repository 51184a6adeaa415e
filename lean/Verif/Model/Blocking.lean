import Verif.Model.JoinAll
/-!
Model of the blocking wrappers, hyper_http.rs 137-240 and 489-598: each is `futures::executor::block_on` around the asynchronous call.

`block_on` (futures-executor 0.3, local_pool.rs and enter.rs; the source is not installed) keeps a flag per thread. It panics if the
flag is set (`enter().expect(..)`), else sets it, polls until the future is ready, and clears it on the way out, also when
unwinding. The flag belongs to this crate: other runtimes neither set nor read it.
-/
namespace Verif

/-- `block_on` on a thread with this flag. `run e` relates a call polled with flag `e` to its outcomes; `bad` is the outcome of a panic. The last
argument is the flag afterwards. -/
inductive BlockOn {α : Type} (run : Bool → α → Prop) (bad : α) : Bool → α → Bool → Prop where
  /-- `enter` fails -/
  | refused : BlockOn run bad true bad true
  /-- `Enter` is dropped at the end -/
  | ran {a : α} : run true a → BlockOn run bad false a false

/-- What a thread may be in the middle of: a `block_on` of crate futures, or another runtime such as tokio. -/
inductive Runtime where
  | futures
  | other
  deriving DecidableEq, Repr

/-- Code that runs on a thread inside these, the outermost first. -/
def Within {α : Type} (code : Bool → α → Prop) (bad : α) : List Runtime → Bool → α → Prop
  | [], e => code e
  | .other :: fs, e => Within code bad fs e
  | .futures :: fs, e => fun a => ∃ e', BlockOn (Within code bad fs) bad e a e'

/-- Keys may be given by the application (crypto/mod.rs 61-73) and may use `block_on` themselves, so what they do depends on the flag. -/
abbrev Signers := Bool → List (SigParams × SigningKey × Option Str)
abbrev Verifiers := Bool → List (VerifyingKey × Option Str)

/-- `set_message_signatures`, polled to the end on a thread with this flag. -/
def SetAsync (m : Msg) (l : Signers) (rf : Option Request) (e : Bool) (a : Headers × Res HyperErr Unit) : Prop := SetRun m (l e) rf (a.1, .finished a.2)

/-- `set_message_signatures_sync`, hyper_http.rs 507-516 and 558-569; with one element `set_message_signature_sync`, 494-505 and 543-556. -/
def SetSync (m : Msg) (l : Signers) (rf : Option Request) (e : Bool) (a : Headers × Res HyperErr Unit) : Prop :=
  ∃ e', BlockOn (SetAsync m l rf) (m.headers, .panic) e a e'

/-- `verify_message_signatures_sync`, hyper_http.rs 526-535 and 585-596. -/
def VerifySync (now : UInt64) (m : Msg) (keys : Verifiers) (rf : Option Request) (e : Bool) (o : Res HyperErr (List (Except HyperErr Str))) : Prop :=
  ∃ e', BlockOn (fun e => VerifyAsync now m (keys e) rf) .panic e o e'

/-- `verify_message_signature`, hyper_http.rs 318-328 and 442-458, asynchronous, with the `.pop().unwrap()`. -/
def VerifyOneAsync (now : UInt64) (m : Msg) (k : VerifyingKey) (id : Option Str) (rf : Option Request) (o : Res HyperErr Str) : Prop :=
  ∃ l, VerifyAsync now m [(k, id)] rf l ∧ o = l >>= fun l =>
    match l.getLast? with
    | some (.ok n) => .ok n
    | some (.error e) => .err e
    | none => .panic

/-- `verify_message_signature_sync`, hyper_http.rs 518-524 and 571-583. -/
def VerifyOneSync (now : UInt64) (m : Msg) (k : Bool → VerifyingKey) (id : Option Str) (rf : Option Request) (e : Bool) (o : Res HyperErr Str) : Prop :=
  ∃ e', BlockOn (fun e => VerifyOneAsync now m (k e) id rf) .panic e o e'

/-- A key of the application that waits for something with `block_on` before it signs. -/
def waitingSigner (k : SigningKey) (e : Bool) : SigningKey := { k with sign := fun d => if e then .panic else k.sign d }
/-- The same before it verifies. -/
def waitingVerifier (k : VerifyingKey) (e : Bool) : VerifyingKey := { k with verify := fun d s => if e then .panic else k.verify d s }

end Verif
