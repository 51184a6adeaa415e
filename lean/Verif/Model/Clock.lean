import Verif.Model.Hyper
/-!
Verification as the code does it with respect to time: `is_expired` (httpsig/src/signature_params.rs 114-120) reads the system clock
each time it is called, and only if `expires` is present. So every candidate signature has its own reading. A reading is `none` if the
clock stands before 1970, where `duration_since(UNIX_EPOCH).unwrap()` panics. `clk` gives the reading for each label; labels are
distinct in the map, so this covers every sequence of readings of the verification with one key. Readings of different keys are
independent of each other: a batch has one `clk` per key.
-/
namespace Verif

/-- `is_expired`, signature_params.rs 114-120, with the reading that this call would see. -/
def SigParams.isExpiredClk (t : Option UInt64) (p : SigParams) : Res SigErr Bool :=
  match p.expires with
  | none => .ok false
  | some e =>
    match t with
    | none => .panic
    | some now => .ok (decide (e < now))

/-- `verify_signature_headers`, signature_base.rs 202-214. -/
def SigBase.verifyClk (t : Option UInt64) (b : SigBase) (k : VerifyingKey) (h : SigHeaders) : Res SigErr Unit := do
  let x ← h.params.isExpiredClk t
  if x then .err .expiredSignatureParams else k.verify b.bytes h.signature

/-- The verification of one key, hyper_http.rs 679-697. -/
def verifyOneClk (clk : Str → Option UInt64) (map : List (Str × (SigBase × SigHeaders))) (k : VerifyingKey) (i : Option Str) :
    Res HyperErr Str :=
  let filtered := filterKeyId map i
  if filtered = [] then .err .noSignatureHeaders
  else
    match (Res.filterOk (fun kv => do kv.2.1.verifyClk (clk kv.1) k kv.2.2; Res.ok kv.1) filtered : Res HyperErr (List Str)) with
    | .ok names =>
      match isOfList names with
      | [] => .err .invalidSignature
      | n :: _ => .ok n
    | .err e => .err e
    | .panic => .panic

/-- `verify_message_signatures`, hyper_http.rs 330-345 and 460-476; each key comes with the readings it sees. -/
def verifySignaturesClk (m : Msg) (keys : List ((VerifyingKey × Option Str) × (Str → Option UInt64))) (reqFor : Option Request) :
    Res HyperErr (List (Except HyperErr Str)) :=
  if ¬ hasMessageSignature m.headers then .err .noSignatureHeaders
  else do
    let map ← extractSignatures m reqFor
    gather (keys.map (fun x => verifyOneClk x.2 map x.1.1 x.1.2))

/-- `verify_message_signature`, hyper_http.rs 318-328 and 442-458. -/
def verifySignatureClk (clk : Str → Option UInt64) (m : Msg) (k : VerifyingKey) (i : Option Str) (reqFor : Option Request) :
    Res HyperErr Str := do
  let l ← verifySignaturesClk m [((k, i), clk)] reqFor
  match l.getLast? with
  | some (.ok n) => .ok n
  | some (.error e) => .err e
  | none => .panic

end Verif
