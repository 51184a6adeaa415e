import Verif.Model.Digest
/-!
Bodies as streams of frames: `http_body::Body` 1.0, `BodyExt::collect`, `Collected` and `Full` of http-body-util 0.1, as far as
httpsig-hyper/src/hyper_content_digest.rs uses them. A body is the finite list of what its `poll_frame` returns; the list's end is
`Ready(None)`.
-/
namespace Verif

/-- `http_body::Frame`: data or trailers. -/
inductive Frame where
  | data (b : Bytes)
  | trailers (h : Headers)
  deriving DecidableEq

/-- One answer of `poll_frame` that is not the end of the body. -/
inductive BodyPoll where
  | pending
  | frame (f : Frame)
  | error
  deriving DecidableEq

abbrev Stream := List BodyPoll

/-- `Collected`: the data buffers in order and the trailers. -/
structure Collected where
  bufs : List Bytes := []
  trailers : Option Headers := none
  deriving DecidableEq

/-- `Collected::push_frame`: empty data is skipped, trailers are joined. Simplified: the library joins equal names of several trailer
frames in its own way; no function here reads the trailers. -/
def Collected.push (c : Collected) : Frame → Collected
  | .data b => if b = [] then c else { c with bufs := c.bufs ++ [b] }
  | .trailers h => { c with trailers := some ((c.trailers.getD []) ++ h) }

/-- `Collected::to_bytes`: a copy of the buffers; the trailers are dropped with the value. -/
def Collected.toBytes (c : Collected) : Bytes := c.bufs.flatten

/-- What one poll of the `Collect` future gives. -/
inductive CollectPoll where
  | pending (c : Collected) (rest : Stream)
  | done (c : Collected)
  | error

/-- `Collect::poll`: takes frames until the body is pending, fails or ends. -/
def collectPoll (c : Collected) : Stream → CollectPoll
  | [] => .done c
  | .pending :: t => .pending c t
  | .frame f :: t => collectPoll (c.push f) t
  | .error :: _ => .error

/-- The `Collect` future after at most `n` polls; `none` if it is still pending. -/
def collectN : Nat → Collected → Stream → Option (Except Unit Collected)
  | 0, _, _ => none
  | n + 1, c, s =>
    match collectPoll c s with
    | .done c' => some (.ok c')
    | .error => some (.error ())
    | .pending c' t => collectN n c' t

/-- `into_bytes`, hyper_content_digest.rs 18-24, after at most `n` polls. -/
def intoBytes (n : Nat) (s : Stream) : Option (Except Unit Bytes) :=
  match collectN n {} s with
  | none => none
  | some (.error e) => some (.error e)
  | some (.ok c) => some (.ok c.toBytes)

/-- `into_bytes_with_digest`, hyper_content_digest.rs 27-41. -/
def intoBytesWithDigest (n : Nat) (t : DigestType) (s : Stream) : Option (Except Unit (Bytes × Str)) :=
  match intoBytes n s with
  | none => none
  | some (.error e) => some (.error e)
  | some (.ok b) => some (.ok (b, Base64.encode (deriveDigest b t)))

/-- `Full::new` as a stream: one data frame, none for empty data. -/
def fullStream (b : Bytes) : Stream := if b = [] then [] else [.frame (.data b)]

/-- `set_content_digest`, hyper_content_digest.rs 111-128 and 166-182, after at most `n` polls. The `unwrap` is `panic`. -/
def setDigestF (n : Nat) (t : DigestType) (h : Headers) (s : Stream) : Option (Res DigestErr (Headers × Stream)) :=
  match intoBytesWithDigest n t s with
  | none => none
  | some (.error _) => some (.err .httpBody)
  | some (.ok x) =>
    match hvOfStr (t.toStr ++ c! "=:" ++ x.2 ++ c! ":") with
    | none => some .panic
    | some v => some (.ok (h.insert hContentDigest v, fullStream x.1))

/-- `verify_content_digest`, hyper_content_digest.rs 132-155 and 183-207, after at most `n` polls. -/
def verifyDigestF (n : Nat) (h : Headers) (s : Stream) : Option (Res DigestErr (Headers × Stream)) :=
  match extractDigest h with
  | .err e => if n = 0 then none else some (.err e)
  | .panic => if n = 0 then none else some .panic
  | .ok te =>
    match intoBytes n s with
    | none => none
    | some (.error _) => some (.err .httpBody)
    | some (.ok b) =>
      if isEqualDigest (deriveDigest b te.1) te.2 then some (.ok (h, fullStream b))
      else some (.err .invalidContentDigest)

end Verif
