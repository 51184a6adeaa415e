import Verif.Model.Digest
import Verif.Model.Crypto
/-!
The comparison of digests and the check of an HMAC with what can be observed of their run: which way each branch goes, which places of the compared arrays are
read, and how many blocks are hashed. One call of the compression function of SHA-256 is one step: it is code without branches. The crates `subtle` 2.6 and
`hmac` 0.12 (`digest` 0.10) are modelled after their documentation.
-/
namespace Verif.Timing

/-- A step that can be observed. -/
inductive Ev where
  | branch (b : Bool)
  | load (i : Nat)
  | block
  deriving DecidableEq, Repr

/-- `u8::ct_eq` of `subtle`: the result without a branch. -/
def ctByte (a b : UInt8) : UInt8 :=
  let x := a ^^^ b
  let y := (x ||| (0 - x)) >>> 7
  y ^^^ 1

/-- The loop of `<[u8]>::ct_eq` of `subtle`. -/
def ctLoop : Bytes → Bytes → Nat → UInt8 → UInt8 × List Ev
  | a :: as, b :: bs, i, x =>
    let r := ctLoop as bs (i + 1) (x &&& ctByte a b)
    (r.1, .load i :: r.2)
  | _, _, _, x => (x, [])

/-- `<[u8]>::ct_eq` of `subtle`. -/
def ctEq (a b : Bytes) : UInt8 × List Ev :=
  if a.length ≠ b.length then (0, [.branch true])
  else
    let r := ctLoop a b 0 1
    (r.1, .branch false :: r.2)

/-- `is_equal_digest`, hyper_content_digest.rs 211-218. -/
def isEqualDigestRun (a b : Bytes) : Bool × List Ev :=
  if a.length ≠ b.length then (false, [.branch true])
  else
    let r := ctEq a b
    (r.1 != 0, .branch false :: r.2)

/-- SHA-256 of bytes: padding adds at least nine bytes, and each block of 64 is one call. -/
def hashRun (d : Bytes) : Bytes × List Ev := (Sha2.sha256 d, List.replicate ((d.length + 72) / 64) .block)

/-- HMAC-SHA256: a key longer than a block is hashed first. -/
def hmacRun (k data : Bytes) : Bytes × List Ev :=
  let kh : Bytes × List Ev := if k.length > 64 then ((hashRun k).1, .branch true :: (hashRun k).2) else (k, [.branch false])
  let kb := kh.1 ++ List.replicate (64 - kh.1.length) 0
  let inner := hashRun (kb.map (· ^^^ 0x36) ++ data)
  let outer := hashRun (kb.map (· ^^^ 0x5c) ++ inner.1)
  (outer.1, kh.2 ++ (inner.2 ++ outer.2))

/-- `verify`, symmetric.rs 61-72, with `verify_slice`: the length, then the comparison, then a branch on its result. Simplified: all hashing is put before the
check of the length. -/
def verifyRun : SharedKey → Bytes → Bytes → Res SigErr Unit × List Ev
  | .hmacSha256 k, data, tag =>
    let m := hmacRun k data
    if tag.length ≠ 32 then (.err .invalidSignature, m.2 ++ [.branch true])
    else
      let r := ctEq m.1 tag
      if r.1 != 0 then (.ok (), m.2 ++ .branch false :: (r.2 ++ [.branch true]))
      else (.err .invalidSignature, m.2 ++ .branch false :: (r.2 ++ [.branch false]))

end Verif.Timing
