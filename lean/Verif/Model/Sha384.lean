import Verif.Model.Sha2
/-!
SHA-384 (FIPS 180-4) and HMAC over any hash, as provided by the crates sha2 and hmac (asymmetric.rs 14 and 186-191; HMAC
inside the nonce derivation of the crate ecdsa).
-/
namespace Verif.Sha2

def init384 : St UInt64 :=
  ⟨0xcbbb9d5dc1059ed8, 0x629a292a367cd507, 0x9159015a3070dd17, 0x152fecd8f70e5939,
   0x67332667ffc00b31, 0x8eb44a8768581511, 0xdb0c2e0d64f98fa7, 0x47b5481dbefa4fa4⟩

/-- SHA-384: SHA-512 with other initial values, cut to 48 bytes. -/
def sha384 (m : Bytes) : Bytes :=
  let p := pad 128 16 m
  let s := (chunks 128 (p.length / 128) p).foldl block512 init384
  [s.a, s.b, s.c, s.d, s.e, s.f].flatMap (fun w => beBytes 8 w.toNat)

/-- HMAC (RFC 2104) over a hash `H` with blocks of `block` bytes. -/
def hmacOf (H : Bytes → Bytes) (block : Nat) (k data : Bytes) : Bytes :=
  let k' := if block < k.length then H k else k
  let kb := k' ++ List.replicate (block - k'.length) 0
  H (kb.map (· ^^^ 0x5c) ++ H (kb.map (· ^^^ 0x36) ++ data))

end Verif.Sha2
