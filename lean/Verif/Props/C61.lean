import Verif.Proofs.Sha256
import Verif.Proofs.Sha384
import Verif.Props.C19
import Verif.Model.Crypto
/-!
C61: the hash functions and HMAC of the model are those of FIPS 180-4 and RFC 2104 as written down in `Spec/Sha.lean`, where the
constants are described by roots of primes.
-/
namespace Verif
open Spec Spec.Sha Sha2

/-- C61: SHA-256. The standard defines it for messages below 2^64 bits. -/
theorem C61_sha256 (V : Variant 32) (hV : IsSha256 V) (m d : Bytes) (hm : 8 * m.length < 2 ^ 64) : Digest V m d ↔ d = sha256 m :=
  S256.digest V hV m d hm

/-- C61: SHA-512. -/
theorem C61_sha512 (V : Variant 64) (hV : IsSha512 V) (m d : Bytes) (hm : 8 * m.length < 2 ^ 128) : Digest V m d ↔ d = sha512 m :=
  S512.digest V hV m d hm

/-- C61: SHA-384. -/
theorem C61_sha384 (V : Variant 64) (hV : IsSha384 V) (m d : Bytes) (hm : 8 * m.length < 2 ^ 128) : Digest384 V m d ↔ d = sha384 m :=
  S384.digest V hV m d hm

/-- The standard's functions exist. -/
theorem C61_exists : (∃ V, IsSha256 V) ∧ (∃ V, IsSha384 V) ∧ ∃ V, IsSha512 V := ⟨⟨_, S256.isSha⟩, ⟨_, S384.isSha⟩, ⟨_, S512.isSha⟩⟩

theorem filled_iff (k kb : Bytes) (hk : k.length ≤ 64) : Filled k kb ↔ kb = k ++ List.replicate (64 - k.length) 0 := by
  constructor
  · rintro ⟨hl, z, rfl⟩
    rw [List.length_append, List.length_replicate] at hl
    rw [show z = 64 - k.length by omega]
  · rintro rfl
    exact ⟨by rw [List.length_append, List.length_replicate]; omega, _, rfl⟩

theorem keyBlock_iff (V : Variant 32) (hV : IsSha256 V) (k kb : Bytes) (hk : 8 * k.length < 2 ^ 64) : KeyBlock V k kb ↔ kb = hmacKey k := by
  unfold KeyBlock hmacKey
  by_cases h : 64 < k.length
  · rw [if_pos h]
    simp only
    have hl : (sha256 k).length ≤ 64 := by rw [S256.sha_length]; omega
    constructor
    · rintro (⟨h', _⟩ | ⟨_, d, hd, hf⟩)
      · omega
      · rw [(C61_sha256 V hV k d hk).1 hd] at hf
        exact (filled_iff _ _ hl).1 hf
    · rintro rfl
      exact Or.inr ⟨h, _, (C61_sha256 V hV k _ hk).2 rfl, (filled_iff _ _ hl).2 rfl⟩
  · rw [if_neg h]
    simp only
    constructor
    · rintro (⟨_, hf⟩ | ⟨h', _⟩)
      · exact (filled_iff _ _ (by omega)).1 hf
      · omega
    · rintro rfl
      exact Or.inl ⟨by omega, (filled_iff _ _ (by omega)).2 rfl⟩

theorem hmacKey_length (k : Bytes) : (hmacKey k).length = 64 := by
  unfold hmacKey
  simp only [List.length_append, List.length_replicate]
  split
  · rw [S256.sha_length]
  · omega

/-- C61: HMAC-SHA256, for keys and texts within the limit of SHA-256. -/
theorem C61_hmac (V : Variant 32) (hV : IsSha256 V) (k text tag : Bytes) (hk : 8 * k.length < 2 ^ 64) (ht : 8 * (64 + text.length) < 2 ^ 64) :
    Spec.Sha.Hmac V k text tag ↔ tag = hmac k text := by
  have h1 : 8 * ((hmacKey k).map (· ^^^ 0x36) ++ text).length < 2 ^ 64 := by
    rw [List.length_append, List.length_map, hmacKey_length]; exact ht
  have h2 : 8 * ((hmacKey k).map (· ^^^ 0x5c) ++ sha256 ((hmacKey k).map (· ^^^ 0x36) ++ text)).length < 2 ^ 64 := by
    rw [List.length_append, List.length_map, hmacKey_length, S256.sha_length]; decide
  unfold Spec.Sha.Hmac hmac
  constructor
  · rintro ⟨kb, inner, hb, hi, ho⟩
    rw [(keyBlock_iff V hV k kb hk).1 hb] at hi ho
    rw [(C61_sha256 V hV _ _ h1).1 hi] at ho
    exact (C61_sha256 V hV _ _ h2).1 ho
  · rintro rfl
    exact ⟨_, _, (keyBlock_iff V hV k _ hk).2 rfl, (C61_sha256 V hV _ _ h1).2 rfl, (C61_sha256 V hV _ _ h2).2 rfl⟩

/-- C61: a shared key accepts exactly the tag of RFC 2104. -/
theorem C61_shared_key_verify (V : Variant 32) (hV : IsSha256 V) (k text tag : Bytes) (hk : 8 * k.length < 2 ^ 64)
    (ht : 8 * (64 + text.length) < 2 ^ 64) :
    (SharedKey.hmacSha256 k).verify text tag = .ok () ↔ Spec.Sha.Hmac V k text tag := by
  rw [C61_hmac V hV k text tag hk ht]
  unfold SharedKey.verify
  split
  all_goals simp_all

/-- C61: the key id of a shared key is the base64 text of its SHA-256. -/
theorem C61_shared_key_id (V : Variant 32) (hV : IsSha256 V) (k d : Bytes) (hk : 8 * k.length < 2 ^ 64) (hd : Digest V k d) :
    (SharedKey.hmacSha256 k).keyId = Base64.encode d := by
  rw [(C61_sha256 V hV k d hk).1 hd]; rfl

/-- What a digest type stands for. -/
def StdDigest (V : Variant 32) (V' : Variant 64) : DigestType → Bytes → Bytes → Prop
  | .sha256 => Digest V
  | .sha512 => Digest V'

/-- C61: content digests are verified against the standard's hash of the body. -/
theorem C61_content_digest (V : Variant 32) (V' : Variant 64) (hV : IsSha256 V) (hV' : IsSha512 V') (r r' : Request)
    (b : Bytes) (hb : r.body = .data b) (hl : 8 * b.length < 2 ^ 64) :
    r.verifyContentDigest = .ok r' ↔
      r' = r ∧ ∃ t v d, (lines r.headers (c! "content-digest")).head? = some v ∧ States v t d ∧ StdDigest V V' t b d := by
  have key : ∀ t d, StdDigest V V' t b d ↔ d = hashOf t b := by
    intro t d
    cases t with
    | sha256 => exact C61_sha256 V hV b d hl
    | sha512 => exact C61_sha512 V' hV' b d (Nat.lt_trans hl (by decide))
  rw [C20_request_verify_exact]
  simp only [key]
  constructor
  · rintro ⟨h, b', t, v, hb', hv, hs⟩
    rw [hb] at hb'; injection hb' with hb'; subst hb'
    exact ⟨h, t, v, _, hv, hs, rfl⟩
  · rintro ⟨h, t, v, d, hv, hs, rfl⟩
    exact ⟨h, b, t, v, hb, hv, hs⟩

/-! Known answers: FIPS 180-4 examples and RFC 4231 test cases 2 and 6. -/

example : sha256 [] = [227, 176, 196, 66, 152, 252, 28, 20, 154, 251, 244, 200, 153, 111, 185, 36, 39, 174, 65, 228, 100, 155, 147, 76,
    164, 149, 153, 27, 120, 82, 184, 85] := by decide +kernel

theorem C61_abc256 : sha256 [97, 98, 99] = [186, 120, 22, 191, 143, 1, 207, 234, 65, 65, 64, 222, 93, 174, 34, 35, 176, 3, 97, 163, 150,
    23, 122, 156, 180, 16, 255, 97, 242, 0, 21, 173] := by decide +kernel

-- two blocks
example : sha256 (utf8 (c! "abcdbcdecdefdefgefghfghighijhijkijkljklmklmnlmnomnopnopq")) =
    [36, 141, 106, 97, 210, 6, 56, 184, 229, 192, 38, 147, 12, 62, 96, 57, 163, 60, 228, 89, 100, 255, 33, 103, 246, 236, 237, 212, 25,
      219, 6, 193] := by decide +kernel

theorem C61_abc512 : sha512 [97, 98, 99] = [221, 175, 53, 161, 147, 97, 122, 186, 204, 65, 115, 73, 174, 32, 65, 49, 18, 230, 250, 78, 137,
    169, 126, 162, 10, 158, 238, 230, 75, 85, 211, 154, 33, 146, 153, 42, 39, 79, 193, 168, 54, 186, 60, 35, 163, 254, 235, 189, 69, 77, 68,
    35, 100, 60, 232, 14, 42, 154, 201, 79, 165, 76, 164, 159] := by decide +kernel

theorem C61_abc384 : sha384 [97, 98, 99] = [203, 0, 117, 63, 69, 163, 94, 139, 181, 160, 61, 105, 154, 198, 80, 7, 39, 44, 50, 171, 14, 222,
    209, 99, 26, 139, 96, 90, 67, 255, 91, 237, 128, 134, 7, 43, 161, 231, 204, 35, 88, 186, 236, 161, 52, 200, 37, 167] := by
  decide +kernel

theorem C61_hmac_jefe : hmac (utf8 (c! "Jefe")) (utf8 (c! "what do ya want for nothing?")) =
    [91, 220, 193, 70, 191, 96, 117, 78, 106, 4, 36, 38, 8, 149, 117, 199, 90, 0, 63, 8, 157, 39, 57, 131, 157, 236, 88, 185, 100, 236, 56,
      67] := by decide +kernel

theorem C61_hmac_long_key :
    hmac (List.replicate 131 0xaa) (utf8 (c! "Test Using Larger Than Block-Size Key - Hash Key First")) =
      [96, 228, 49, 89, 30, 224, 182, 127, 13, 138, 38, 170, 203, 245, 183, 127, 142, 11, 198, 33, 55, 40, 197, 20, 5, 70, 4, 15, 14, 227,
        127, 84] := by decide +kernel

end Verif
