import Verif.Proofs.Base64Spec
import Verif.Model.Crypto
/-!
C33 Base64 and signature bytes. `Spec.base64` is RFC 4648 base64, defined on bits.
-/
namespace Verif

/-- What the library writes between the colons of a Signature member is RFC 4648 base64 of the bytes, and the decoder that
reads it back recovers the bytes, for every byte string. -/
theorem C33_signature_bytes_recovered (b : Bytes) :
    Base64.encode b = Spec.base64 b ∧ Base64.decode false (Spec.base64 b) = some b := by
  rw [← Base64.encode_eq_spec]
  exact ⟨rfl, Base64.decode_encode false b⟩

/-- The strict decoder accepts exactly the RFC 4648 encodings. -/
theorem C33_strict_accepts_exactly_canonical (s : Str) (b : Bytes) :
    Base64.decode true s = some b ↔ s = Spec.base64 b := by
  rw [← Base64.encode_eq_spec]
  constructor
  · intro h; exact (Base64.encode_of_decode_strict s b h).symm
  · rintro rfl; exact Base64.decode_encode true b

/-- Import of a shared key: accepted exactly for the canonical encoding of the key bytes, otherwise a decoding error. -/
theorem C33_shared_key_import (s : Str) :
    (∀ k, SharedKey.fromBase64 .hmacSha256 s = .ok (.hmacSha256 k) ↔ s = Spec.base64 k) ∧
    ((∀ k, s ≠ Spec.base64 k) → SharedKey.fromBase64 .hmacSha256 s = .err .base64Decode) := by
  constructor
  · intro k
    rw [← C33_strict_accepts_exactly_canonical]
    unfold SharedKey.fromBase64
    cases h : Base64.decode true s <;> simp
  · intro h
    unfold SharedKey.fromBase64
    cases hd : Base64.decode true s with
    | none => rfl
    | some k => exact absurd ((C33_strict_accepts_exactly_canonical s k).1 hd) (h k)

/-- Distinct byte strings have distinct texts. -/
theorem C33_injective {a b : Bytes} (h : Spec.base64 a = Spec.base64 b) : a = b := by
  have := congrArg (Base64.decode true) h
  rw [(C33_strict_accepts_exactly_canonical _ a).2 rfl, (C33_strict_accepts_exactly_canonical _ b).2 rfl] at this
  injection this

-- concrete cases
example : Spec.base64 [0xfb, 0xff] = c! "+/8=" := by decide
example : Base64.decode true (c! "+/8=") = some [0xfb, 0xff] := by decide
example : Base64.decode true (c! "+/9=") = none := by decide

end Verif
