import Verif.Model.Sha2
/-! Lengths of hash values. -/
namespace Verif.Sha2

theorem beBytes_length (n x : Nat) : (beBytes n x).length = n := by
  induction n generalizing x with
  | zero => rfl
  | succ n ih => simp [beBytes, ih]

theorem sha256_length (m : Bytes) : (sha256 m).length = 32 := by
  simp only [sha256, List.flatMap_cons, List.flatMap_nil, List.length_append, beBytes_length, List.length_nil]

theorem sha512_length (m : Bytes) : (sha512 m).length = 64 := by
  simp only [sha512, List.flatMap_cons, List.flatMap_nil, List.length_append, beBytes_length, List.length_nil]

theorem hmac_length (k m : Bytes) : (hmac k m).length = 32 := sha256_length _

end Verif.Sha2
