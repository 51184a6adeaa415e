import Verif.Basic
import Verif.Spec.Sha
import Mathlib.Data.List.Forall2
/-!
The parts of DER (X.690) and the key structures written in it: PKCS #8 (RFC 5208, RFC 5958), SubjectPublicKeyInfo (RFC 5280),
ECPrivateKey (RFC 5915), RSA keys (RFC 8017 A.1); and PEM (RFC 7468). Relations between bytes and what they stand for.
-/
namespace Verif.Spec.Asn1
open Verif.Spec.Sha (beVal)

/-- Length octets, X.690 10.1: one octet below 128, otherwise a count and the number without leading zeros. -/
def Length (n : Nat) (b : Bytes) : Prop :=
  (n < 128 ∧ ∃ x, b = [x] ∧ x.toNat = n) ∨
  (128 ≤ n ∧ ∃ x t, b = x :: t ∧ x.toNat = 128 + t.length ∧ t.head? ≠ some 0 ∧ beVal t = n)

/-- An element with the given tag and contents. -/
def Elem (tag : UInt8) (c b : Bytes) : Prop := ∃ l, Length c.length l ∧ b = tag :: l ++ c

/-- Contents of an INTEGER that is not negative, X.690 8.3: two's complement, the first nine bits are not all zero. -/
def IntContents (n : Nat) (c : Bytes) : Prop :=
  beVal c = n ∧ ∃ x t, c = x :: t ∧ x.toNat < 128 ∧ (x = 0 → ∀ y, t.head? = some y → 128 ≤ y.toNat)

def Integer (n : Nat) (b : Bytes) : Prop := ∃ c, IntContents n c ∧ Elem 2 c b

/-- One number of an object identifier, X.690 8.19.2: seven bits in each byte, the top bit says that more follow. The rule that the first byte is
not 128 is left to the reader. -/
def Sub (n : Nat) (g : Bytes) : Prop :=
  ∃ hi lo, g = hi ++ [lo] ∧ (∀ x ∈ hi, 128 ≤ UInt8.toNat x) ∧ lo.toNat < 128 ∧
    n = g.foldl (fun a x => a * 128 + x.toNat % 128) 0

/-- Contents of an OBJECT IDENTIFIER, X.690 8.19: the first two numbers are joined. -/
def Oid : List Nat → Bytes → Prop
  | a :: b :: t, c => a ≤ 2 ∧ (a < 2 → b < 40) ∧ ∃ gs, List.Forall₂ Sub ((40 * a + b) :: t) gs ∧ c = gs.flatten
  | _, _ => False

/-- id-ecPublicKey, id-Ed25519, rsaEncryption, secp256r1 and secp384r1 (RFC 5480, RFC 8410, RFC 8017). -/
def ecPublicKey : List Nat := [1, 2, 840, 10045, 2, 1]
def ed25519 : List Nat := [1, 3, 101, 112]
def rsaEncryption : List Nat := [1, 2, 840, 113549, 1, 1, 1]
def secp256r1 : List Nat := [1, 2, 840, 10045, 3, 1, 7]
def secp384r1 : List Nat := [1, 3, 132, 0, 34]

/-- Contents of an AlgorithmIdentifier: the identifier and at most one element of parameters, given by tag and contents. -/
def AlgorithmIdentifier (o : Bytes) (params : Option (UInt8 × Bytes)) (c : Bytes) : Prop :=
  ∃ x, Elem 6 o x ∧ match params with
    | none => c = x
    | some (t, p) => ∃ y, Elem t p y ∧ c = x ++ y

/-- Contents of a PrivateKeyInfo; `rest` is what follows the key. -/
def PrivateKeyInfo (v : Nat) (o : Bytes) (params : Option (UInt8 × Bytes)) (key rest c : Bytes) : Prop :=
  ∃ x a y z, Integer v x ∧ AlgorithmIdentifier o params a ∧ Elem 0x30 a y ∧ Elem 4 key z ∧ c = x ++ y ++ z ++ rest

/-- Contents of a SubjectPublicKeyInfo whose key is whole bytes: the first byte of the BIT STRING counts unused bits. -/
def SubjectPublicKeyInfo (o : Bytes) (params : Option (UInt8 × Bytes)) (key c : Bytes) : Prop :=
  ∃ a y z, AlgorithmIdentifier o params a ∧ Elem 0x30 a y ∧ Elem 3 (0 :: key) z ∧ c = y ++ z

/-- An ECPrivateKey; `rest` is what follows the key. -/
def EcPrivateKey (key rest b : Bytes) : Prop :=
  ∃ x y, Integer 1 x ∧ Elem 4 key y ∧ Elem 0x30 (x ++ y ++ rest) b

/-- Contents of an RSAPublicKey. -/
def RsaPublicKey (n e : Nat) (c : Bytes) : Prop := ∃ x y, Integer n x ∧ Integer e y ∧ c = x ++ y

/-- Contents of an RSAPrivateKey with two primes. -/
def RsaPrivateKey (n e d p q dp dq qi : Nat) (c : Bytes) : Prop :=
  ∃ bs, List.Forall₂ Integer [0, n, e, d, p, q, dp, dq, qi] bs ∧ c = bs.flatten

/-! ### PEM -/

/-- Lines of a text: ended by LF, one CR before it belongs to the line end. -/
def Lines (s : Str) (ls : List Str) : Prop :=
  ∃ raw, raw ≠ [] ∧ s = List.intercalate ['\n'] raw ∧ (∀ l ∈ raw, '\n' ∉ l) ∧
    List.Forall₂ (fun r l => r = l ++ ['\r'] ∨ (r = l ∧ l.getLast? ≠ some '\r')) raw ls

/-- A PEM text: the text of the body is in the lines between the boundaries; one empty line may follow. -/
def Pem (label : Str) (body : List Str) (s : Str) : Prop :=
  ∃ e, (e = [] ∨ e = [[]]) ∧
    Lines s ((c! "-----BEGIN " ++ label ++ c! "-----") :: body ++ (c! "-----END " ++ label ++ c! "-----") :: e)

end Verif.Spec.Asn1
