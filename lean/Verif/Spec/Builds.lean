import Verif.Model.KeyText
import Verif.Model.Log
/-!
Builds of the library with and without the feature `rsa-signature` (httpsig/Cargo.toml, httpsig-hyper/Cargo.toml): what may differ.
-/
namespace Verif.Builds

/-- The names that only the build with the feature knows, crypto/mod.rs 52-55. -/
def rsaNames : List Str := [c! "rsa-v1_5-sha256", c! "rsa-pss-sha512"]

/-- An algorithm that both builds have. -/
def Common (a : Alg) : Prop := a.toStr ∉ rsaNames

instance (a : Alg) : Decidable (Common a) := by unfold Common; infer_instance

/-- The key in a PEM text says that it is an RSA key: it has this tag, and the structure read from its content has the identifier rsaEncryption. -/
def RsaSecretDer (P : Prims) (der : Bytes) : Prop := ∃ i, P.pkiOfDer der = some i ∧ i.oid = c! "1.2.840.113549.1.1.1"
def RsaSecretPem (P : Prims) (t : Str) : Prop := ∃ der, P.pem t = some (c! "PRIVATE KEY", der) ∧ RsaSecretDer P der
def RsaPublicPem (P : Prims) (t : Str) : Prop :=
  ∃ der, P.pem t = some (c! "PUBLIC KEY", der) ∧ ∃ i, P.spkiOfDer der = some i ∧ i.oid = c! "1.2.840.113549.1.1.1"

/-- The two errors that may stand for each other: same kind, another text. -/
def mismatch {α : Type} (e : SigErr) : Res SigErrT α := .err ⟨e, c! "Algorithm mismatch"⟩
def unsupported {α : Type} (e : SigErr) : Res SigErrT α := .err ⟨e, c! "Unsupported algorithm"⟩

end Verif.Builds
