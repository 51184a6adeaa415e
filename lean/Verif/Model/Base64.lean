import Verif.Basic
/-!
Model of the base64 alphabet, the encoder and the two decoders that the code reaches
(crate base64 0.22, standard alphabet):

* encoder with padding: `general_purpose::STANDARD.encode`, used at
  httpsig/src/signature_base.rs 130-135, httpsig/src/signature_params.rs 97-102,
  httpsig/src/crypto/symmetric.rs 43-50, httpsig/src/crypto/asymmetric.rs 408-430,
  and by the byte sequence serializer of sfv;
* strict decoder `STANDARD.decode`, used at httpsig/src/crypto/symmetric.rs 23-33;
* lenient decoder used by the byte sequence parser of sfv 0.14 (padding may be missing or partial,
  trailing bits may be non-zero), reached from httpsig/src/signature_base.rs 32-100 and
  httpsig-hyper/src/hyper_content_digest.rs 220-256.
-/
namespace Verif.Base64

/-- Character of a 6-bit value. -/
def encChar (n : Nat) : Char :=
  if n < 26 then Char.ofNat (65 + n)
  else if n < 52 then Char.ofNat (97 + (n - 26))
  else if n < 62 then Char.ofNat (48 + (n - 52))
  else if n = 62 then '+' else '/'

/-- 6-bit value of a character. -/
def decChar (c : Char) : Option Nat :=
  let n := c.toNat
  if 65 ≤ n ∧ n ≤ 90 then some (n - 65)
  else if 97 ≤ n ∧ n ≤ 122 then some (n - 97 + 26)
  else if 48 ≤ n ∧ n ≤ 57 then some (n - 48 + 52)
  else if c = '+' then some 62
  else if c = '/' then some 63
  else none

/-- Encoder with padding. -/
def encode : Bytes → Str
  | [] => []
  | [a] =>
    let n := a.toNat
    [encChar (n / 4), encChar (n % 4 * 16), '=', '=']
  | [a, b] =>
    let n := a.toNat * 256 + b.toNat
    [encChar (n / 1024), encChar (n / 16 % 64), encChar (n % 16 * 4), '=']
  | a :: b :: c :: t =>
    let n := a.toNat * 65536 + b.toNat * 256 + c.toNat
    encChar (n / 262144) :: encChar (n / 4096 % 64) :: encChar (n / 64 % 64) :: encChar (n % 64) :: encode t

/-- Two characters give one byte. `strict` refuses non-zero trailing bits. -/
def dec2 (strict : Bool) (a b : Char) : Option Bytes :=
  match decChar a, decChar b with
  | some x, some y =>
    if strict ∧ y % 16 ≠ 0 then none else some [UInt8.ofNat (x * 4 + y / 16)]
  | _, _ => none

/-- Three characters give two bytes. -/
def dec3 (strict : Bool) (a b c : Char) : Option Bytes :=
  match decChar a, decChar b, decChar c with
  | some x, some y, some z =>
    if strict ∧ z % 4 ≠ 0 then none
    else some [UInt8.ofNat (x * 4 + y / 16), UInt8.ofNat (y % 16 * 16 + z / 4)]
  | _, _, _ => none

/-- Four characters give three bytes. -/
def dec4 (a b c d : Char) : Option Bytes :=
  match decChar a, decChar b, decChar c, decChar d with
  | some x, some y, some z, some w =>
    some [UInt8.ofNat (x * 4 + y / 16), UInt8.ofNat (y % 16 * 16 + z / 4), UInt8.ofNat (z % 4 * 64 + w)]
  | _, _, _, _ => none

/-- The last, possibly short or padded group. In strict mode the group has four characters. -/
def decLast (strict : Bool) : Str → Option Bytes
  | [] => some []
  | [a, b] => if strict then none else dec2 strict a b
  | [a, b, c] =>
    if strict then none
    else if c = '=' then dec2 strict a b else dec3 strict a b c
  | [a, b, c, d] =>
    if d = '=' then
      if c = '=' then dec2 strict a b else dec3 strict a b c
    else dec4 a b c d
  | _ => none

/-- Decoder: full groups of alphabet characters, then the last group. -/
def decode (strict : Bool) : Str → Option Bytes
  | a :: b :: c :: d :: e :: t =>
    match dec4 a b c d, decode strict (e :: t) with
    | some x, some y => some (x ++ y)
    | _, _ => none
  | s => decLast strict s

#guard encode [102, 111, 111] = c! "Zm9v"
#guard encode [102, 111] = c! "Zm8="
#guard encode [102] = c! "Zg=="
#guard decode true (c! "Zm8=") = some [102, 111]
#guard decode true (c! "Zm8") = none
#guard decode false (c! "Zm8") = some [102, 111]
#guard decode false (c! "Zh==") = some [102]
#guard decode true (c! "Zh==") = none
#guard decode false (c! "Z===") = none
#guard decode false (c! "Zg=") = some [102]
#guard decode false (c! "Zg==Zg==") = none

end Verif.Base64
