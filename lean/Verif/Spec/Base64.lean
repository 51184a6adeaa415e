import Verif.Basic
/-!
Base64 as RFC 4648 section 4 describes it: the bits of the bytes, most significant first, in groups of six, the last
group filled with zero bits, one character of the alphabet per group, `=` up to a multiple of four characters.
-/
namespace Verif.Spec

/-- RFC 4648 table 1. -/
def alphabet : Str := c! "ABCDEFGHIJKLMNOPQRSTUVWXYZabcdefghijklmnopqrstuvwxyz0123456789+/"

/-- The bits of a byte, most significant first. -/
def bits8 (b : UInt8) : List Bool := [7, 6, 5, 4, 3, 2, 1, 0].map (fun i => b.toNat.testBit i)

/-- The number written by a list of bits, most significant first. -/
def bitsVal (l : List Bool) : Nat := l.foldl (fun a b => 2 * a + b.toNat) 0

/-- Groups of six bits, the last one filled with zeros. -/
def sixes : List Bool → List (List Bool)
  | [] => []
  | [a] => [[a, false, false, false, false, false]]
  | [a, b] => [[a, b, false, false, false, false]]
  | [a, b, c] => [[a, b, c, false, false, false]]
  | [a, b, c, d] => [[a, b, c, d, false, false]]
  | [a, b, c, d, e] => [[a, b, c, d, e, false]]
  | a :: b :: c :: d :: e :: f :: t => [a, b, c, d, e, f] :: sixes t

/-- Characters without padding. -/
def base64Raw (b : Bytes) : Str := (sixes (b.flatMap bits8)).map (fun g => alphabet.getD (bitsVal g) '?')

/-- RFC 4648 section 4. -/
def base64 (b : Bytes) : Str :=
  base64Raw b ++ List.replicate ((4 - (base64Raw b).length % 4) % 4) '='

-- RFC 4648 section 10
#guard base64 [102] = c! "Zg=="
#guard base64 [102, 111] = c! "Zm8="
#guard base64 [102, 111, 111] = c! "Zm9v"
#guard base64 [102, 111, 111, 98, 97, 114] = c! "Zm9vYmFy"

end Verif.Spec
