import Verif.Spec.Grammar
import Verif.Spec.Sfv
/-!
The canonical texts of RFC 9651 section 4.1, as restrictions of the grammar: of all texts that denote a value, the one that
section 4.1 writes. No needless zeros, no sign on zero, full padding, `%` escapes only where they are needed, no space after `;`,
one space between items, a comma and a space between members, `true` left out, no repeated key.
-/
namespace Verif.Grammar
open Sfv Spec

/-- No needless leading zero. -/
def NoLead (ds : Str) : Prop := ds = ['0'] ∨ ds.head? ≠ some '0'

/-- No needless zero at the end of a fraction. -/
def NoTrail (fs : Str) : Prop := fs.length = 1 ∨ fs.getLast? ≠ some '0'

/-- A display string escapes exactly the bytes that it must. -/
inductive CanonDisplay : Bytes → Str → Prop where
  | nil : CanonDisplay [] []
  | plain {c b t} : Printable c → c ≠ '"' → c ≠ '%' → CanonDisplay b t → CanonDisplay (UInt8.ofNat c.toNat :: b) (c :: t)
  | percent {h l x y b t} : hexDigits[x]? = some h → hexDigits[y]? = some l →
      16 * x + y < 0x20 ∨ 0x7e < 16 * x + y ∨ 16 * x + y = 0x22 ∨ 16 * x + y = 0x25 → CanonDisplay b t →
      CanonDisplay (UInt8.ofNat (16 * x + y) :: b) ('%' :: h :: l :: t)

inductive CanonBare : Bare → Str → Prop where
  | int {neg ds} : Digits 1 15 ds → NoLead ds → (numeral ds = 0 → neg = false) →
      CanonBare (.int (signed neg (numeral ds))) (sign neg ++ ds)
  | dec {neg ds fs} : Digits 1 12 ds → NoLead ds → Digits 1 3 fs → NoTrail fs → (numeral (ds ++ fs) = 0 → neg = false) →
      CanonBare (.dec (signed neg (numeral (ds ++ fs ++ List.replicate (3 - fs.length) '0')))) (sign neg ++ ds ++ '.' :: fs)
  | str {s t} : StringBody s t → CanonBare (.str s) ('"' :: t ++ ['"'])
  | tok {s} : TokenText s → CanonBare (.tok s) s
  | bytes {b} : CanonBare (.bytes b) (':' :: base64 b ++ [':'])
  | yes : CanonBare (.bool true) ['?', '1']
  | no : CanonBare (.bool false) ['?', '0']
  | date {neg ds} : Digits 1 15 ds → NoLead ds → (numeral ds = 0 → neg = false) →
      CanonBare (.date (signed neg (numeral ds))) ('@' :: sign neg ++ ds)
  | disp {b t} : CanonDisplay b t → (∃ s : Str, b = utf8 s) → CanonBare (.disp b) ('%' :: '"' :: t ++ ['"'])

/-- Parameters: no space, `true` left out. -/
inductive CanonParams : Params → Str → Prop where
  | nil : CanonParams [] []
  | flag {k ps t} : LegalKey k → CanonParams ps t → CanonParams ((k, .bool true) :: ps) (';' :: k ++ t)
  | value {k v b ps t} : LegalKey k → v ≠ .bool true → CanonBare v b → CanonParams ps t →
      CanonParams ((k, v) :: ps) (';' :: k ++ '=' :: b ++ t)

/-- Keys do not repeat. -/
def Distinct {α : Type} (m : List (Str × α)) : Prop := (m.map Prod.fst).Nodup

def CanonItem (i : Item) (t : Str) : Prop :=
  ∃ b p, CanonBare i.bare b ∧ CanonParams i.params p ∧ Distinct i.params ∧ t = b ++ p

/-- Items with one space between them. -/
inductive CanonItems : List Item → Str → Prop where
  | nil : CanonItems [] []
  | one {i t} : CanonItem i t → CanonItems [i] t
  | cons {i j is t u} : CanonItem i t → CanonItems (j :: is) u → CanonItems (i :: j :: is) (t ++ ' ' :: u)

inductive CanonEntry : Entry → Str → Prop where
  | item {i t} : CanonItem i t → CanonEntry (.item i) t
  | inner {is t p ps} : CanonItems is t → CanonParams ps p → Distinct ps → CanonEntry (.inner ⟨is, ps⟩) ('(' :: t ++ ')' :: p)

/-- Members: a value that is `true` is left out. -/
inductive CanonMember : Str × Entry → Str → Prop where
  | value {k e t} : LegalKey k → (∀ ps, e ≠ .item ⟨.bool true, ps⟩) → CanonEntry e t → CanonMember (k, e) (k ++ '=' :: t)
  | flag {k p ps} : LegalKey k → CanonParams ps p → Distinct ps → CanonMember (k, .item ⟨.bool true, ps⟩) (k ++ p)

/-- One or more members with a comma and a space between them. -/
inductive CanonSep {α : Type} (T : α → Str → Prop) : List α → Str → Prop where
  | one {x t} : T x t → CanonSep T [x] t
  | cons {x xs t u} : T x t → CanonSep T xs u → CanonSep T (x :: xs) (t ++ ',' :: ' ' :: u)

def CanonList (l : SList) (s : Str) : Prop := CanonSep CanonEntry l s

def CanonDict (d : Dict) (s : Str) : Prop := CanonSep CanonMember d s ∧ Distinct d

end Verif.Grammar
