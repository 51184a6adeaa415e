import Verif.Model.Sfv
import Verif.Spec.Text
import Verif.Spec.Base64
import Mathlib.Data.Nat.Digits.Defs
/-!
The grammar of structured fields, written from the ABNF of RFC 9651 sections 3.1 to 3.3 and from the places where the parsing
algorithm of section 4.2 is wider than the ABNF (byte sequences without padding, white space at the ends, repeated keys).
`XText x t` says that the text `t` denotes the value `x`. Nothing here scans: each rule says how a text is put together.
Only the data types `Bare`, `Item`, `InnerList`, `Entry` are shared with the model.
-/
namespace Verif.Grammar
open Sfv Spec

/-- `n` spaces. -/
def sp (n : Nat) : Str := List.replicate n ' '

/-- Optional white space. -/
def Ows (s : Str) : Prop := ∀ c ∈ s, c = ' ' ∨ c = '\t'

/-- The number written by decimal digits. -/
def numeral (ds : Str) : Nat := Nat.ofDigits 10 (ds.reverse.map (fun c => c.toNat - 48))

/-- Between `lo` and `hi` decimal digits. -/
def Digits (lo hi : Nat) (ds : Str) : Prop := (∀ c ∈ ds, Digit c) ∧ lo ≤ ds.length ∧ ds.length ≤ hi

def sign (neg : Bool) : Str := if neg then ['-'] else []
def signed (neg : Bool) (n : Nat) : Int := if neg then -n else n

def Alpha (c : Char) : Prop := ('a' ≤ c ∧ c ≤ 'z') ∨ ('A' ≤ c ∧ c ≤ 'Z')

/-- `sf-token = ( ALPHA / "*" ) *( tchar / ":" / "/" )`. -/
def TokenText (s : Str) : Prop :=
  ∃ c t, s = c :: t ∧ (Alpha c ∨ c = '*') ∧ ∀ d ∈ t, Alpha d ∨ Digit d ∨ d ∈ c! "!#$%&'*+-.^_`|~:/"

/-- Between the quotes of a string: value and text. -/
inductive StringBody : Str → Str → Prop where
  | nil : StringBody [] []
  | plain {c s t} : Printable c → c ≠ '"' → c ≠ '\\' → StringBody s t → StringBody (c :: s) (c :: t)
  | escaped {c s t} : c = '"' ∨ c = '\\' → StringBody s t → StringBody (c :: s) ('\\' :: c :: t)

def hexDigits : Str := c! "0123456789abcdef"

/-- Between the quotes of a display string: bytes and text. -/
inductive DisplayBody : Bytes → Str → Prop where
  | nil : DisplayBody [] []
  | plain {c b t} : Printable c → c ≠ '"' → c ≠ '%' → DisplayBody b t → DisplayBody (UInt8.ofNat c.toNat :: b) (c :: t)
  | percent {h l x y b t} : hexDigits[x]? = some h → hexDigits[y]? = some l → DisplayBody b t →
      DisplayBody (UInt8.ofNat (16 * x + y) :: b) ('%' :: h :: l :: t)

/-- The six bits of a value below 64, most significant first. -/
def bits6 (v : Nat) : List Bool := [5, 4, 3, 2, 1, 0].map v.testBit

/-- Base64 as RFC 9651 section 4.2.7 lets a parser read it: the padding may be short or missing and the bits left over may be
anything. The bytes are the whole octets among the bits of the characters. -/
def Base64Text (b : Bytes) (t : Str) : Prop :=
  ∃ (vs : List Nat) (k : Nat), (∀ v ∈ vs, v < 64) ∧ t = vs.map (fun v => alphabet.getD v '?') ++ List.replicate k '=' ∧
    vs.length % 4 ≠ 1 ∧ k ≤ (4 - vs.length % 4) % 4 ∧
    b.length = 6 * vs.length / 8 ∧ b.flatMap bits8 = (vs.flatMap bits6).take (8 * b.length)

/-- Bare items. A decimal is held in thousandths. -/
inductive BareText : Bare → Str → Prop where
  | int {neg ds} : Digits 1 15 ds → BareText (.int (signed neg (numeral ds))) (sign neg ++ ds)
  | dec {neg ds fs} : Digits 1 12 ds → Digits 1 3 fs →
      BareText (.dec (signed neg (numeral (ds ++ fs ++ List.replicate (3 - fs.length) '0')))) (sign neg ++ ds ++ '.' :: fs)
  | str {s t} : StringBody s t → BareText (.str s) ('"' :: t ++ ['"'])
  | tok {s} : TokenText s → BareText (.tok s) s
  | bytes {b t} : Base64Text b t → BareText (.bytes b) (':' :: t ++ [':'])
  | yes : BareText (.bool true) ['?', '1']
  | no : BareText (.bool false) ['?', '0']
  | date {neg ds} : Digits 1 15 ds → BareText (.date (signed neg (numeral ds))) ('@' :: sign neg ++ ds)
  | disp {b t} : DisplayBody b t → (∃ s : Str, b = utf8 s) → BareText (.disp b) ('%' :: '"' :: t ++ ['"'])

/-- `parameters = *( ";" *SP parameter )`, in the order of the text. -/
inductive ParamsText : List (Str × Bare) → Str → Prop where
  | nil : ParamsText [] []
  | flag {n k ps t} : LegalKey k → ParamsText ps t → ParamsText ((k, .bool true) :: ps) (';' :: sp n ++ k ++ t)
  | value {n k v b ps t} : LegalKey k → BareText v b → ParamsText ps t →
      ParamsText ((k, v) :: ps) (';' :: sp n ++ k ++ '=' :: b ++ t)

/-- The keys, each where it first stands. -/
def firsts : List Str → List Str
  | [] => []
  | k :: t => k :: (firsts t).filter (· ≠ k)

/-- The map of a list of pairs with repeated keys: each key keeps its first place and has its last value. -/
def MapOf {α : Type} (l m : List (Str × α)) : Prop :=
  m.map Prod.fst = firsts (l.map Prod.fst) ∧ ∀ k, m.lookup k = l.reverse.lookup k

def ItemText (i : Item) (t : Str) : Prop :=
  ∃ raw b p, BareText i.bare b ∧ ParamsText raw p ∧ MapOf raw i.params ∧ t = b ++ p

/-- Between the parentheses of an inner list: `*SP [ sf-item *( 1*SP sf-item ) *SP ]`. -/
inductive ItemsText : List Item → Str → Prop where
  | nil {n} : ItemsText [] (sp n)
  | one {n m i t} : ItemText i t → ItemsText [i] (sp n ++ t ++ sp m)
  | cons {n i j is t u} : ItemText i t → ItemsText (j :: is) u → ItemsText (i :: j :: is) (sp n ++ t ++ ' ' :: u)

inductive EntryText : Entry → Str → Prop where
  | item {i t} : ItemText i t → EntryText (.item i) t
  | inner {is t raw p ps} : ItemsText is t → ParamsText raw p → MapOf raw ps →
      EntryText (.inner ⟨is, ps⟩) ('(' :: t ++ ')' :: p)

/-- `dict-member = member-key ( parameters / ( "=" member-value ) )`. -/
inductive MemberText : Str × Entry → Str → Prop where
  | value {k e t} : LegalKey k → EntryText e t → MemberText (k, e) (k ++ '=' :: t)
  | flag {k raw p ps} : LegalKey k → ParamsText raw p → MapOf raw ps → MemberText (k, .item ⟨.bool true, ps⟩) (k ++ p)

/-- One or more members with commas between them, white space allowed on both sides of a comma. -/
inductive SepText {α : Type} (T : α → Str → Prop) : List α → Str → Prop where
  | one {x t} : T x t → SepText T [x] t
  | cons {x xs t u a b} : T x t → Ows a → Ows b → SepText T xs u → SepText T (x :: xs) (t ++ a ++ ',' :: b ++ u)

/-- A whole field: nothing but spaces, or spaces, members, optional white space. -/
def FieldText {α : Type} (T : α → Str → Prop) (l : List α) (s : Str) : Prop :=
  (l = [] ∧ ∃ n, s = sp n) ∨ ∃ n t a, SepText T l t ∧ Ows a ∧ s = sp n ++ t ++ a

def ListText (l : SList) (s : Str) : Prop := FieldText EntryText l s

def DictText (d : Dict) (s : Str) : Prop := ∃ raw, FieldText MemberText raw s ∧ MapOf raw d

/-- A field that holds one item. -/
def ItemFieldText (i : Item) (s : Str) : Prop := ∃ n m t, ItemText i t ∧ s = sp n ++ t ++ sp m

end Verif.Grammar
