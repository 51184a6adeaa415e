import Verif.Spec.Failure
/-!
Where reading, signing and verifying panic: the third kind of result next to those of `Spec/Wire.lean` (what is said) and
`Spec/Failure.lean` (which error). The conditions are about the text of the message and the answers of the key alone.
-/
namespace Verif.Wire
open Sfv Spec Grammar

/-- Of three kinds of result there is exactly one: a value, an error or a panic; value and error are unique. -/
def Decided {α ε : Type} (value : α → Prop) (error : ε → Prop) (panic : Prop) : Prop :=
  ((∃! a, value a) ∧ (∀ e, ¬ error e) ∧ ¬ panic) ∨ ((∀ a, ¬ value a) ∧ (∃! e, error e) ∧ ¬ panic) ∨
    ((∀ a, ¬ value a) ∧ (∀ e, ¬ error e) ∧ panic)

/-! ### Reading -/

/-- A text that begins with `@` and is no derived component. -/
def Unknown (n : Str) : Prop := n.head? = some '@' ∧ ∀ d, n ≠ (derivedText d).toList

/-- An item: the parameters are not looked at. -/
def IdPanics (it : Item) : Prop := ∃ n, it.bare = .str n ∧ Unknown n

/-- The text of an identifier. -/
def IdTextPanics (s : Str) : Prop := ∃ it, IdItem s it ∧ IdPanics it

/-- A component line. -/
def LinePanics (s : Str) : Prop :=
  ∃ i v t, s = i ++ ':' :: v ∧ ':' ∉ i ∧ Trimmed i t ∧ t.head? = some '"' ∧ (t.getLast? = some '"' ∨ c! "\";" <:+: t.tail) ∧ IdTextPanics t

/-- An item of Signature-Input. An item that is no string is read by its text, so a date (`@1659578233`) panics, unless it has a
parameter with a quote in it. -/
def CoveredPanics (it : Item) : Prop :=
  IdPanics it ∨ ((∀ n, it.bare ≠ .str n) ∧ ∃ t, CanonItem it t ∧ '"' ∉ t ∧ t.head? = some '@')

/-- An inner list of Signature-Input: an item has an unknown name and all items before it are components, or all items are components,
no two the same, and a time is negative. The first is component_name.rs 91, the second signature_params.rs 197, 198. -/
inductive InnerPanics (l : InnerList) : Prop where
  | name : FirstBad (fun it => ∃ i, CoveredId it i) CoveredPanics l.items → InnerPanics l
  | time {ids k} {n : Int} : List.Forall₂ CoveredId l.items ids →
      ids.Pairwise (fun i j => ¬ (i.name = j.name ∧ i.params.Perm j.params)) →
      k = c! "created" ∨ k = c! "expires" → (k, Bare.int n) ∈ l.params → n < 0 → InnerPanics l

/-- The text of signature parameters. -/
def ParamsTextPanics (s : Str) : Prop := ∃ i, ListText [.inner i] s ∧ InnerPanics i

/-- The texts of Signature and Signature-Input: the first entry that has no meaning panics. -/
def HeadersPanic (s t : Str) : Prop :=
  ∃ a b, DictText a s ∧ DictText b t ∧ Paired a b ∧
    FirstBad (fun kv => ∃ il p, kv.2 = .inner il ∧ ParamsOf il p) (fun kv => ∃ il, kv.2 = .inner il ∧ InnerPanics il) b

/-- The header lines. -/
def CarriesPanic (h : Headers) : Prop :=
  ∃ ts us, LinesText h (c! "signature-input") ts ∧ LinesText h (c! "signature") us ∧ ts ≠ [] ∧ us ≠ [] ∧
    HeadersPanic (commas us) (commas ts)

/-! ### Verifying and signing -/

/-- Verification with one key, where `clk` is what the clock shows when the signature with a label is looked at and `none` is a time
before 1970: the header lines panic, a signature that is looked at expires and the clock cannot be read, or the key panics on a
signature that is in time. The reading of the clock is signature_params.rs 116. -/
inductive VerifyPanics (clk : Str → Option UInt64) (m : Msg) (rf : Option Request) (k : VerifyingKey) (id : Option Str) : Prop where
  | carries : CarriesPanic m.headers → VerifyPanics clk m rf k id
  | clock {l kv e} : Carries m.headers l → kv ∈ l → Candidate m rf id kv.2 → kv.2.params.expires = some e → clk kv.1 = none →
      VerifyPanics clk m rf k id
  | key {l kv text} : Carries m.headers l → kv ∈ l → BaseOf m rf kv.2.params text → ForKey id kv.2 →
      (∀ e, kv.2.params.expires = some e → ∃ now, clk kv.1 = some now ∧ now.toNat ≤ e.toNat) →
      k.verify (utf8 text) kv.2.signature = .panic → VerifyPanics clk m rf k id

/-- Signing: all bases can be built and a key panics. -/
def SigningPanics (m : Msg) (rf : Option Request) (l : List (SigParams × SigningKey × Option Str)) : Prop :=
  (∀ x ∈ l, ∃ t, BaseOf m rf x.1 t) ∧ ∃ x ∈ l, ∃ t, BaseOf m rf x.1 t ∧ x.2.1.sign (utf8 t) = .panic

/-- Signing succeeds: these are the header lines afterwards. -/
def Signs (m : Msg) (rf : Option Request) (l : List (SigParams × SigningKey × Option Str)) (h : Headers) : Prop :=
  ∃ ls, List.Forall₂ (Added m rf) l ls ∧ h = m.headers ++ ls.flatten

/-- Verification succeeds with the first label, in the order of Signature-Input, that the key accepts. -/
def Verifies (now : UInt64) (m : Msg) (rf : Option Request) (k : VerifyingKey) (id : Option Str) (n : Str) : Prop :=
  ∃ l, Carries m.headers l ∧ (∀ kv ∈ l, ¬ Checked now m rf k id kv.2 .panic) ∧
    ∃ l1 h l2, l = l1 ++ (n, h) :: l2 ∧ Checked now m rf k id h (.ok ()) ∧ ∀ kv ∈ l1, ¬ Checked now m rf k id kv.2 (.ok ())

end Verif.Wire
