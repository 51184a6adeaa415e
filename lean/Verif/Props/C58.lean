import Verif.Spec.Layout
import Verif.Props.C08
import Verif.Props.C22
/-!
C58: the texts that are signed and sent, character by character.
-/
namespace Verif
open Spec

theorem intercalate_join (sep : Str) : ∀ l : List Str, List.intercalate sep l = join sep l
  | [] => rfl
  | [a] => by simp [List.intercalate, join]
  | a :: b :: t => by
    have := intercalate_join sep (b :: t)
    simp only [List.intercalate, List.intersperse, List.flatten_cons, join] at this ⊢
    rw [this]; simp

theorem decimal_eq (n : Nat) : decimal n = natStr n := by
  have dig : ∀ m, m < 10 → Nat.digitChar m = digitChar m := by decide
  have main : ∀ f n, n < f → Nat.toDigits 10 n = natStrAux f n := by
    intro f
    induction f with
    | zero => intro n h; omega
    | succ f ih =>
      intro n h
      unfold natStrAux
      by_cases hn : n < 10
      · rw [if_pos hn, Nat.toDigits_of_lt_base hn, dig n hn]
      · rw [if_neg hn, ← ih (n / 10) (by omega), ← dig _ (Nat.mod_lt _ (by omega)),
          Nat.toDigits_eq_if (by omega : 1 < 10), if_neg hn]
  exact main _ n (by omega)

/-- C58: the text of an id. -/
theorem C58_id_text (i : CId) : i.disp = idText i := by
  obtain ⟨n, ps⟩ := i
  have hp : cparamsDisp ps = (ps.map paramText).flatten := by
    have h1 : ∀ p : CParam, paramText p = ';' :: p.disp := by intro p; cases p <;> simp [paramText, CParam.disp, quoted]
    have h2 : ∀ l : List CParam, l ≠ [] → ';' :: join [';'] (l.map CParam.disp) = (l.map paramText).flatten := by
      intro l
      induction l with
      | nil => intro h; exact absurd rfl h
      | cons a t ih =>
        intro _
        cases t with
        | nil => simp [h1]
        | cons b t =>
          have := ih (by simp)
          simp only [List.map_cons, join, List.flatten_cons, h1] at this ⊢
          rw [← this]; simp
    unfold cparamsDisp
    split
    · rename_i h; simp [h]
    · rename_i h; exact h2 ps h
  unfold CId.disp idText
  rw [hp]
  cases n with
  | field f => simp [CName.disp, quoted]
  | derived d => cases d <;> rfl

/-- C58: the text of the parameters: names, order, separators and quotes. -/
theorem C58_params_text (p : SigParams) : p.disp = paramsText p := by
  have hj : joinIds p.covered = List.intercalate " ".toList (p.covered.map idText) := by
    rw [intercalate_join, show p.covered.map idText = p.covered.map CId.disp from List.map_congr_left (fun i _ => (C58_id_text i).symm)]
    exact joinIds_eq _
  unfold SigParams.disp paramsText
  rw [hj]
  have n1 : ∀ (s : String) (o : Option UInt64), dispNum s.toList o = ifPresent s (fun t : UInt64 => decimal t.toNat) o := by
    intro s o; cases o <;> simp [dispNum, ifPresent, decimal_eq]
  have n2 : ∀ (s : String) (o : Option Str), dispText s.toList o = ifPresent s quoted o := by
    intro s o; cases o <;> simp [dispText, ifPresent, quoted]
  simp only [← n1, ← n2]
  simp

/-- C58: the bytes that are signed: one line per covered id, then the parameters, all texts as in the specification. -/
theorem C58_base_text {m : Msg} {p : SigParams} {rf : Option Request} {b : SigBase} (hw : WfHeaders m.headers)
    (hf : ∀ r, rf = some r → WfHeaders r.headers) (h : buildBase m p rf = .ok b) :
    ∃ vs, List.Forall₂ (HasValue m rf) p.covered vs ∧
      b.bytes = utf8 ((List.zipWith (fun i v => idText i ++ ": ".toList ++ v ++ "\n".toList) p.covered vs).flatten ++
        "\"@signature-params\": ".toList ++ paramsText p) := by
  obtain ⟨vs, h1, h2⟩ := (buildBase_spec hw hf b.disp).1 ⟨b, h, rfl⟩
  refine ⟨vs, h1, ?_⟩
  unfold SigBase.bytes
  rw [h2]
  unfold baseText
  simp only [C58_id_text, C58_params_text]
  rfl

/-- C58: the values of the two header fields of a signature. -/
theorem C58_header_values (h : SigHeaders) :
    h.inputValue = h.name ++ "=".toList ++ paramsText h.params ∧
    h.signatureValue = h.name ++ "=:".toList ++ Base64.encode h.signature ++ ":".toList := by
  constructor
  · rw [← C58_params_text]; simp [SigHeaders.inputValue]
  · simp [SigHeaders.signatureValue]

def textEx : SigParams where
  created := some 1618884473
  expires := some 1618884773
  nonce := some (c! "b3")
  alg := some (c! "ed25519")
  keyid := some (c! "k")
  tag := some (c! "t")
  covered := [⟨.derived .method, [.req]⟩, ⟨.field (c! "date"), [.sf, .key (c! "a")]⟩]

set_option maxRecDepth 20000 in
example : textEx.disp =
    c! "(\"@method\";req \"date\";sf;key=\"a\");created=1618884473;expires=1618884773;nonce=\"b3\";alg=\"ed25519\";keyid=\"k\";tag=\"t\"" := by
  decide
example : (buildBase (.req exReq) (exParams [⟨.derived .method, []⟩]) none).isOk = true := by decide

end Verif
