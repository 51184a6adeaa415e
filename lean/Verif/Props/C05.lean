import Verif.Proofs.ParamsText
/-!
C05 Parameters text round trip, C06 component id text round trip, C07 signature headers round trip.
-/
namespace Verif
open Sfv Spec

/-- C05: parsing the text of safe parameters gives exactly these parameters (also the order of the covered ids and of the
parameters inside each id). -/
theorem C05_params_round_trip (p : SigParams) (h : SafeParams p) : SigParams.ofStr p.disp = .ok p := params_ofStr_disp h

/-- C05: safe parameters with the same text are the same. -/
theorem C05_params_text_injective (p q : SigParams) (hp : SafeParams p) (hq : SafeParams q) (h : p.disp = q.disp) : p = q := by
  have := C05_params_round_trip p hp
  rw [h, C05_params_round_trip q hq] at this
  injection this with this; exact this.symm

/-- C05, negative part: without the character condition the round trip fails, either with an error or, worse, with other
parameters; without the bound on timestamps it fails. -/
theorem C05_false_without_conditions :
    (∃ p : SigParams, p.nonce = some (c! "a\"b") ∧ SigParams.ofStr p.disp = .err .parseSFV) ∧
    (∃ p q : SigParams, SigParams.ofStr p.disp = .ok q ∧ p.nonce ≠ q.nonce ∧ p.tag ≠ q.tag) ∧
    (∃ p : SigParams, p.created = some 1000000000000000 ∧ SigParams.ofStr p.disp = .err .parseSFV) :=
  ⟨⟨{ nonce := some (c! "a\"b"), covered := [] }, rfl, by decide⟩,
   ⟨{ nonce := some (c! "a\";tag=\"evil"), covered := [] }, { nonce := some (c! "a"), tag := some (c! "evil"), covered := [] },
     by decide, by decide, by decide⟩,
   ⟨{ created := some 1000000000000000, covered := [] }, rfl, by decide⟩⟩

/-- A rich parameter set used as example. -/
def exampleParams : SigParams :=
  { created := some 1700000000, expires := some 1700000300, nonce := some (c! "b3k2pp5k7z-50gnwp.yemd"), alg := some (c! "ed25519"),
    keyid := some (c! "test-key"), tag := some (c! "app"),
    covered := [⟨.derived .method, []⟩, ⟨.field (c! "content-digest"), [.req, .key (c! "sha-256")]⟩,
      ⟨.derived .queryParam, [.name (c! "q"), .req]⟩] }

theorem exampleParams_safe : SafeParams exampleParams where
  created := by intro t h; cases h; decide
  expires := by intro t h; cases h; decide
  nonce := by intro t h; cases h; decide
  alg := by intro t h; cases h; decide
  keyid := by intro t h; cases h; decide
  tag := by intro t h; cases h; decide
  ids := by
    intro i hi
    simp only [exampleParams, List.mem_cons, List.not_mem_nil, or_false] at hi
    rcases hi with rfl | rfl | rfl
    · exact { distinct := by decide, name := by simp, fieldOnly := by simp, noAt := by simp, nameText := by simp, keyText := by simp,
              nameParam := by simp }
    · exact { distinct := by decide, name := by simp, fieldOnly := by simp, noAt := by simp,
              nameText := by intro f h; cases h; decide, keyText := by intro f h; simp at h; subst h; decide,
              nameParam := by simp }
    · exact { distinct := by decide, name := by simp, fieldOnly := by simp, noAt := by simp, nameText := by simp,
              keyText := by simp, nameParam := by intro f h; simp at h; subst h; decide }
  distinct := by simp [exampleParams, SameId]

set_option maxRecDepth 10000 in
example : exampleParams.disp = c! "(\"@method\" \"content-digest\";req;key=\"sha-256\" \"@query-param\";name=\"q\";req);created=1700000000;expires=1700000300;nonce=\"b3k2pp5k7z-50gnwp.yemd\";alg=\"ed25519\";keyid=\"test-key\";tag=\"app\"" := by
  decide

/-- C06: parsing the text of a safe id gives exactly this id. -/
theorem C06_id_round_trip (i : CId) (h : SafeId i) : CId.ofStr i.disp = .ok i := ofStr_disp h

/-- C06: safe ids with the same text are the same. -/
theorem C06_id_text_injective (a b : CId) (ha : SafeId a) (hb : SafeId b) (h : a.disp = b.disp) : a = b := by
  have := C06_id_round_trip a ha
  rw [h, C06_id_round_trip b hb] at this
  injection this with this; exact this.symm

/-- C06: a non-empty text without quotes and without surrounding white space is read like the quoted text. -/
theorem C06_unquoted (v : Str) (hne : v ≠ []) (hq : '"' ∉ v) (h1 : ∀ c, v.head? = some c → isWs c = false)
    (h2 : ∀ c, v.getLast? = some c → isWs c = false) : CId.ofStr v = CId.ofStr ('"' :: (v ++ ['"'])) := by
  unfold CId.ofStr
  simp only
  rw [trim_of h1 h2, if_pos ⟨hne, hq⟩, trim_of (s := '"' :: (v ++ ['"'])), if_neg (by simp)]
  · intro c hc; simp at hc; subst hc; decide
  · intro c hc
    rw [← List.cons_append, List.getLast?_append] at hc
    simp at hc; subst hc; decide

/-- C06: the two kinds of names a user writes: a field name, and one of the ten derived names, with or without quotes. -/
theorem C06_plain_names :
    (∀ f : Str, f ≠ [] → SafeText f → f.head? ≠ some '@' → f.head? ≠ some ' ' → f.getLast? ≠ some ' ' →
      CId.ofStr f = .ok ⟨.field f, []⟩ ∧ CId.ofStr ('"' :: (f ++ ['"'])) = .ok ⟨.field f, []⟩) ∧
    (∀ d : Derived, CId.ofStr d.toStr = .ok ⟨.derived d, []⟩ ∧ CId.ofStr ('"' :: (d.toStr ++ ['"'])) = .ok ⟨.derived d, []⟩) := by
  have ws : ∀ c, Printable c → c ≠ ' ' → isWs c = false := by
    intro c ⟨h1, h2⟩ h3
    have h4 : c.toNat ≠ 0x20 := fun e => h3 (Char.ext (UInt32.toNat_inj.1 e))
    unfold isWs
    simp
    omega
  constructor
  · intro f hne hs hat hsp1 hsp2
    have hr : CId.ofStr ('"' :: (f ++ ['"'])) = .ok ⟨.field f, []⟩ := by
      have hsafe : SafeId ⟨.field f, []⟩ :=
        { distinct := by simp, name := by simp, fieldOnly := by simp, noAt := by rintro _ ⟨⟩; exact hat,
          nameText := by rintro _ ⟨⟩; exact hs, keyText := by simp, nameParam := by simp }
      have := C06_id_round_trip _ hsafe
      simpa [CId.disp, CName.disp, cparamsDisp] using this
    refine ⟨?_, hr⟩
    rw [C06_unquoted f hne (fun h => (hs _ h).2.1 rfl) _ _, hr]
    · intro c hc
      refine ws c (hs c (List.mem_of_mem_head? hc)).1 ?_
      rintro rfl; exact hsp1 hc
    · intro c hc
      refine ws c (hs c (List.mem_of_mem_getLast? hc)).1 ?_
      rintro rfl; exact hsp2 hc
  · intro d; cases d <;> exact ⟨by decide, by decide⟩

/-- C06, negative part: an id whose name contains a quote may be read back as another id, or not at all. -/
theorem C06_false_without_conditions :
    CId.ofStr (CId.disp ⟨.field (c! "a\";key=\"x"), []⟩) = .ok ⟨.field (c! "a"), [.key (c! "x")]⟩ ∧
    CId.ofStr (CId.disp ⟨.field (c! "a\"b"), []⟩) = .err .parseSFV := ⟨by decide, by decide⟩

example : CId.ofStr (c! "\"content-digest\";req;key=\"sha-256\"") =
    .ok ⟨.field (c! "content-digest"), [.req, .key (c! "sha-256")]⟩ := by decide

/-- C07: reading back the two header values gives one entry, with the same name, signature bytes and parameters. -/
theorem C07_headers_round_trip (h : SigHeaders) (hn : LegalKey h.name) (hp : SafeParams h.params) :
    SigHeaders.tryParse h.signatureValue h.inputValue = .ok [(h.name, h)] := by
  have := tryParse_members (hs := [h]) (by intro x hx; simp at hx; subst hx; exact ⟨hn, hp⟩) (by simp)
  simpa using this

/-- C07 for several signatures in one pair of headers, separated by `, `. -/
theorem C07_headers_round_trip_many (hs : List SigHeaders) (hn : ∀ h ∈ hs, LegalKey h.name) (hp : ∀ h ∈ hs, SafeParams h.params)
    (hd : (hs.map (·.name)).Nodup) :
    SigHeaders.tryParse (join (c! ", ") (hs.map (·.signatureValue))) (join (c! ", ") (hs.map (·.inputValue))) =
      .ok (hs.map (fun h => (h.name, h))) :=
  tryParse_members (fun h hh => ⟨hn h hh, hp h hh⟩) hd

example : LegalKey (c! "sig-b26") ∧ SafeParams exampleParams := ⟨by decide, exampleParams_safe⟩

end Verif
