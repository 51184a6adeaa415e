import Verif.Spec.Component
import Verif.Props.C86
/-!
C97 What `HttpMessageComponent::try_from((id, values))` gives for every identifier and all lists of texts: exactly which component, and
exactly when which error. A caller of `httpsig` without an HTTP library builds the signature base from it.
-/
namespace Verif
open Sfv Spec

theorem firstName_iff {ps : List CParam} {n : Str} : Wire.FirstName ps n ↔ ps.findSome? CParam.nameOf = some n := by
  rw [List.findSome?_eq_some_iff]
  constructor
  · rintro ⟨a, b, h, hn⟩
    refine ⟨a, .name n, b, h, rfl, fun x hx => ?_⟩
    cases x with
    | name k => exact absurd hx (hn k)
    | _ => rfl
  · rintro ⟨a, x, b, h, hx, hn⟩
    cases x with
    | name k =>
      simp only [CParam.nameOf, Option.some.injEq] at hx
      subst hx
      exact ⟨a, b, h, fun k hk => by have := hn _ hk; simp [CParam.nameOf] at this⟩
    | _ => simp [CParam.nameOf] at hx

theorem queryValues_all {n : Str} {ps vs : List Str} : Wire.QueryValues n ps vs ↔ vs = queryValues n ps := by
  rw [wireQuery_iff]
  have : queryValues n (ps.filter (· ≠ [])) = queryValues n ps := by
    unfold queryValues
    rw [List.filterMap_filter]
    congr 1
    funext p
    by_cases hp : p = []
    · subst hp; cases n <;> simp
    · simp [hp]
  rw [this]

theorem fitParams_iff {ps : List CParam} : ps.all CParam.okDerived = true ↔ ∀ p ∈ ps, p = .req ∨ ∃ n, p = .name n := by
  rw [List.all_eq_true]
  refine forall₂_congr fun p _ => ?_
  cases p <;> simp [CParam.okDerived]

theorem derivedValue_iff {d : Derived} {ps : List CParam} {vs : List Str} (hv : vs ≠ []) (c : CValue) :
    derivedValue d ps vs = .ok c ↔ Wire.BuiltDerived ps d vs c := by
  cases vs with
  | nil => exact absurd rfl hv
  | cons v vs =>
    cases d with
    | queryParam =>
      simp only [derivedValue]
      cases hn : ps.findSome? CParam.nameOf with
      | none =>
        constructor
        · nofun
        · intro h
          cases h with
          | queryParam h _ => rw [firstName_iff, hn] at h; cases h
          | asIs h => simp at h
      | some n =>
        simp only [queryParamValue_eq, ← commas_eq]
        constructor
        · intro h
          injection h with h
          subst h
          exact .queryParam (firstName_iff.2 hn) (queryValues_all.2 rfl)
        · intro h
          cases h with
          | queryParam h hq =>
            rw [firstName_iff, hn] at h
            injection h with h
            subst h
            rw [queryValues_all.1 hq]
          | asIs h => simp at h
    | signatureParams =>
      simp only [derivedValue]
      constructor
      · intro h
        split at h
        · cases h
        · rename_i k w hs
          injection h with h
          subst h
          obtain ⟨e1, e2⟩ := splitOnce_some hs
          exact .signatureParams (trimmed_iff.2 e1.symm) e2
      · intro h
        cases h with
        | signatureParams h hk => rw [← trimmed_iff.1 h, splitOnce_append _ hk]
        | asIs h => simp at h
    | method =>
      exact ⟨fun h => by injection h with h; subst h; exact .method, fun h => by cases h with | method => rfl | asIs h => simp at h⟩
    | authority =>
      exact ⟨fun h => by injection h with h; subst h; exact .authority, fun h => by cases h with | authority => rfl | asIs h => simp at h⟩
    | scheme =>
      exact ⟨fun h => by injection h with h; subst h; exact .scheme, fun h => by cases h with | scheme => rfl | asIs h => simp at h⟩
    | _ => exact ⟨fun h => by injection h with h; subst h; exact .asIs (by decide), fun h => by cases h; rfl⟩

theorem derivedValue_fails {d : Derived} {ps : List CParam} {v : Str} {vs : List Str} {e : SigErr} :
    derivedValue d ps (v :: vs) = .err e ↔
      e = .invalidComponent ∧ ((d = .queryParam ∧ ∀ n, CParam.name n ∉ ps) ∨ (d = .signatureParams ∧ '=' ∉ v)) := by
  have ht : '=' ∈ trim v ↔ '=' ∈ v := by
    obtain ⟨a, b, h, ha, hb, _⟩ := trimmed_iff.2 (rfl : trim v = trim v)
    constructor
    · intro hm; rw [h]; simp [hm]
    · intro hm
      rw [h] at hm
      rcases List.mem_append.1 hm with hm | hm
      · rcases List.mem_append.1 hm with hm | hm
        · exact absurd (ha _ hm) (by unfold Wire.Blank; decide)
        · exact hm
      · exact absurd (hb _ hm) (by unfold Wire.Blank; decide)
  cases d with
  | queryParam =>
    simp only [derivedValue, ← findName_none]
    cases ps.findSome? CParam.nameOf <;> simp [eq_comm]
  | signatureParams =>
    simp only [derivedValue]
    rw [← ht, ← splitOnce_none]
    cases splitOnce '=' (trim v) <;> simp [eq_comm]
  | _ => simp [derivedValue]

/-- C97: which component there is. -/
theorem C97_ok (i : CId) (vs : List Str) (c : Component) : Component.build i vs = .ok c ↔ c.id = i ∧ Wire.Built i vs c.value := by
  obtain ⟨n, ps⟩ := i
  cases n with
  | field f =>
    simp only [Component.build, buildField_ok]
    constructor
    · rintro ⟨out, h, rfl⟩
      exact ⟨rfl, by rw [← commas_eq]; exact .field rfl (wireApplied_iff.2 h)⟩
    · rintro ⟨h1, h2⟩
      obtain ⟨j, v⟩ := c
      simp only at h1 h2
      subst h1
      cases h2 with
      | field _ h => exact ⟨_, wireApplied_iff.1 h, by rw [commas_eq]⟩
      | derived h _ _ => cases h
  | derived d =>
    simp only [Component.build, buildDerived]
    constructor
    · intro h
      split at h
      · cases h
      rename_i hv
      split at h
      · cases h
      rename_i hp
      obtain ⟨v, h1, h2⟩ := Res.bind_eq_ok.1 h
      injection h2 with h2
      subst h2
      exact ⟨rfl, .derived rfl (fitParams_iff.1 (by simpa using hp)) ((derivedValue_iff hv v).1 h1)⟩
    · rintro ⟨h1, h2⟩
      obtain ⟨j, v⟩ := c
      simp only at h1 h2
      subst h1
      cases h2 with
      | field h _ => cases h
      | derived h hp hb =>
        injection h with h
        subst h
        have hv : vs ≠ [] := by intro e; subst e; cases hb
        rw [if_neg hv, if_neg (by simp only [not_not]; exact fitParams_iff.2 hp), (derivedValue_iff hv v).2 hb]
        rfl

/-- C97: when there is none, and the error. -/
theorem C97_err (i : CId) (vs : List Str) (e : SigErr) : Component.build i vs = .err e ↔ Wire.BuildFails i vs e := by
  obtain ⟨n, ps⟩ := i
  cases n with
  | field f =>
    simp only [Component.build, buildField, Res.bind_eq_err, fieldParams_err, reduceCtorEq, and_false, exists_false, or_false]
    constructor
    · exact fun h => .field rfl h
    · intro h
      cases h with
      | field _ h => exact h
      | empty h _ => cases h
      | param h => cases h
      | name h => cases h
      | input h => cases h
  | derived d =>
    simp only [Component.build, buildDerived]
    cases vs with
    | nil =>
      rw [if_pos rfl]
      constructor
      · intro h; injection h with h; subst h; exact .empty rfl rfl
      · intro h
        cases h with
        | field h _ => cases h
        | _ => rfl
    | cons v vs =>
      rw [if_neg nofun]
      by_cases hp : ps.all CParam.okDerived = true
      · rw [if_neg (by simpa using hp), Res.bind_eq_err]
        simp only [reduceCtorEq, and_false, exists_false, or_false, derivedValue_fails]
        constructor
        · rintro ⟨rfl, ⟨rfl, h⟩ | ⟨rfl, h⟩⟩
          · exact .name rfl h
          · exact .input rfl rfl h
        · intro h
          cases h with
          | field h _ => cases h
          | empty _ h => cases h
          | param _ h1 h2 h3 =>
            rcases fitParams_iff.1 hp _ h1 with h | ⟨n, h⟩
            · exact absurd h h2
            · exact absurd h (h3 n)
          | name h hn => injection h with h; exact ⟨rfl, .inl ⟨h, hn⟩⟩
          | input h hh hn =>
            injection h with h
            simp only [List.head?_cons, Option.some.injEq] at hh
            subst hh
            exact ⟨rfl, .inr ⟨h, hn⟩⟩
      · rw [if_pos hp]
        constructor
        · intro h
          injection h with h
          subst h
          have : ∃ p ∈ ps, p ≠ .req ∧ ∀ n, p ≠ .name n := by
            by_contra hc
            refine hp (fitParams_iff.2 fun p hm => ?_)
            by_contra hn
            rw [not_or, not_exists] at hn
            exact hc ⟨p, hm, hn⟩
          obtain ⟨p, h1, h2, h3⟩ := this
          exact .param rfl h1 h2 h3
        · intro h
          cases h with
          | field h _ => cases h
          | _ => rfl

/-- C97: one of the two always holds, never both, and the value is determined. -/
theorem C97_total (i : CId) (vs : List Str) :
    ((∃! c, Wire.Built i vs c) ∧ ∀ e, ¬ Wire.BuildFails i vs e) ∨ ((∀ c, ¬ Wire.Built i vs c) ∧ ∃! e, Wire.BuildFails i vs e) := by
  cases h : Component.build i vs with
  | ok c =>
    obtain ⟨_, h2⟩ := (C97_ok i vs c).1 h
    refine .inl ⟨⟨c.value, h2, fun v hv => ?_⟩, fun e he => ?_⟩
    · have := (C97_ok i vs ⟨i, v⟩).2 ⟨rfl, hv⟩
      rw [h] at this
      injection this with this
      rw [this]
    · rw [← C97_err, h] at he; cases he
  | err e =>
    refine .inr ⟨fun c hc => ?_, e, (C97_err i vs e).1 h, fun e' he => ?_⟩
    · have := (C97_ok i vs ⟨i, c⟩).2 ⟨rfl, hc⟩
      rw [h] at this; cases this
    · have he := (C97_err i vs e').2 he
      rw [h] at he
      injection he with he; exact he.symm
  | panic => exact absurd h (build_ne_panic i vs)

/-- C97: from texts for each covered identifier the signature base is built, and it says each identifier with its value, in the
order of the parameters. -/
theorem C97_base {p : SigParams} {vss : List (List Str)} {cs : List Component}
    (h : List.Forall₂ (fun (x : CId × List Str) c => Component.build x.1 x.2 = .ok c) (p.covered.zip vss) cs)
    (hl : vss.length = p.covered.length) (hs : ∀ i ∈ p.covered, i.params.Nodup) :
    ∃ b ws, SigBase.tryNew cs p = .ok b ∧ List.Forall₂ (fun (x : CId × List Str) w => Wire.Built x.1 x.2 w) (p.covered.zip vss) ws ∧
      b.bytes = utf8 (Wire.linesText (List.zipWith Component.mk p.covered ws) p) := by
  have hc : ∀ (is : List CId) (vss : List (List Str)) (cs : List Component),
      List.Forall₂ (fun (x : CId × List Str) c => Component.build x.1 x.2 = .ok c) (is.zip vss) cs → vss.length = is.length →
      cs = List.zipWith Component.mk is (cs.map Component.value) ∧ cs.map Component.id = is ∧
      List.Forall₂ (fun (x : CId × List Str) w => Wire.Built x.1 x.2 w) (is.zip vss) (cs.map Component.value) := by
    intro is
    induction is with
    | nil =>
      intro vss cs h _
      simp only [List.zip_nil_left, List.forall₂_nil_left_iff] at h
      subst h
      simp
    | cons i is ih =>
      intro vss cs h hl
      cases vss with
      | nil => simp at hl
      | cons vs vss =>
        simp only [List.zip_cons_cons, List.forall₂_cons_left_iff] at h
        obtain ⟨c, cs', h1, h2, rfl⟩ := h
        obtain ⟨a1, a2, a3⟩ := ih vss cs' h2 (by simpa using hl)
        obtain ⟨b1, b2⟩ := (C97_ok i vs c).1 h1
        refine ⟨?_, ?_, ?_⟩
        · simp only [List.map_cons, List.zipWith_cons_cons, ← a1, ← b1]
        · simp [a2, b1]
        · simp only [List.zip_cons_cons, List.map_cons]; exact .cons b2 a3
  obtain ⟨h1, h2, h3⟩ := hc _ _ _ h hl
  have hok : ∃ b, SigBase.tryNew cs p = .ok b := by
    refine ⟨_, (C37_try_new cs p (fun c hc => hs _ (h2 ▸ List.mem_map_of_mem hc))).2 ?_⟩
    rw [← h2, List.forall₂_map_right_iff]
    exact List.forall₂_same.2 fun c _ => ⟨rfl, .refl _⟩
  obtain ⟨b, hb⟩ := hok
  exact ⟨b, cs.map Component.value, hb, h3, by rw [← h1]; exact C86_text hb⟩

/-! ### Examples -/

def c97Params : SigParams := { created := some 1, covered := [⟨.derived .method, []⟩, ⟨.field (c! "x"), []⟩] }

example : Component.build ⟨.derived .method, []⟩ [c! "post", c! "x"] = .ok ⟨⟨.derived .method, []⟩, .plain (c! "POST")⟩ :=
  (C97_ok _ _ _).2 ⟨rfl, .derived rfl (by simp) .method⟩

/-- The value of `@query-param` is the text after the first `=`, from all texts with that name. -/
example : Component.build ⟨.derived .queryParam, [.req, .name (c! "a")]⟩ [c! "a=1", c! "b=2", c! "a", c! "a=3=4"] =
    .ok ⟨⟨.derived .queryParam, [.req, .name (c! "a")]⟩, .plain (c! "1, 3=4")⟩ :=
  (C97_ok _ _ _).2 ⟨rfl, .derived rfl (by simp)
    (.queryParam (out := [c! "1", c! "3=4"]) ⟨[.req], [], rfl, by simp⟩
      (.hit (v := c! "1") (by decide) (.miss (by intro v h; cases h) (.miss (by intro v h; cases h)
        (.hit (v := c! "3=4") (by decide) .nil)))))⟩

/-- A name is let pass for any derived component here, and has no effect on it. -/
example : Component.build ⟨.derived .path, [.name (c! "a")]⟩ [c! "/x"] = .ok ⟨⟨.derived .path, [.name (c! "a")]⟩, .plain (c! "/x")⟩ :=
  (C97_ok _ _ _).2 ⟨rfl, .derived rfl (by simp) (.asIs (by decide))⟩

example : Component.build ⟨.derived .signatureParams, []⟩ [c! " sig1=(\"a\");x=1"] =
    .ok ⟨⟨.derived .signatureParams, []⟩, .keyValue (c! "sig1") (c! "(\"a\");x=1")⟩ := by decide +kernel

/-- A field without values has the empty value; with `key` the lines that lack the key are left out. -/
example : Component.build ⟨.field (c! "x"), []⟩ [] = .ok ⟨⟨.field (c! "x"), []⟩, .plain []⟩ :=
  (C97_ok _ _ _).2 ⟨rfl, .field (out := []) rfl .done⟩
example : Component.build ⟨.field (c! "x"), [.key (c! "a")]⟩ [c! "a=1,b", c! "b", c! "a=2;q"] =
    .ok ⟨⟨.field (c! "x"), [.key (c! "a")]⟩, .plain (c! "1, 2;q")⟩ := by decide +kernel

example : Component.build ⟨.derived .path, [.sf]⟩ [c! "/x"] = .err .invalidComponent :=
  (C97_err _ _ _).2 (.param rfl (.head _) nofun nofun)
example : Component.build ⟨.derived .path, []⟩ [] = .err .invalidComponent := (C97_err _ _ _).2 (.empty rfl rfl)
example : Component.build ⟨.derived .queryParam, [.req]⟩ [c! "a=1"] = .err .invalidComponent :=
  (C97_err _ _ _).2 (.name rfl (by simp))
example : Component.build ⟨.derived .signatureParams, []⟩ [c! "sig1"] = .err .invalidComponent :=
  (C97_err _ _ _).2 (.input rfl rfl (by decide))
example : Component.build ⟨.field (c! "x"), [.req, .bs]⟩ [c! "a"] = .err .notYetImplemented :=
  (C97_err _ _ _).2 (.field rfl (.req .bs))

/-- Two components and their texts. -/
example : ∃ b ws, SigBase.tryNew [⟨⟨.derived .method, []⟩, .plain (c! "GET")⟩, ⟨⟨.field (c! "x"), []⟩, .plain (c! "a, b")⟩] c97Params = .ok b ∧
      List.Forall₂ (fun (x : CId × List Str) w => Wire.Built x.1 x.2 w) (c97Params.covered.zip [[c! "get"], [c! "a", c! "b"]]) ws ∧
      b.bytes = utf8 (Wire.linesText (List.zipWith Component.mk c97Params.covered ws) c97Params) :=
  C97_base (.cons (by decide +kernel) (.cons (by decide +kernel) .nil)) rfl (by decide)

end Verif
