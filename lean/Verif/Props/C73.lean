import Verif.Props.C62
/-!
C73: for each kind of component, exactly when the library signs the value that RFC 9421 defines.
`C62_same_base_partial` gives conditions that suffice for the whole base. Here they are shown to be needed, component by component.
-/
namespace Verif
open Sfv Spec Rfc9421

/-- The value the RFC gives a derived component of a request. -/
def rfcValue (c : Ctx) (r : Request) (name : Str) : Option Str := value c (.req r) none ⟨.str name, []⟩

/-- Whatever value the RFC gives to the component, the library takes the same exactly under the condition. -/
def AgreesIff (c : Ctx) (r : Request) (name : Str) (d : Derived) (cond : Prop) : Prop :=
  ∀ v, rfcValue c r name = some v → (Extracts (.req r) none ⟨.derived d, []⟩ v ↔ cond)

section
variable {c : Ctx} {r : Request}

theorem upper_id_iff (s : Str) : s = s.map Char.toUpper ↔ ∀ ch ∈ s, ¬ ('a' ≤ ch ∧ ch ≤ 'z') := by
  induction s with
  | nil => simp
  | cons a t ih =>
    rw [List.map_cons, List.cons.injEq, ih]
    simp only [List.mem_cons, forall_eq_or_imp]
    refine and_congr_left fun _ => ?_
    unfold Char.toUpper
    simp only [Char.le_def]
    split
    · rename_i h
      refine iff_of_false ?_ (fun k => k ⟨h.1, h.2⟩)
      intro e
      have := congrArg (fun x : Char => x.val) e
      simp at this
    · rename_i h
      exact iff_of_true rfl (fun k => h ⟨k.1, k.2⟩)

/-- C73: `@method`, unless the method has small letters. -/
theorem C73_method (hw : WfHeaders r.headers) :
    AgreesIff c r (c! "@method") .method (∀ ch ∈ r.method, ¬ ('a' ≤ ch ∧ ch ≤ 'z')) := by
  rintro v ⟨⟩
  rw [(C30_request hw _).1]
  exact upper_id_iff _

/-- C73: `@path` always. -/
theorem C73_path (hw : WfHeaders r.headers) : AgreesIff c r (c! "@path") .path True := by
  rintro v ⟨⟩
  rw [(C30_request hw _).2.2.2.1, iff_true]
  exact Rfc.path_eq r.uri

/-- C73: `@query` always. -/
theorem C73_query (hw : WfHeaders r.headers) : AgreesIff c r (c! "@query") .query True := by
  rintro v ⟨⟩
  rw [(C30_request hw _).2.2.2.2.1, iff_true]

theorem rfc_target (c : Ctx) (r : Request) :
    rfcValue c r (c! "@scheme") = (target c r).map (fun sa => lowerCase sa.1) ∧
    rfcValue c r (c! "@authority") = (target c r).bind (fun sa => Rfc9421.authority sa.1 sa.2) ∧
    rfcValue c r (c! "@target-uri") = (target c r).map (fun sa => sa.1 ++ c! "://" ++ sa.2 ++ pathOf r.uri ++ queryOf r.uri) ∧
    rfcValue c r (c! "@request-target") = requestTarget r := ⟨rfl, rfl, rfl, rfl⟩

/-- C73: `@scheme`, when the URI of the request has one. -/
theorem C73_scheme (hw : WfHeaders r.headers) (hc : c.scheme ≠ []) :
    AgreesIff c r (c! "@scheme") .scheme (r.uri.scheme ≠ none) := by
  intro v hv
  rw [(C30_request hw _).2.2.1]
  rw [(rfc_target c r).1] at hv
  unfold target at hv
  split at hv
  · cases hv; rename_i h _; rw [h]; simp [lowerCase]
  · cases hv; rename_i h _; rw [h]; simp [lowerCase, hc]
  · split at hv
    · rename_i h _ _ _ _
      simp only [Option.map_map, Option.map_eq_some_iff] at hv
      obtain ⟨_, _, rfl⟩ := hv
      rw [h]; simp [lowerCase, hc]
    · cases hv
  · cases hv

theorem isSuffix_iff (p a : Str) : p.isSuffixOf a = true ↔ p <:+ a := List.isSuffixOf_iff_suffix

/-- C73: `@authority`, when the URI of the request has an authority, and not with the default port of the scheme. -/
theorem C73_authority (hw : WfHeaders r.headers) (hne : rfcValue c r (c! "@authority") ≠ some []) :
    AgreesIff c r (c! "@authority") .authority
      (∃ a, r.uri.authority = some a ∧ ∀ p, defaultPort (r.uri.scheme.getD c.scheme) = some p → ¬ p <:+ a) := by
  intro v hv
  rw [(C30_request hw _).2.1]
  have hv0 : v ≠ [] := by rintro rfl; exact hne hv
  rw [(rfc_target c r).2.1] at hv
  have key : ∀ s a, Rfc9421.authority s a = some v → (v = a.map Char.toLower ↔ ∀ p, defaultPort s = some p → ¬ p <:+ a) := by
    intro s a h
    unfold Rfc9421.authority at h
    split at h
    · cases h
    split at h
    · rename_i p hp
      injection h with h
      split at h
      · rename_i hs
        rw [isSuffix_iff] at hs
        refine iff_of_false ?_ (fun k => k p hp hs)
        intro e
        have l := congrArg List.length (h.trans e)
        have : 0 < p.length := by
          unfold defaultPort at hp
          split at hp
          · cases hp; simp
          · split at hp
            · cases hp; simp
            · cases hp
        have := hs.length_le
        simp only [lowerCase, List.length_map, List.length_take] at l
        omega
      · rename_i hs
        rw [isSuffix_iff] at hs
        refine iff_of_true h.symm ?_
        intro q hq
        rw [hp] at hq; injection hq with hq; subst hq; exact hs
    · rename_i hp
      injection h with h
      refine iff_of_true h.symm ?_
      intro q hq
      rw [hp] at hq; cases hq
  unfold target at hv
  split at hv
  · rename_i h1 h2
    rw [h1, h2]
    simpa using key _ _ hv
  · rename_i h1 h2
    rw [h1, h2]
    simpa using key _ _ hv
  · rename_i h1 h2
    rw [h2]
    simp [hv0]
  · cases hv

theorem path_len (u : Uri) : u.path.length ≤ (pathOf u).length := by
  rw [Rfc.path_eq]; split <;> simp_all

/-- C73: `@target-uri`, when the URI of the request is absolute. -/
theorem C73_target_uri (hw : WfHeaders r.headers) : AgreesIff c r (c! "@target-uri") .targetUri (r.uri.scheme ≠ none) := by
  intro v hv
  rw [(C30_request hw _).2.2.2.2.2.1]
  rw [(rfc_target c r).2.2.1] at hv
  have short : r.uri.scheme = none → ∀ s a, s ++ c! "://" ++ a ++ pathOf r.uri ++ queryOf r.uri = v →
      (∀ b, r.uri.authority = some b → b.length ≤ a.length) → v ≠ r.uri.toStr := by
    rintro h1 s a rfl h2 e
    have l := congrArg List.length e
    have := path_len r.uri
    unfold Uri.toStr queryOf at l
    rw [h1] at l
    cases hq : r.uri.query <;> rw [hq] at l
    all_goals
      cases ha : r.uri.authority with
      | none =>
        rw [ha] at l
        simp only [List.length_append, List.length_nil, List.length_cons] at l
        omega
      | some b =>
        have := h2 b ha
        rw [ha] at l
        simp only [List.length_append, List.length_nil, List.length_cons] at l
        omega
  unfold target at hv
  split at hv
  · rename_i h1 h2
    rw [Option.map_some, Option.some.injEq] at hv
    refine iff_of_true ?_ (by rw [h1]; simp)
    subst hv
    unfold Uri.toStr queryOf
    rw [h1, h2, Rfc.path_eq]
    have : r.uri.path ≠ [] := by
      unfold Uri.path
      rw [h1]; simp only [Option.isSome_some, or_true, if_true]; split <;> simp_all
    rw [if_neg this]
    cases r.uri.query <;> rfl
  · rename_i h1 h2
    rw [Option.map_some, Option.some.injEq] at hv
    refine iff_of_false (short h1 _ _ hv (by rw [h2]; rintro b ⟨⟩; exact le_refl _)) (by rw [h1]; simp)
  · rename_i h1 h2
    split at hv
    · simp only [Option.map_map, Option.map_eq_some_iff] at hv
      obtain ⟨t, _, hv⟩ := hv
      exact iff_of_false (short h1 _ _ hv (by rw [h2]; rintro b ⟨⟩)) (by rw [h1]; simp)
    · cases hv
  · cases hv

/-- C73: `@request-target`, in origin form; for CONNECT in authority form and for OPTIONS as an asterisk. -/
theorem C73_request_target (hw : WfHeaders r.headers) :
    AgreesIff c r (c! "@request-target") .requestTarget (r.uri.scheme = none ∧
      (r.method = c! "CONNECT" → r.uri.authority ≠ none) ∧
      (r.method = c! "OPTIONS" → r.uri.pathData = c! "*" ∧ r.uri.query = none) ∧
      (r.method ≠ c! "CONNECT" → r.method ≠ c! "OPTIONS" → ∀ ch, r.uri.pathData.head? = some ch → ch = '/' ∨ ch = '*')) := by
  intro v hv
  rw [(C30_request hw _).2.2.2.2.2.2]
  rw [(rfc_target c r).2.2.2] at hv
  unfold requestTarget at hv
  have hp : 1 ≤ (pathOf r.uri).length := by
    unfold pathOf; split
    · simp
    · rename_i h; exact List.length_pos_iff.2 h
  split at hv
  · rename_i s a h1 h2
    rw [Option.some.injEq] at hv
    refine iff_of_false ?_ (by rw [h1]; simp)
    intro e
    have l := congrArg List.length (hv.trans e)
    rw [h2] at l
    simp only [List.length_append, List.length_cons, List.length_nil] at l
    split at l
    · simp only [Option.getD_some] at l; omega
    split at l
    · simp at l; omega
    have : (r.uri.pathAndQuery.getD []).length ≤ (pathOf r.uri).length + (queryOf r.uri).length + 1 := by
      unfold Uri.pathAndQuery Uri.pqData pathOf queryOf
      rw [h1]
      cases r.uri.query <;> cases r.uri.pathData <;> simp <;> split <;> simp; omega
    omega
  · rename_i a h1 h2
    split at hv
    · rename_i hm
      injection hv with hv; subst hv
      rw [if_pos hm, h1, h2]
      simp [hm]
    · cases hv
  · rename_i h1 h2
    injection hv with hv; subst hv
    rw [h1, h2]
    by_cases hm : r.method = c! "CONNECT"
    · rw [if_pos hm]
      refine iff_of_false ?_ (fun k => k.2.1 hm rfl)
      intro e
      have l := congrArg List.length e
      simp only [List.length_append, Option.getD_none, List.length_nil] at l
      omega
    by_cases ho : r.method = c! "OPTIONS"
    · rw [if_neg hm, if_pos ho]
      simp only [ho, true_and, ne_eq, not_true_eq_false, false_implies, implies_true, and_true, forall_const]
      unfold pathOf queryOf
      cases r.uri.query <;> cases h : r.uri.pathData with
      | nil => simp
      | cons a t => cases t <;> simp
    · rw [if_neg hm, if_neg ho]
      simp only [hm, ho, true_and, ne_eq, not_false_eq_true, false_implies, forall_const]
      unfold pathOf queryOf Uri.pathAndQuery Uri.pqData
      rw [h1, h2]
      cases r.uri.query <;> cases h : r.uri.pathData with
      | nil => simp
      | cons a t =>
        simp
        by_cases ha : a = '/' ∨ a = '*'
        · simp [ha]; tauto
        · simp [ha]; tauto
  · cases hv

/-- The value the RFC gives a query parameter. -/
def rfcQueryParam (c : Ctx) (r : Request) (n : Str) : Option Str :=
  value c (.req r) none ⟨.str (c! "@query-param"), [(c! "name", .str n)]⟩

theorem rfcQueryParam_eq (c : Ctx) (r : Request) (n : Str) : rfcQueryParam c r n = queryParam (r.uri.query.getD []) n := rfl

theorem formEncode_codes : ∀ n < 256, unreserved (UInt8.ofNat n) = true →
    utf8 [Char.ofNat n] = [UInt8.ofNat n] ∧ UInt8.ofNat n ≠ 37 ∧ UInt8.ofNat n ≠ 43 ∧ Char.ofNat n ≠ '=' := by decide +kernel

theorem formEncode_hex : ∀ n < 16, ∃ b, utf8 [hexUpper n] = [b] ∧ hexDigit b = some n ∧ hexUpper n ≠ '=' := by
  have h : ∀ n < 16, (match utf8 [hexUpper n] with | [b] => decide (hexDigit b = some n ∧ hexUpper n ≠ '=') | _ => false) = true := by decide +kernel
  intro n hn
  have := h n hn
  split at this
  · rename_i b hb; exact ⟨b, hb, of_decide_eq_true this⟩
  · cases this

/-- Encoded text is decoded to what it was. -/
theorem formDecode_encode : ∀ b : Bytes, formDecode (utf8 (formEncode b)) = b
  | [] => rfl
  | x :: t => by
    have ih := formDecode_encode t
    unfold formEncode
    split
    · rename_i hu
      obtain ⟨h1, h2, h3, _⟩ := formEncode_codes x.toNat (UInt8.toNat_lt x) (by rw [UInt8.ofNat_toNat]; exact hu)
      rw [UInt8.ofNat_toNat] at h1 h2 h3
      rw [show Char.ofNat x.toNat :: formEncode t = [Char.ofNat x.toNat] ++ formEncode t from rfl, utf8_append, h1]
      show formDecode (x :: utf8 (formEncode t)) = _
      rw [formDecode.eq_def]
      simp only [h2, h3, if_false, ih]
    · have hx : x.toNat < 256 := UInt8.toNat_lt x
      obtain ⟨b1, e1, d1, _⟩ := formEncode_hex (x.toNat / 16) (by omega)
      obtain ⟨b2, e2, d2, _⟩ := formEncode_hex (x.toNat % 16) (by omega)
      rw [show '%' :: hexUpper (x.toNat / 16) :: hexUpper (x.toNat % 16) :: formEncode t =
        ['%'] ++ ([hexUpper (x.toNat / 16)] ++ ([hexUpper (x.toNat % 16)] ++ formEncode t)) from rfl, utf8_append, utf8_append, utf8_append, e1, e2]
      show formDecode (37 :: b1 :: b2 :: utf8 (formEncode t)) = _
      rw [formDecode.eq_def]
      simp only [d1, d2, ih, show (37 : UInt8) ≠ 43 by decide, if_false, if_true]
      rw [show x.toNat / 16 * 16 + x.toNat % 16 = x.toNat by omega, UInt8.ofNat_toNat]

theorem reencode_idem (s : Str) : reencode (reencode s) = reencode s := by
  unfold reencode; rw [formDecode_encode]

theorem formEncode_eq_nil {b : Bytes} (h : formEncode b = []) : b = [] := by
  rw [← formDecode_encode b, h]; rfl

theorem formDecode_eq_nil {b : Bytes} (h : formDecode b = []) : b = [] := by
  cases b with
  | nil => rfl
  | cons x t =>
    rw [formDecode.eq_def] at h
    simp only at h
    split at h
    · cases h
    split at h
    · split at h
      · split at h <;> cases h
      · cases h
    · cases h

theorem reencode_eq_nil {s : Str} (h : reencode s = []) : s = [] :=
  utf8_inj (a := s) (b := []) (formDecode_eq_nil (formEncode_eq_nil h))

theorem formEncode_no_eq : ∀ b : Bytes, '=' ∉ formEncode b
  | [] => by simp [formEncode]
  | x :: t => by
    have ih := formEncode_no_eq t
    have hx : x.toNat < 256 := UInt8.toNat_lt x
    unfold formEncode
    split
    · rename_i hu
      have := (formEncode_codes x.toNat hx (by rw [UInt8.ofNat_toNat]; exact hu)).2.2.2
      simp [this.symm, ih]
    · obtain ⟨_, _, _, h1⟩ := formEncode_hex (x.toNat / 16) (by omega)
      obtain ⟨_, _, _, h2⟩ := formEncode_hex (x.toNat % 16) (by omega)
      simp [h1.symm, h2.symm, ih]

theorem queryValues_filter (n : Str) (ps : List Str) :
    queryValues n ps = (ps.filter (fun p => (pair p).1 = n ∧ '=' ∈ p)).map (fun p => (pair p).2) := by
  induction ps with
  | nil => rfl
  | cons p t ih =>
    rw [Rfc.queryValues_cons, ih, C29_piece]
    by_cases h : '=' ∈ p
    · rw [Rfc.splitOnce_pair h]
      by_cases h2 : (pair p).1 = n
      · simp [h, h2]
      · simp [h2]
    · rw [splitOnce_none.2 h]; simp [h]

theorem pair_append {n v : Str} (h : '=' ∉ n) : pair (n ++ '=' :: v) = (n, v) := by
  have h1 := Rfc.splitOnce_pair (p := n ++ '=' :: v) (by simp)
  rw [splitOnce_append _ h] at h1
  exact (Option.some.inj h1).symm

theorem pair_split {p : Str} (h : '=' ∈ p) : p = (pair p).1 ++ '=' :: (pair p).2 := by
  have h1 := Rfc.splitOnce_pair h
  exact (splitOnce_some h1).1

/-- C73: `@query-param`, when the parameter is empty, or is in the query in the form the RFC gives it. -/
theorem C73_query_param (hw : WfHeaders r.headers) {n v : Str} (hv : rfcQueryParam c r n = some v) :
    Extracts (.req r) none ⟨.derived .queryParam, [.name n]⟩ v ↔ v = [] ∨ n ++ '=' :: v ∈ pieces (r.uri.query.getD []) := by
  have hx : Extracts (.req r) none ⟨.derived .queryParam, [.name n]⟩ v ↔
      pieces (r.uri.query.getD []) ≠ [] ∧ v = join (c! ", ") (queryValues n (pieces (r.uri.query.getD []))) := by
    rw [extracts_iff (m := .req r) hw (by simp)]
    unfold HasValue ValueIn
    simp [DerivedParams, RequestValue, CParam.nameOf]
  rw [hx]
  rw [rfcQueryParam_eq] at hv
  unfold queryParam at hv
  generalize pieces (r.uri.query.getD []) = ps at *
  split at hv
  · rename_i kv hkv
    injection hv with hv
    rw [List.filter_map] at hkv
    obtain ⟨p0, hp0, rfl⟩ : ∃ p0, ps.filter ((fun kv : Str × Str => decide (reencode kv.1 = n)) ∘ pair) = [p0] ∧ pair p0 = kv := by
      rcases hf : ps.filter ((fun kv : Str × Str => decide (reencode kv.1 = n)) ∘ pair) with _ | ⟨p0, _ | _⟩
      · rw [hf] at hkv; cases hkv
      · rw [hf] at hkv; exact ⟨p0, rfl, (List.cons.inj hkv).1⟩
      · rw [hf] at hkv; cases hkv
    have hmem : ∀ p, p ∈ ps ∧ reencode (pair p).1 = n ↔ p = p0 := by
      intro p
      have : p ∈ ps.filter ((fun kv : Str × Str => decide (reencode kv.1 = n)) ∘ pair) ↔ p = p0 := by rw [hp0, List.mem_singleton]
      rw [← this]; simp
    have hp1 := (hmem p0).2 rfl
    have hn : reencode n = n := by rw [← hp1.2, reencode_idem]
    have hne : '=' ∉ n := by rw [← hp1.2]; exact formEncode_no_eq _
    have hq : queryValues n ps = if (pair p0).1 = n ∧ '=' ∈ p0 then [(pair p0).2] else [] := by
      rw [queryValues_filter]
      have e : ps.filter (fun p => (pair p).1 = n ∧ '=' ∈ p) = [p0].filter (fun p => (pair p).1 = n ∧ '=' ∈ p) := by
        rw [← hp0, List.filter_filter]
        apply List.filter_congr
        intro p hp
        simp only [Function.comp]
        rw [← Bool.decide_and]
        refine decide_eq_decide.2 ⟨fun h => ⟨h, by rw [h.1, hn]⟩, fun h => h.1⟩
      rw [e]
      split <;> simp_all
    have hps : ps ≠ [] := by rintro rfl; cases hp1.1
    simp only [hps, ne_eq, not_false_eq_true, true_and]
    rw [hq]
    split
    · rename_i h
      show v = (pair p0).2 ↔ _
      constructor
      · intro e
        refine Or.inr ?_
        rw [e, ← h.1, ← pair_split h.2]; exact hp1.1
      · rintro (rfl | h2)
        · rw [reencode_eq_nil hv]
        · have := (hmem (n ++ '=' :: v)).1 ⟨h2, by rw [pair_append hne]; exact hn⟩
          rw [← this, pair_append hne]
    · rename_i h
      show v = [] ↔ _
      constructor
      · exact Or.inl
      · rintro (h2 | h2)
        · exact h2
        · have := (hmem (n ++ '=' :: v)).1 ⟨h2, by rw [pair_append hne]; exact hn⟩
          exact absurd (by rw [← this, pair_append hne]; simp) h
  · cases hv

theorem strip_sublist (t : Str) : (strip t).Sublist t := by
  unfold strip
  have h1 : ((t.dropWhile blank).reverse.dropWhile blank).Sublist (t.dropWhile blank).reverse := List.dropWhile_sublist _
  have h2 := h1.reverse
  rw [List.reverse_reverse] at h2
  exact h2.trans (List.dropWhile_sublist _)

theorem join_strip_len (sep : Str) : ∀ ts : List Str, (join sep (ts.map strip)).length ≤ (join sep ts).length
  | [] => le_refl _
  | [a] => (strip_sublist a).length_le
  | a :: b :: t => by
    have ih := join_strip_len sep (b :: t)
    have := (strip_sublist a).length_le
    simp only [List.map_cons, join, List.length_append] at ih ⊢
    omega

theorem join_strip_iff (sep : Str) : ∀ ts : List Str, join sep (ts.map strip) = join sep ts ↔ ∀ t ∈ ts, strip t = t
  | [] => by simp
  | [a] => by simp [join]
  | a :: b :: t => by
    constructor
    · intro h
      have l := congrArg List.length h
      have l1 := (strip_sublist a).length_le
      have l2 := join_strip_len sep (b :: t)
      simp only [List.map_cons, join, List.length_append] at l l2
      have e1 := (strip_sublist a).eq_of_length (by omega)
      simp only [List.map_cons, join] at h
      rw [e1] at h
      have h := List.append_cancel_left h
      intro x hx
      rcases List.mem_cons.1 hx with rfl | hx
      · exact e1
      · exact (join_strip_iff sep (b :: t)).1 h x hx
    · intro h
      rw [List.map_congr_left h, List.map_id']

/-- C73: a field without parameters, when no line has whitespace around it. -/
theorem C73_field {m : Msg} (hw : WfHeaders m.headers) {f v : Str} (hf : f.head? ≠ some '@') (hv : value c m none ⟨.str f, []⟩ = some v) :
    Extracts m none ⟨.field f, []⟩ v ↔ ∀ l ∈ fieldLines m.headers f, ∀ t, hvToStr l = some t → strip t = t := by
  rw [extracts_iff hw (by simp)]
  have h2 : valueIn c m f ⟨false, false, false, false, none, none⟩ = some v := hv
  unfold valueIn at h2
  rw [if_neg hf] at h2
  split at h2
  · unfold fieldValue at h2
    simp only [Bool.false_eq_true, Option.isSome_none, or_false, if_false] at h2
    split at h2
    · cases h2
    · obtain ⟨ts, hts, h3⟩ := Option.bind_eq_some_iff.1 h2
      injection h3 with h3
      have hl : LineTexts (fieldLines m.headers f) ts := Rfc.allSome_texts hts
      have e1 : HasValue m none ⟨.field f, []⟩ v ↔ v = join (c! ", ") ts := by
        unfold HasValue ValueIn FieldValue
        simp only [List.not_mem_nil, if_false]
        constructor
        · rintro ⟨ts', out, a, b, rfl⟩
          cases b
          rw [texts_det a hts]
        · rintro rfl; exact ⟨ts, ts, hl, .done _, rfl⟩
      rw [e1, ← h3, show combined ts = join (c! ", ") (ts.map strip) from Rfc.intercalate_eq _ _, join_strip_iff]
      constructor
      · intro h l hl' t ht
        obtain ⟨t', ht', e⟩ := forall₂_mem_left hl _ hl'
        rw [ht] at e; injection e with e; subst e
        exact h _ ht'
      · intro h t ht
        obtain ⟨l, hl', e⟩ := forall₂_mem_right hl _ ht
        exact h l hl' t e
  · cases h2

/-- C73: `@status` always. -/
theorem C73_status {s : Response} {v : Str} (hv : value c (.res s) none ⟨.str (c! "@status"), []⟩ = some v) :
    Extracts (.res s) none ⟨.derived .status, []⟩ v := by
  rw [C30_status]
  have : some (decimal s.status) = some v := hv
  rw [← Option.some.inj this, decimal_eq]

/-- C73: a field with `bs` never: the library reports an error where the RFC has a value. -/
theorem C73_bs {m : Msg} {rf : Option Request} (hw : WfHeaders m.headers) (hf : ∀ r, rf = some r → WfHeaders r.headers) (f : Str)
    {ps : List CParam} (hb : .bs ∈ ps) (v : Str) : ¬ Extracts m rf ⟨.field f, ps⟩ v := by
  rw [extracts_iff hw hf]
  have no : ∀ {ps vs out}, Applied ps vs out → .bs ∉ ps := by
    intro ps vs out h
    induction h with
    | done => simp
    | req _ ih => simp [ih]
    | sf _ _ ih => simp [ih]
    | key _ _ ih => simp [ih]
  unfold HasValue ValueIn
  split
  · rintro ⟨s, r, _, _, ts, out, _, h, _⟩; exact no h hb
  · rintro ⟨ts, out, _, h, _⟩; exact no h hb

/-- C73: a component of the request in the base of a response, by the same rules. -/
theorem C73_req {s : Response} (hs : WfHeaders s.headers) (hr : WfHeaders r.headers) {d : Derived} {cond : Prop} {name v : Str}
    (hd : d ≠ .queryParam) (hn : d.toStr = name) (h : AgreesIff c r name d cond)
    (hv : value c (.res s) (some r) ⟨.str name, [(c! "req", .bool true)]⟩ = some v) :
    Extracts (.res s) (some r) ⟨.derived d, [.req]⟩ v ↔ cond := by
  rw [C30_response_req hs hr d v hd]
  have e : value c (.res s) (some r) ⟨.str name, [(c! "req", .bool true)]⟩ = rfcValue c r name := by
    subst hn
    cases d <;> rfl
  exact h v (e ▸ hv)
end

/-! ### Cases on both sides -/

def xCtx : Ctx := ⟨fun _ => none, c! "https"⟩
def xReq (m : String) (s a : Option String) (p : String) (q : Option String) (h : Headers) : Request :=
  ⟨m.toList, ⟨s.map String.toList, a.map String.toList, p.toList, q.map String.toList⟩, h, .data []⟩

theorem xHost_wf : WfHeaders [(c! "host", utf8 (c! "a.example"))] := by
  intro kv hkv; rw [List.mem_singleton.1 hkv]; exact ⟨by decide, by decide, by decide⟩

/-- An absolute URI without port: everything but `@request-target` agrees. -/
example : rfcValue xCtx (xReq "GET" (some "https") (some "A.example") "/p" (some "b=1") []) (c! "@authority") = some (c! "a.example") ∧
    Extracts (.req (xReq "GET" (some "https") (some "A.example") "/p" (some "b=1") [])) none ⟨.derived .authority, []⟩ (c! "a.example") :=
  ⟨by decide +kernel, (C73_authority (c := xCtx) (by simp [xReq, WfHeaders]) (by decide +kernel) _ (by decide +kernel)).2
    ⟨_, rfl, by
      intro p hp
      have e : defaultPort (c! "https") = some (c! ":443") := by decide
      have : p = c! ":443" := Option.some.inj (hp.symm.trans e)
      subst this; decide⟩⟩

/-- With the default port it does not. -/
example : rfcValue xCtx (xReq "GET" (some "https") (some "a.example:443") "/p" none []) (c! "@authority") = some (c! "a.example") ∧
    ¬ Extracts (.req (xReq "GET" (some "https") (some "a.example:443") "/p" none [])) none ⟨.derived .authority, []⟩ (c! "a.example") := by
  refine ⟨by decide +kernel, fun h => ?_⟩
  obtain ⟨a, ha, k⟩ := (C73_authority (c := xCtx) (by simp [xReq, WfHeaders]) (by decide +kernel) _ (by decide +kernel)).1 h
  cases ha
  exact k (c! ":443") (by decide) (by decide)

/-- Origin form with a Host field: `@target-uri` and `@scheme` differ, `@request-target` agrees. -/
example : rfcValue xCtx (xReq "GET" none none "/p" (some "b=1") [(c! "host", utf8 (c! "a.example"))]) (c! "@target-uri") =
      some (c! "https://a.example/p?b=1") ∧
    ¬ Extracts (.req (xReq "GET" none none "/p" (some "b=1") [(c! "host", utf8 (c! "a.example"))])) none ⟨.derived .targetUri, []⟩
      (c! "https://a.example/p?b=1") ∧
    Extracts (.req (xReq "GET" none none "/p" (some "b=1") [(c! "host", utf8 (c! "a.example"))])) none ⟨.derived .requestTarget, []⟩
      (c! "/p?b=1") :=
  ⟨by decide +kernel, fun h => (C73_target_uri (c := xCtx) xHost_wf _ (by decide +kernel)).1 h rfl,
   (C73_request_target (c := xCtx) xHost_wf _ (by decide +kernel)).2 ⟨rfl, by decide, by decide, by decide⟩⟩

example : ¬ Extracts (.req (xReq "get" none none "/p" none [])) none ⟨.derived .method, []⟩ (c! "get") := fun h =>
  (C73_method (c := xCtx) (r := xReq "get" none none "/p" none []) (by simp [xReq, WfHeaders]) _ rfl).1 h 'g' (by decide) (by decide)

/-- A query parameter in the form of the RFC, and one in another form. -/
example : Extracts (.req (xReq "GET" none none "/p" (some "a=x%20y&b=x+y") [])) none ⟨.derived .queryParam, [.name (c! "a")]⟩ (c! "x%20y") ∧
    ¬ Extracts (.req (xReq "GET" none none "/p" (some "a=x%20y&b=x+y") [])) none ⟨.derived .queryParam, [.name (c! "b")]⟩ (c! "x%20y") :=
  ⟨(C73_query_param (c := xCtx) (by simp [xReq, WfHeaders]) (by decide +kernel)).2 (Or.inr (by decide +kernel)),
   fun h => absurd ((C73_query_param (c := xCtx) (by simp [xReq, WfHeaders]) (by decide +kernel)).1 h) (by decide +kernel)⟩

/-- Whitespace around the value of a field. -/
example : value xCtx (.req (xReq "GET" none none "/p" none [(c! "host", utf8 (c! "a.example"))])) none ⟨.str (c! "host"), []⟩ = some (c! "a.example") ∧
    Extracts (.req (xReq "GET" none none "/p" none [(c! "host", utf8 (c! "a.example"))])) none ⟨.field (c! "host"), []⟩ (c! "a.example") := by
  refine ⟨by decide +kernel, (C73_field (c := xCtx) (m := .req (xReq "GET" none none "/p" none [(c! "host", utf8 (c! "a.example"))])) xHost_wf (by decide) (by decide +kernel)).2 ?_⟩
  have : ∀ l ∈ fieldLines [(c! "host", utf8 (c! "a.example"))] (c! "host"), ∀ t, hvToStr l = some t → strip t = t := by
    have e : fieldLines [(c! "host", utf8 (c! "a.example"))] (c! "host") = [utf8 (c! "a.example")] := by decide +kernel
    rw [e]
    intro l hl t ht
    rw [List.mem_singleton.1 hl, show hvToStr (utf8 (c! "a.example")) = some (c! "a.example") by decide +kernel] at ht
    injection ht with ht; subst ht; decide
  exact this

end Verif
