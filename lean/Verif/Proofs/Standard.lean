import Verif.Spec.Standard
import Verif.Props.C95
/-! What the checks of `Spec/Standard.lean` say. -/
namespace Verif
open Sfv Spec Rfc9421

/-! ### Texts -/

theorem char_range {a b c : Char} : (decide (a ≤ c) && decide (c ≤ b)) = true ↔ a.toNat ≤ c.toNat ∧ c.toNat ≤ b.toNat := by
  rw [Bool.and_eq_true, decide_eq_true_eq, decide_eq_true_eq]; rfl

theorem formPlain_char {c : Char} (h : Guard.formPlain [c] = true) : c.toNat < 256 ∧ unreserved (UInt8.ofNat c.toNat) = true := by
  have key : ∀ n < 256, (48 ≤ n ∧ n ≤ 57) ∨ (65 ≤ n ∧ n ≤ 90) ∨ (97 ≤ n ∧ n ≤ 122) ∨ n = 42 ∨ n = 45 ∨ n = 46 ∨ n = 95 →
      unreserved (UInt8.ofNat n) = true := by decide +kernel
  have h' : (48 ≤ c.toNat ∧ c.toNat ≤ 57) ∨ (65 ≤ c.toNat ∧ c.toNat ≤ 90) ∨ (97 ≤ c.toNat ∧ c.toNat ≤ 122) ∨ c.toNat = 42 ∨ c.toNat = 45 ∨
      c.toNat = 46 ∨ c.toNat = 95 := by
    simp only [Guard.formPlain, List.all_cons, List.all_nil, Bool.and_true, Bool.or_eq_true, char_range, beq_iff_eq] at h
    rcases h with (((((h | h) | h) | rfl) | rfl) | rfl) | rfl
    · exact Or.inl h
    · exact Or.inr (Or.inl h)
    · exact Or.inr (Or.inr (Or.inl h))
    all_goals decide
  have : c.toNat < 256 := by omega
  exact ⟨this, key _ this h'⟩

theorem formPlain_reencode : ∀ {s : Str}, Guard.formPlain s = true → reencode s = s
  | [], _ => rfl
  | c :: t, h => by
    have h1 : Guard.formPlain [c] = true ∧ Guard.formPlain t = true := by
      simpa [Guard.formPlain] using h
    have ih := formPlain_reencode h1.2
    obtain ⟨hn, hu⟩ := formPlain_char h1.1
    obtain ⟨e1, e2, e3, _⟩ := formEncode_codes c.toNat hn hu
    rw [Char.ofNat_toNat] at e1
    unfold reencode at ih ⊢
    rw [show c :: t = [c] ++ t from rfl, utf8_append, e1]
    show formEncode (formDecode (UInt8.ofNat c.toNat :: utf8 t)) = _
    rw [formDecode.eq_def]
    simp only [e2, e3, if_false]
    rw [formEncode, if_pos hu, ih]
    have : (UInt8.ofNat c.toNat).toNat = c.toNat := by rw [UInt8.toNat_ofNat']; exact Nat.mod_eq_of_lt hn
    rw [this, Char.ofNat_toNat]
    rfl

theorem noLower_upper {s : Str} (h : Guard.noLower s = true) : s.map Char.toUpper = s := by
  refine ((upper_id_iff s).2 fun ch hc hx => ?_).symm
  have := List.all_eq_true.1 h ch hc
  simp [hx.1, hx.2] at this

theorem noUpper_lower {s : Str} (h : Guard.noUpper s = true) : lowerCase s = s := by
  have : ∀ ch ∈ s, Char.toLower ch = ch := by
    intro ch hc
    have := List.all_eq_true.1 h ch hc
    unfold Char.toLower
    split
    · rename_i hx
      have h1 : 'A' ≤ ch := hx.1
      have h2 : ch ≤ 'Z' := hx.2
      simp [h1, h2] at this
    · rfl
  unfold lowerCase
  rw [List.map_congr_left this, List.map_id']

theorem trimmed_line {l : Bytes} (h : Guard.trimmed l = true) : ∃ t, hvToStr l = some t ∧ strip t = t := by
  unfold Guard.trimmed at h
  split at h
  · rename_i t ht
    refine ⟨t, ht, ?_⟩
    rw [Bool.and_eq_true] at h
    unfold strip
    have e : t.dropWhile blank = t := dropWhile_stop fun c hc => by
      have := h.1
      rw [hc] at this
      simpa [Guard.isBlank, blank] using this
    rw [e, dropWhile_stop, List.reverse_reverse]
    intro c hc
    rw [List.head?_reverse] at hc
    have := h.2
    rw [hc] at this
    simpa [Guard.isBlank, blank] using this
  · cases h

/-! ### Components -/

section
variable {c : Ctx} {m : Msg} {rf : Option Request} {w : Wants}

theorem std_query {q : Str} {ps : List CParam} (hr : Rfc.Reads w ps) (h : ps.any (Guard.queryOnce q) = true) :
    ∃ n, w.name = some n ∧ (∃ v, queryParam q n = some v) ∧ ∀ p ∈ pieces q, reencode (pair p).1 = (pair p).1 ∧ reencode (pair p).2 = (pair p).2 := by
  obtain ⟨x, hx, h⟩ := List.any_eq_true.1 h
  cases x with
  | name n =>
    simp only [Guard.queryOnce, Bool.and_eq_true, List.all_eq_true, beq_iff_eq] at h
    have hp : ∀ p ∈ pieces q, reencode (pair p).1 = (pair p).1 ∧ reencode (pair p).2 = (pair p).2 := by
      intro p hp
      have := h.1 p hp
      rw [Guard.piecePlain, Bool.and_eq_true] at this
      exact ⟨formPlain_reencode this.1, formPlain_reencode this.2⟩
    refine ⟨n, (hr.name n).2 hx, ?_, hp⟩
    rw [← Option.isSome_iff_exists, Option.isSome_iff_ne_none, Ne, queryParam_none, not_not, ← h.2]
    congr 1
    apply List.filter_congr
    intro p hp'
    rw [(hp p hp').1, Bool.eq_iff_iff]
    simp [pair]
  | _ => cases h

theorem reads_derived {d : Derived} {ps : List CParam} (hr : Rfc.Reads w ps) (hd : DerivedParams d ps) :
    w.sf = false ∧ w.bs = false ∧ w.tr = false ∧ w.key = none ∧ (d ≠ .queryParam → w.name = none) := by
  refine ⟨?_, ?_, ?_, ?_, fun hq => ?_⟩
  · by_contra h; rcases hd _ (hr.sf.1 (by simpa using h)) with e | ⟨_, _, e⟩ <;> cases e
  · by_contra h; rcases hd _ (hr.bs.1 (by simpa using h)) with e | ⟨_, _, e⟩ <;> cases e
  · by_contra h; rcases hd _ (hr.tr.1 (by simpa using h)) with e | ⟨_, _, e⟩ <;> cases e
  · cases hk : w.key with
    | none => rfl
    | some k => rcases hd _ ((hr.key k).1 hk) with e | ⟨_, _, e⟩ <;> cases e
  · cases hk : w.name with
    | none => rfl
    | some k => rcases hd _ ((hr.name k).1 hk) with e | ⟨e, _⟩ <;> [cases e; exact absurd e hq]

/-- Some program leaves the port out. -/
theorem leftOut_port {o : Option Str} {p : Str} : p ∈ Guard.leftOut o ↔ ∃ s, defaultPort (o.getD s) = some p := by
  cases o with
  | none =>
    simp only [Guard.leftOut, List.mem_cons, List.not_mem_nil, or_false, Option.getD_none]
    constructor
    · rintro (rfl | rfl)
      · exact ⟨c! "http", by decide⟩
      · exact ⟨c! "https", by decide⟩
    · rintro ⟨s, h⟩
      unfold defaultPort at h
      split at h
      · injection h with h; exact Or.inl h.symm
      · split at h
        · injection h with h; exact Or.inr h.symm
        · cases h
  | some s =>
    rw [show (∃ s', defaultPort ((some s).getD s') = some p) ↔ defaultPort s = some p from ⟨fun ⟨_, h⟩ => h, fun h => ⟨[], h⟩⟩]
    unfold Guard.leftOut defaultPort
    simp only [beq_iff_eq]
    rw [show s.map Char.toLower = lowerCase s from rfl]
    by_cases h1 : lowerCase s = c! "http"
    · rw [if_pos h1, if_pos h1, List.mem_singleton, Option.some.injEq]; exact eq_comm
    · by_cases h2 : lowerCase s = c! "https"
      · rw [if_neg h1, if_neg h1, if_pos h2, if_pos h2, List.mem_singleton, Option.some.injEq]; exact eq_comm
      · rw [if_neg h1, if_neg h1, if_neg h2, if_neg h2]; simp

theorem std_request {r : Request} {d : Derived} {ps : List CParam} (hr : Rfc.Reads w ps) (hd : DerivedParams d ps)
    (h : Guard.stdRequest r ps d = true) : (∃ v, requestValue c r d.toStr w = some v) ∧ UsualRequest c r d.toStr := by
  obtain ⟨h1, h2, h3, h4, h5⟩ := reads_derived hr hd
  unfold requestValue
  rw [if_neg (by simp [h1, h2, h3, h4])]
  cases d with
  | method =>
    exact ⟨⟨r.method, by rw [h5 (by decide)]; rfl⟩, ⟨fun _ => noLower_upper h, nofun, nofun, nofun, nofun, nofun⟩⟩
  | path => exact ⟨⟨_, by rw [h5 (by decide)]; rfl⟩, ⟨nofun, nofun, nofun, nofun, nofun, nofun⟩⟩
  | query => exact ⟨⟨_, by rw [h5 (by decide)]; rfl⟩, ⟨nofun, nofun, nofun, nofun, nofun, nofun⟩⟩
  | targetUri =>
    obtain ⟨⟨s, hs⟩, ⟨a, ha⟩⟩ : (∃ s, r.uri.scheme = some s) ∧ ∃ a, r.uri.authority = some a := by
      simpa [Guard.stdRequest, Option.isSome_iff_exists] using h
    have ht : target c r = some (s, a) := by unfold target; rw [hs, ha]
    refine ⟨⟨s ++ c! "://" ++ a ++ pathOf r.uri ++ queryOf r.uri, ?_⟩, ⟨nofun, fun _ => by rw [hs]; nofun, nofun, nofun, nofun, nofun⟩⟩
    rw [h5 (by decide), ht]; rfl
  | scheme =>
    obtain ⟨⟨s, hs⟩, ⟨a, ha⟩⟩ : (∃ s, r.uri.scheme = some s) ∧ ∃ a, r.uri.authority = some a := by
      simpa [Guard.stdRequest, Option.isSome_iff_exists] using h
    have ht : target c r = some (s, a) := by unfold target; rw [hs, ha]
    refine ⟨⟨lowerCase s, ?_⟩, ⟨nofun, nofun, nofun, fun _ => by rw [hs]; nofun, nofun, nofun⟩⟩
    rw [h5 (by decide), ht]; rfl
  | authority =>
    obtain ⟨a, ha, h⟩ : ∃ a, r.uri.authority = some a ∧ '@' ∉ a ∧ ∀ p ∈ Guard.leftOut r.uri.scheme, ¬ p <:+ a := by
      cases ha : r.uri.authority with
      | none => simp [Guard.stdRequest, ha] at h
      | some a => exact ⟨a, rfl, by simpa [Guard.stdRequest, ha, ← List.isSuffixOf_iff_suffix] using h⟩
    refine ⟨?_, ⟨nofun, nofun, fun _ => ⟨a, ha, fun p hp => h.2 p (leftOut_port.2 ⟨c.scheme, hp⟩)⟩, nofun, nofun, nofun⟩⟩
    rw [h5 (by decide)]
    have : ∃ s, target c r = some (s, a) := by
      unfold target
      rw [ha]
      cases r.uri.scheme with
      | none => exact ⟨_, rfl⟩
      | some s => exact ⟨_, rfl⟩
    obtain ⟨s, hs⟩ := this
    rw [hs]
    have := (authority_none (s := s) (a := a)).not.2 h.1
    exact Option.ne_none_iff_exists'.1 this
  | requestTarget =>
    simp only [Guard.stdRequest, Bool.and_eq_true, Option.isNone_iff_eq_none, Bool.or_eq_true, bne_iff_ne, beq_iff_eq] at h
    obtain ⟨⟨⟨g1, g2⟩, g3⟩, g4⟩ := h
    refine ⟨?_, ⟨nofun, nofun, nofun, nofun, fun _ => ⟨g1, fun hm => ?_, fun hm => g3.resolve_left (fun hx => hx hm), fun ch hc => ?_⟩, nofun⟩⟩
    · rw [h5 (by decide)]
      show ∃ v, requestTarget r = some v
      unfold requestTarget
      rw [g1]
      by_cases hm : r.method = c! "CONNECT"
      · rw [if_pos hm] at g2
        obtain ⟨a, ha⟩ := Option.isSome_iff_exists.1 g2
        rw [ha, hm]; exact ⟨a, rfl⟩
      · rw [if_neg hm, Option.isNone_iff_eq_none] at g2
        rw [g2]; exact ⟨_, rfl⟩
    · rw [if_pos hm] at g2
      exact Option.isSome_iff_ne_none.1 g2
    · rw [hc] at g4
      simpa using g4
  | queryParam =>
    obtain ⟨n, hn, ⟨v, hv⟩, hp⟩ := std_query hr h
    refine ⟨⟨v, ?_⟩, ⟨nofun, nofun, nofun, nofun, nofun, fun _ => hp⟩⟩
    rw [hn]; exact hv
  | status => cases h
  | signatureParams => cases h

theorem std_in {i : CId} (hw : WfHeaders m.headers) (hs : SafeId i) (hr : Rfc.Reads w i.params)
    (h : Guard.stdIn m i = true) : (∃ v, valueIn c m (nameText i.name) w = some v) ∧ UsualIn c m (nameText i.name) w := by
  obtain ⟨n, ps⟩ := i
  cases n with
  | field f =>
    have hat := hs.noAt f rfl
    simp only [Guard.stdIn, Bool.and_eq_true, List.all_eq_true, beq_iff_eq, Bool.not_eq_true', ← Bool.not_eq_true, List.isEmpty_iff,
      getAll_fieldLines hw] at h
    obtain ⟨⟨⟨h1, h2⟩, h3⟩, h4⟩ := h
    have hlow := noUpper_lower h2
    have hsf : w.sf = false := by by_contra e; cases h1 _ (hr.sf.1 (by simpa using e))
    have hbs : w.bs = false := by by_contra e; cases h1 _ (hr.bs.1 (by simpa using e))
    have hkey : w.key = none := by
      cases hk : w.key with
      | none => rfl
      | some k => cases h1 _ ((hr.key k).1 hk)
    show (∃ v, valueIn c m f w = some v) ∧ UsualIn c m f w
    unfold valueIn UsualIn
    rw [if_neg hat, if_neg hat, if_pos hlow]
    constructor
    · refine (field_some hr (fun p hp => by rw [h1 p hp]; exact ⟨nofun, nofun⟩) (fun n hn => by cases h1 _ hn)).2
        ⟨h3, fun hx => (by cases h1 _ hx), Or.inr fun l hl => ?_⟩
      obtain ⟨t, ht, _⟩ := trimmed_line (h4 l hl)
      exact ⟨t, ht⟩
    · refine ⟨hbs, fun ts hts => ?_⟩
      unfold UsualField
      rw [hkey, hsf]
      refine ⟨fun t ht => ?_, trivial⟩
      obtain ⟨l, hl, e⟩ := forall₂_mem_right hts t ht
      obtain ⟨u, hu, hu2⟩ := trimmed_line (h4 l hl)
      rw [e] at hu; injection hu with hu; rw [hu]; exact hu2
  | derived d =>
    show (∃ v, valueIn c m d.toStr w = some v) ∧ UsualIn c m d.toStr w
    unfold valueIn UsualIn
    rw [if_pos (toStr_head d), if_pos (toStr_head d)]
    have hd := derived_params hs
    cases m with
    | req r =>
      have := std_request (c := c) hr hd h
      exact ⟨this.1, fun r' e => by injection e with e; rw [← e]; exact this.2⟩
    | res s =>
      have h : d = .status := by simpa [Guard.stdIn] using h
      subst h
      obtain ⟨h1, h2, h3, h4, h5⟩ := reads_derived hr hd
      refine ⟨⟨decimal s.status, ?_⟩, nofun⟩
      simp only [responseValue]
      rw [if_neg (by simp [h1, h2, h3, h4, h5])]
      rfl

/-- The RFC has a value for the component, and the library takes it. -/
theorem std_value {i : CId} (hw : WfHeaders m.headers) (hf : ∀ r, rf = some r → WfHeaders r.headers) (hs : SafeId i)
    (h : Guard.standard m rf i = true) : (∃ v, value c m rf (idItem i) = some v) ∧ UsualItem c m rf (idItem i) := by
  obtain ⟨w, e, hr⟩ := wants_of hs
  have hv : value c m rf (idItem i) = if w.req then (match (generalizing := false) m, rf with | .res _, some r => valueIn c (.req r) (nameText i.name) w | _, _ => none)
      else valueIn c m (nameText i.name) w := by
    unfold value idItem
    simp only
    rw [e]; rfl
  have hu : UsualItem c m rf (idItem i) ↔ if w.req then ∀ r, rf = some r → UsualIn c (.req r) (nameText i.name) w else UsualIn c m (nameText i.name) w := by
    constructor
    · intro h; exact h _ w rfl e
    · intro h name w' h1 h2
      have h1 : nameText i.name = name := by injection h1
      have h2 : wants (i.params.map paramKV) = some w' := h2
      rw [e] at h2; injection h2 with h2; subst h1; subst h2; exact h
  rw [hv, hu]
  unfold Guard.standard at h
  by_cases hq : w.req = true
  · rw [if_pos (by simpa using hr.req.1 hq)] at h
    rw [if_pos hq, if_pos hq]
    cases m with
    | req _ => cases h
    | res s =>
      cases rf with
      | none => cases h
      | some r =>
        have := std_in (c := c) (m := .req r) (hf r rfl) hs hr h
        exact ⟨this.1, fun r' e => by injection e with e; rw [← e]; exact this.2⟩
  · rw [if_neg (by simpa using fun hx => hq (hr.req.2 hx))] at h
    rw [if_neg hq, if_neg hq]
    exact std_in hw hs hr h

/-! ### The other way round -/

theorem lower_noUpper {s : Str} (h : lowerCase s = s) : Guard.noUpper s = true := by
  unfold Guard.noUpper
  rw [List.all_eq_true]
  intro ch hc
  by_contra hx
  have hx : ('A' ≤ ch) ∧ (ch ≤ 'Z') := by simpa using hx
  have e : ch.toLower = ch := by
    clear hx
    unfold lowerCase at h
    induction s with
    | nil => cases hc
    | cons a t ih =>
      rw [List.map_cons, List.cons.injEq] at h
      rcases List.mem_cons.1 hc with rfl | hc
      · exact h.1
      · exact ih h.2 hc
  unfold Char.toLower at e
  rw [dif_pos ⟨hx.1, hx.2⟩] at e
  have := congrArg (fun x : Char => x.val) e
  simp at this

theorem line_trimmed {l : Bytes} {t : Str} (h : hvToStr l = some t) (hs : strip t = t) : Guard.trimmed l = true := by
  unfold Guard.trimmed
  rw [h]
  have h1 := Rfc.strip_head hs
  have h2 : ∀ c, t.getLast? = some c → blank c = false := by
    intro c hc
    have e : t.dropWhile blank = t := dropWhile_stop h1
    have e2 : t.reverse.dropWhile blank = t.reverse := by
      unfold strip at hs; rw [e] at hs
      have := congrArg List.reverse hs
      rwa [List.reverse_reverse] at this
    rw [← List.head?_reverse, ← e2] at hc
    have := List.head?_dropWhile_not (p := blank) t.reverse
    rw [hc] at this
    simpa using this
  simp only [Bool.and_eq_true, Bool.not_eq_true']
  constructor
  · cases hh : t.head? with
    | none => rfl
    | some c => exact h1 c hh
  · cases hh : t.getLast? with
    | none => rfl
    | some c => exact h2 c hh

theorem request_std {r : Request} {d : Derived} {ps : List CParam} (hr : Rfc.Reads w ps) (ho : ∀ p ∈ ps, p = .req)
    (hp : ∀ ch, r.uri.pathData.head? = some ch → ch = '/' ∨ ch = '*') (hv : ∀ c, ∃ v, requestValue c r d.toStr w = some v)
    (hx : ∀ c : Ctx, c.scheme ≠ [] → ExactRequest c r d.toStr w) : Guard.stdRequest r ps d = true := by
  have hx0 := hx ⟨fun _ => none, c! "x"⟩ (by decide)
  obtain ⟨v, hv0⟩ := hv ⟨fun _ => none, c! "x"⟩
  have hname : w.name = none := by
    cases hk : w.name with
    | none => rfl
    | some k => cases ho _ ((hr.name k).1 hk)
  unfold requestValue at hv0
  split at hv0
  · cases hv0
  rw [hname] at hv0
  cases d with
  | method =>
    show Guard.noLower r.method = true
    unfold Guard.noLower
    rw [List.all_eq_true]
    intro ch hc
    have := hx0.method rfl ch hc
    rw [Bool.not_eq_true', ← Bool.not_eq_true, Bool.and_eq_true, decide_eq_true_eq, decide_eq_true_eq]
    exact this
  | path => rfl
  | query => rfl
  | targetUri =>
    have hs := hx0.targetUri rfl
    have hv0 : (target _ r).map _ = some v := hv0
    obtain ⟨sa, ht, _⟩ := Option.map_eq_some_iff.1 hv0
    unfold target at ht
    obtain ⟨s, hs⟩ := Option.ne_none_iff_exists'.1 hs
    rw [hs] at ht
    simp only [Guard.stdRequest, hs]
    cases ha : r.uri.authority with
    | none => rw [ha] at ht; cases ht
    | some a => rfl
  | scheme =>
    have hs := hx0.scheme rfl
    have hv0 : (target _ r).map _ = some v := hv0
    obtain ⟨sa, ht, _⟩ := Option.map_eq_some_iff.1 hv0
    unfold target at ht
    obtain ⟨s, hs⟩ := Option.ne_none_iff_exists'.1 hs
    rw [hs] at ht
    simp only [Guard.stdRequest, hs]
    cases ha : r.uri.authority with
    | none => rw [ha] at ht; cases ht
    | some a => rfl
  | authority =>
    obtain ⟨a, ha, _⟩ := hx0.authority rfl
    have hv0 : (target _ r).bind _ = some v := hv0
    obtain ⟨sa, ht, hau⟩ := Option.bind_eq_some_iff.1 hv0
    have hsa : sa.2 = a := by
      unfold target at ht
      rw [ha] at ht
      cases hs : r.uri.scheme with
      | none => rw [hs] at ht; injection ht with ht; rw [← ht]
      | some s => rw [hs] at ht; injection ht with ht; rw [← ht]
    have hat : '@' ∉ a := by
      intro hx
      rw [← hsa] at hx
      rw [authority_none.2 hx] at hau; cases hau
    have hsuf : ∀ p ∈ Guard.leftOut r.uri.scheme, ¬ p <:+ a := by
      intro p hp
      obtain ⟨s, hs⟩ := leftOut_port.1 hp
      by_cases hse : s = []
      · subst hse
        cases ho : r.uri.scheme with
        | none => rw [ho] at hs; cases hs
        | some s0 =>
          obtain ⟨b, hb, hb2⟩ := hx0.authority rfl
          rw [ha] at hb; injection hb with hb; subst hb
          refine hb2 p ?_
          rw [ho] at hs ⊢; exact hs
      · obtain ⟨b, hb, hb2⟩ := (hx ⟨fun _ => none, s⟩ hse).authority rfl
        rw [ha] at hb; injection hb with hb; subst hb
        exact hb2 p hs
    simp only [Guard.stdRequest, ha, Option.any_some, Bool.and_eq_true, List.all_eq_true, Bool.not_eq_true', ← Bool.not_eq_true,
      List.isSuffixOf_iff_suffix, List.contains_iff_mem]
    exact ⟨hat, hsuf⟩
  | requestTarget =>
    obtain ⟨g1, g2, g3, _⟩ := hx0.requestTarget rfl
    have hv0 : requestTarget r = some v := hv0
    unfold requestTarget at hv0
    rw [g1] at hv0
    simp only [Guard.stdRequest, Bool.and_eq_true, Option.isNone_iff_eq_none, Bool.or_eq_true, bne_iff_ne, beq_iff_eq]
    refine ⟨⟨⟨g1, ?_⟩, ?_⟩, ?_⟩
    · by_cases hm : r.method = c! "CONNECT"
      · rw [if_pos hm]; exact Option.isSome_iff_ne_none.2 (g2 hm)
      · rw [if_neg hm]
        cases ha : r.uri.authority with
        | none => rfl
        | some a => rw [ha] at hv0; simp only at hv0; rw [if_neg hm] at hv0; cases hv0
    · by_cases hm : r.method = c! "OPTIONS"
      · exact Or.inr (g3 hm)
      · exact Or.inl hm
    · split
      · rename_i ch hc; simpa using hp ch hc
      · rfl
  | queryParam => cases hv0
  | status => cases hv0
  | signatureParams => cases hv0

theorem in_std {i : CId} (hw : WfHeaders m.headers) (hs : SafeId i) (hr : Rfc.Reads w i.params) (ho : ∀ p ∈ i.params, p = .req)
    (hp : ∀ r, m = .req r → ∀ ch, r.uri.pathData.head? = some ch → ch = '/' ∨ ch = '*')
    (hv : ∀ c, ∃ v, valueIn c m (nameText i.name) w = some v) (hx : ∀ c : Ctx, c.scheme ≠ [] → ExactIn c m (nameText i.name) w) :
    Guard.stdIn m i = true := by
  obtain ⟨n, ps⟩ := i
  have hx0 := hx ⟨fun _ => none, c! "x"⟩ (by decide)
  obtain ⟨v, hv0⟩ := hv ⟨fun _ => none, c! "x"⟩
  cases n with
  | field f =>
    have hat := hs.noAt f rfl
    have hx0 : ExactIn _ m f w := hx0
    have hv0 : valueIn _ m f w = some v := hv0
    unfold ExactIn at hx0
    unfold valueIn at hv0
    rw [if_neg hat] at hx0 hv0
    split at hv0
    · rename_i hlow
      obtain ⟨g1, _, g3⟩ := (field_some hr (fun p hp => by rw [ho p hp]; exact ⟨nofun, nofun⟩) (fun n hn => by cases ho _ hn)).1 ⟨v, hv0⟩
      have g3 := g3.resolve_left fun h => by cases ho _ h
      simp only [Guard.stdIn, Bool.and_eq_true, List.all_eq_true, beq_iff_eq, Bool.not_eq_true', ← Bool.not_eq_true, List.isEmpty_iff,
        getAll_fieldLines hw]
      refine ⟨⟨⟨ho, lower_noUpper hlow⟩, g1⟩, fun l hl => ?_⟩
      obtain ⟨t, ht⟩ := g3 l hl
      exact line_trimmed ht (hx0.2 l hl t ht)
    · cases hv0
  | derived d =>
    have hat := toStr_head d
    cases m with
    | req r =>
      refine request_std hr ho (hp r rfl) (fun c => ?_) (fun c hc => ?_)
      · obtain ⟨v, hv⟩ := hv c
        have hv : valueIn c (.req r) d.toStr w = some v := hv
        unfold valueIn at hv
        rw [if_pos hat] at hv
        exact ⟨v, hv⟩
      · have := hx c hc
        have : ExactIn c (.req r) d.toStr w := this
        unfold ExactIn at this
        rw [if_pos hat] at this
        exact this r rfl
    | res s =>
      have hv0 : valueIn _ (.res s) d.toStr w = some v := hv0
      unfold valueIn at hv0
      rw [if_pos hat] at hv0
      simp only [responseValue] at hv0
      split at hv0
      · cases hv0
      · cases d <;> first | rfl | cases hv0
end
end Verif
