import Verif.Spec.RfcLax
import Verif.Props.C76
import Verif.Props.C75
/-!
C92: where the library has a signature base though RFC 9421 defines none, and the other way round.
-/
namespace Verif
open Sfv Spec Rfc9421

theorem known_kv (p : CParam) : known (paramKV p) = true := by cases p <;> rfl

theorem paramKV_inj : Function.Injective paramKV := by
  intro a b h
  cases a <;> cases b <;> simp_all [paramKV]

/-- The parameters of an identifier, as the RFC reads them. -/
theorem wants_of {i : CId} (hs : SafeId i) : ∃ w, wants (i.params.map paramKV) = some w ∧ Rfc.Reads w i.params := by
  have h : ∃ w, wants (i.params.map paramKV) = some w := by
    unfold wants
    rw [if_pos]
    · exact ⟨_, rfl⟩
    · rw [List.all_eq_true]
      intro x hx
      obtain ⟨p, _, rfl⟩ := List.mem_map.1 hx
      exact known_kv p
  obtain ⟨w, hw⟩ := h
  obtain ⟨cps, h1, h2⟩ := Rfc.wants_reads (by
    rw [List.map_map, show Prod.fst ∘ paramKV = paramLabel from by funext p; exact paramKV_fst p]; exact hs.distinct) hw
  exact ⟨w, hw, by rwa [List.map_injective_iff.2 paramKV_inj h1] at h2⟩

theorem item_eq {it : Item} {i : CId} (hs : SafeId i) (hl : LegalItem it) (h : serItem it = idText i) : it = idItem i := by
  rw [← C58_id_text, disp_eq_ser hs] at h
  exact Rfc.serItem_inj hl (idItem_legal hs) h

section
variable {c : Ctx} {w : Wants}

theorem strip_mem {ch : Char} (hb : blank ch = false) (t : Str) : ch ∈ strip t ↔ ch ∈ t := by
  have drop : ∀ s : Str, ch ∈ s.dropWhile blank ↔ ch ∈ s := by
    intro s
    induction s with
    | nil => simp
    | cons a s ih =>
      rw [List.dropWhile_cons]
      split
      · rename_i ha
        rw [ih, List.mem_cons]
        constructor
        · exact Or.inr
        · rintro (rfl | h)
          · rw [ha] at hb; cases hb
          · exact h
      · rfl
  unfold strip
  rw [List.mem_reverse, drop, List.mem_reverse, drop]

theorem target_none {r : Request} : target c r = none ↔ NoTarget r := by
  unfold target NoTarget HostText
  simp only [linesOf_eq, lineText_iff]
  cases hs : r.uri.scheme <;> cases ha : r.uri.authority <;> simp
  split
  · rename_i l hl
    rw [hl]
    simp [Option.eq_none_iff_forall_ne_some]
  · rename_i hl
    simp only [true_iff]
    intro t l h
    exact absurd h (hl l)

theorem authority_none {s a : Str} : Rfc9421.authority s a = none ↔ '@' ∈ a := by
  unfold Rfc9421.authority
  split
  · rename_i h; simp [h]
  · rename_i h
    split <;> simp [h]

theorem rfcAuthority_none {r : Request} : (target c r).bind (fun sa => Rfc9421.authority sa.1 sa.2) = none ↔ LaxRequest r ps .authority := by
  rw [Option.bind_eq_none_iff]
  constructor
  · intro h
    cases ht : target c r with
    | none => exact .authority (target_none.1 ht)
    | some sa =>
      have h := authority_none.1 (h sa ht)
      unfold target at ht
      split at ht
      · rename_i ha; cases ht; exact .userinfo ha h
      · rename_i ha; cases ht; exact .userinfo ha h
      · rename_i hs ha
        split at ht
        · rename_i l hl
          obtain ⟨t, h1, rfl⟩ := Option.map_eq_some_iff.1 ht
          exact .hostUserinfo ha hs ⟨l, by rw [linesOf_eq]; exact hl, lineText_iff.2 h1⟩ ((strip_mem (by decide) _).1 h)
        · cases ht
      · cases ht
  · intro h sa ht
    rw [authority_none]
    cases h with
    | authority h => rw [target_none.2 h] at ht; cases ht
    | userinfo h1 h2 =>
      unfold target at ht
      rw [h1] at ht
      cases hs : r.uri.scheme with
      | none => rw [hs] at ht; cases ht; exact h2
      | some s => rw [hs] at ht; cases ht; exact h2
    | hostUserinfo h1 h2 h3 h4 =>
      obtain ⟨l, h3, h5⟩ := h3
      rw [linesOf_eq] at h3
      unfold target at ht
      rw [h1, h2] at ht
      simp only at ht
      rw [h3] at ht
      simp only at ht
      rw [lineText_iff.1 h5] at ht
      cases ht
      exact (strip_mem (by decide) _).2 h4

theorem requestTarget_none {r : Request} : requestTarget r = none ↔ LaxRequest r ps .requestTarget := by
  unfold requestTarget
  cases hs : r.uri.scheme <;> cases ha : r.uri.authority
  · simp only [reduceCtorEq, false_iff]
    intro h
    cases h with
    | authorityForm _ h _ => exact h ha
    | noForm h _ => exact h hs
  · by_cases hm : r.method = c! "CONNECT"
    · simp only [hm, if_true, reduceCtorEq, false_iff]
      intro h
      cases h with
      | authorityForm _ _ h => exact h hm
      | noForm h _ => exact h hs
    · simp only [hm, if_false, true_iff]
      exact .authorityForm hs (by rw [ha]; simp) hm
  · simp only [true_iff]
    exact .noForm (by rw [hs]; simp) ha
  · simp only [reduceCtorEq, false_iff]
    intro h
    cases h with
    | authorityForm h _ _ => rw [hs] at h; cases h
    | noForm _ h => rw [ha] at h; cases h

theorem queryParam_none {q n : Str} : queryParam q n = none ↔ ((pieces q).filter fun p => reencode (pair p).1 = n).length ≠ 1 := by
  have e : (((pieces q).map pair).filter fun kv => reencode kv.1 = n) = ((pieces q).filter fun p => reencode (pair p).1 = n).map pair := by
    rw [List.filter_map]; rfl
  unfold queryParam
  rw [e]
  generalize (pieces q).filter (fun p => reencode (pair p).1 = n) = l
  match l with
  | [] => simp
  | [a] => simp
  | a :: b :: t => simp

theorem pieces_ne {q : Str} : pieces q ≠ [] ↔ ∃ ch ∈ q, ch ≠ '&' := by
  rw [ne_eq, pieces_nil]; simp

theorem queryParam_some {q n v : Str} (h : queryParam q n = some v) : pieces q ≠ [] := by
  intro e
  unfold queryParam at h
  rw [e] at h
  cases h

/-- A derived component of a request for which the library has a value. -/
theorem request_none {r : Request} {d : Derived} {ps : List CParam} (hr : Rfc.Reads w ps) (hd : DerivedParams d ps) :
    (requestValue c r d.toStr w = none ∧ ∃ v, RequestValue r d ps v) ↔ LaxRequest r ps d := by
  have hsf : w.sf = false := by
    by_contra h; rcases hd _ (hr.sf.1 (by simpa using h)) with e | ⟨_, _, e⟩ <;> cases e
  have hbs : w.bs = false := by
    by_contra h; rcases hd _ (hr.bs.1 (by simpa using h)) with e | ⟨_, _, e⟩ <;> cases e
  have htr : w.tr = false := by
    by_contra h; rcases hd _ (hr.tr.1 (by simpa using h)) with e | ⟨_, _, e⟩ <;> cases e
  have hkey : w.key = none := by
    cases hk : w.key with
    | none => rfl
    | some k => rcases hd _ ((hr.key k).1 hk) with e | ⟨_, _, e⟩ <;> cases e
  have hname : d ≠ .queryParam → w.name = none := by
    intro hne
    cases hk : w.name with
    | none => rfl
    | some k => rcases hd _ ((hr.name k).1 hk) with e | ⟨e, _⟩
                · cases e
                · exact absurd e hne
  unfold requestValue
  rw [if_neg (by rw [hsf, hbs, htr, hkey]; simp)]
  by_cases hq : d = .queryParam
  · subst hq
    rw [if_pos (by rfl)]
    have find : ∀ n, ps.findSome? CParam.nameOf = some n ↔ w.name = some n := by
      intro n
      have one : ∀ n, ps.findSome? CParam.nameOf = some n → w.name = some n := by
        intro n h
        obtain ⟨q, h1, h2⟩ := List.exists_of_findSome?_eq_some h
        cases q with
        | name k => simp only [CParam.nameOf, Option.some.injEq] at h2; subst h2; exact (hr.name k).2 h1
        | _ => simp [CParam.nameOf] at h2
      refine ⟨one n, fun h => ?_⟩
      cases hfs : ps.findSome? CParam.nameOf with
      | none =>
        rw [List.findSome?_eq_none_iff] at hfs
        exact absurd (hfs _ ((hr.name n).1 h)) (by simp [CParam.nameOf])
      | some k => rw [one k hfs] at h; exact h
    show _ ∧ (∃ v n, _ ∧ _ ∧ _) ↔ _
    constructor
    · rintro ⟨h1, v, n, h2, h3, _⟩
      have h2 := (find n).1 h2
      rw [h2, Option.bind_some, queryParam_none] at h1
      exact .queryParam ((hr.name n).1 h2) (pieces_ne.1 h3) h1
    · intro h
      cases h
      rename_i n h1 h2 h3
      have h1 := (hr.name n).2 h1
      rw [h1, Option.bind_some, queryParam_none]
      exact ⟨h3, _, n, (find n).2 h1, pieces_ne.2 h2, rfl⟩
  rw [hname hq]
  cases d with
  | queryParam => exact absurd rfl hq
  | method => refine iff_of_false ?_ nofun; rintro ⟨h, _⟩; cases h
  | path => refine iff_of_false ?_ nofun; rintro ⟨h, _⟩; cases h
  | query => refine iff_of_false ?_ nofun; rintro ⟨h, _⟩; cases h
  | status => refine iff_of_false ?_ nofun; rintro ⟨_, _, h⟩; cases h
  | targetUri =>
    show Option.map _ (target c r) = none ∧ _ ↔ _
    rw [Option.map_eq_none_iff, target_none]
    exact ⟨fun h => .targetUri h.1, fun h => by cases h; rename_i h; exact ⟨h, _, rfl⟩⟩
  | scheme =>
    show Option.map _ (target c r) = none ∧ _ ↔ _
    rw [Option.map_eq_none_iff, target_none]
    exact ⟨fun h => .scheme h.1, fun h => by cases h; rename_i h; exact ⟨h, _, rfl⟩⟩
  | authority =>
    show Option.bind (target c r) (fun sa => Rfc9421.authority sa.1 sa.2) = none ∧ _ ↔ _
    rw [rfcAuthority_none]
    exact ⟨fun h => h.1, fun h => ⟨h, _, rfl⟩⟩
  | requestTarget =>
    show requestTarget r = none ∧ _ ↔ _
    rw [requestTarget_none]
    exact ⟨fun h => h.1, fun h => ⟨h, _, rfl⟩⟩
  | signatureParams =>
    constructor
    · rintro ⟨_, v, h⟩; exact .signatureParams (wireSigParams_iff.2 h)
    · intro h; cases h; rename_i v h; exact ⟨rfl, v, wireSigParams_iff.1 h⟩

theorem wants_none (hr : Rfc.Reads w []) : w.sf = false ∧ w.bs = false ∧ w.tr = false ∧ w.key = none ∧ w.name = none := by
  refine ⟨?_, ?_, ?_, ?_, ?_⟩
  · by_contra h; cases hr.sf.1 (by simpa using h)
  · by_contra h; cases hr.bs.1 (by simpa using h)
  · by_contra h; cases hr.tr.1 (by simpa using h)
  · cases hk : w.key with
    | none => rfl
    | some k => cases (hr.key k).1 hk
  · cases hk : w.name with
    | none => rfl
    | some k => cases (hr.name k).1 hk

theorem response_none {s : Response} {d : Derived} {ps : List CParam} (hr : Rfc.Reads w ps) (hps : ps = []) :
    (responseValue s d.toStr w = none ∧ ∃ v, ResponseValue s d v) ↔ d = .signatureParams ∧ ∃ v, Wire.SigParamsValue s.headers v := by
  subst hps
  have hw := wants_none hr
  unfold responseValue
  rw [if_neg (by rw [hw.1, hw.2.1, hw.2.2.1, hw.2.2.2.1, hw.2.2.2.2]; simp)]
  cases d with
  | status => refine iff_of_false ?_ (by rintro ⟨h, _⟩; cases h); rintro ⟨h, _⟩; cases h
  | signatureParams =>
    constructor
    · rintro ⟨_, v, h⟩; exact ⟨rfl, v, wireSigParams_iff.2 h⟩
    · rintro ⟨_, v, h⟩; exact ⟨rfl, v, wireSigParams_iff.1 h⟩
  | _ => refine iff_of_false ?_ (by rintro ⟨h, _⟩; cases h); rintro ⟨_, _, h⟩; cases h

theorem applied_which {ps : List CParam} (hp : ∀ p ∈ ps, p ≠ .sf ∧ ∀ k, p ≠ .key k) {vs out : List Str} :
    Applied ps vs out ↔ (∀ p ∈ ps, p = .req) ∧ out = vs := by
  constructor
  · intro h
    have : ∀ p ∈ ps, p = .req := by
      induction h with
      | done => simp
      | req _ ih =>
        intro p h
        rcases List.mem_cons.1 h with rfl | h
        · rfl
        · exact ih (fun p hp' => hp p (by simp [hp'])) p h
      | sf _ _ _ => exact absurd rfl (hp .sf (by simp)).1
      | @key k _ _ _ _ _ _ _ => exact absurd rfl ((hp (.key k) (by simp)).2 k)
    exact ⟨this, (applied_reqs this).1 h⟩
  · rintro ⟨h1, rfl⟩; exact Rfc.applied_req h1 _

theorem texts_exist {ls : List Bytes} : (∃ ts, LineTexts ls ts) ↔ ∀ l ∈ ls, ∃ t, hvToStr l = some t := by
  constructor
  · rintro ⟨ts, h⟩ l hl
    obtain ⟨t, _, e⟩ := forall₂_mem_left h l hl
    exact ⟨t, e⟩
  · intro h
    induction ls with
    | nil => exact ⟨[], .nil⟩
    | cons l ls ih =>
      obtain ⟨ts, hts⟩ := ih (fun l hl => h l (by simp [hl]))
      obtain ⟨t, ht⟩ := h l (by simp)
      exact ⟨t :: ts, .cons ht hts⟩

/-- A value of a field in the library. -/
theorem field_has {h : Headers} {f : Str} {ps : List CParam} (hp : ∀ p ∈ ps, p ≠ .sf ∧ ∀ k, p ≠ .key k) :
    (∃ v, FieldValue h f ps v) ↔ (∀ p ∈ ps, p = .req) ∧ ∀ l ∈ fieldLines h f, ∃ t, hvToStr l = some t := by
  rw [← texts_exist]
  constructor
  · rintro ⟨v, ts, out, h1, h2, _⟩
    exact ⟨((applied_which hp).1 h2).1, ts, h1⟩
  · rintro ⟨h1, ts, h2⟩
    exact ⟨_, ts, ts, h2, (applied_which hp).2 ⟨h1, rfl⟩, rfl⟩

/-- A value of a field in the RFC. -/
theorem field_some {h : Headers} {f : Str} {ps : List CParam} (hr : Rfc.Reads w ps) (hp : ∀ p ∈ ps, p ≠ .sf ∧ ∀ k, p ≠ .key k)
    (hn : ∀ n, CParam.name n ∉ ps) : (∃ v, fieldValue c h f w = some v) ↔
      fieldLines h f ≠ [] ∧ CParam.tr ∉ ps ∧ (CParam.bs ∈ ps ∨ ∀ l ∈ fieldLines h f, ∃ t, hvToStr l = some t) := by
  have hsf : w.sf = false := by
    by_contra e; exact (hp _ (hr.sf.1 (by simpa using e))).1 rfl
  have hkey : w.key = none := by
    cases hk : w.key with
    | none => rfl
    | some k => exact absurd rfl ((hp _ ((hr.key k).1 hk)).2 k)
  have hname : w.name = none := by
    cases hk : w.name with
    | none => rfl
    | some k => exact absurd ((hr.name k).1 hk) (hn k)
  unfold fieldValue
  simp only [hsf, hkey, hname]
  by_cases hl : fieldLines h f = []
  · simp [hl]
  by_cases ht : w.tr = true
  · simp [ht, hr.tr.1 ht]
  rw [if_neg (by simp [hl, ht])]
  by_cases hb : w.bs = true
  · rw [if_pos hb]
    simp [hl, hr.bs.1 hb, mt hr.tr.2 ht]
  · rw [if_neg hb, ← texts_exist]
    simp only [Bool.false_eq_true, if_false, ne_eq, hl, not_false_eq_true, mt hr.tr.2 ht, mt hr.bs.2 hb, false_or, true_and]
    constructor
    · rintro ⟨v, e⟩
      obtain ⟨ts, e, _⟩ := Option.bind_eq_some_iff.1 e
      exact ⟨ts, Rfc.allSome_texts e⟩
    · rintro ⟨ts, e⟩
      have : allSome ((fieldLines h f).map hvToStr) = some ts := by
        rw [Rfc.allSome_iff, List.forall₂_map_left_iff]; exact e
      rw [this]; exact ⟨_, rfl⟩

/-- The parameters of a derived component. -/
theorem derived_params {d : Derived} {ps : List CParam} (hs : SafeId ⟨.derived d, ps⟩) : DerivedParams d ps := by
  intro p hp
  have no : ¬ ∃ f, (⟨.derived d, ps⟩ : CId).name = .field f := by rintro ⟨f, h⟩; cases h
  cases p with
  | req => exact Or.inl rfl
  | name n =>
    have := hs.name n hp
    injection this with this
    exact Or.inr ⟨this, n, rfl⟩
  | sf => exact absurd (hs.fieldOnly (Or.inl hp)) no
  | bs => exact absurd (hs.fieldOnly (Or.inr (Or.inl hp))) no
  | tr => exact absurd (hs.fieldOnly (Or.inr (Or.inr (Or.inl hp)))) no
  | key k => exact absurd (hs.fieldOnly (Or.inr (Or.inr (Or.inr ⟨k, hp⟩)))) no

theorem request_has {r : Request} {d : Derived} {ps : List CParam} {v : Str} (hr : Rfc.Reads w ps)
    (h : requestValue c r d.toStr w = some v) : ∃ v, RequestValue r d ps v := by
  unfold requestValue at h
  split at h
  · cases h
  cases d with
  | queryParam =>
    rw [if_pos (by rfl)] at h
    obtain ⟨n, hn, h⟩ := Option.bind_eq_some_iff.1 h
    cases hfs : ps.findSome? CParam.nameOf with
    | none =>
      rw [List.findSome?_eq_none_iff] at hfs
      exact absurd (hfs _ ((hr.name n).1 hn)) (by simp [CParam.nameOf])
    | some k => exact ⟨_, k, hfs, queryParam_some h, rfl⟩
  | status =>
    rw [if_neg (by decide)] at h
    split at h
    · cases h
    · cases h
  | signatureParams =>
    rw [if_neg (by decide)] at h
    split at h
    · cases h
    · cases h
  | _ => exact ⟨_, rfl⟩

theorem toStr_head (d : Derived) : d.toStr.head? = some '@' := by cases d <;> rfl

theorem valueIn_lax {m : Msg} {i : CId} (hs : SafeId i) (hp : PlainId i) (hr : Rfc.Reads w i.params) (hq : (∃ r, m = .req r) ∨ CParam.req ∉ i.params) :
    (valueIn c m (nameText i.name) w = none ∧ ∃ v, ValueIn m i v) ↔ LaxIn m i := by
  obtain ⟨n, ps⟩ := i
  cases n with
  | field f =>
    have hat := hs.noAt f rfl
    have hn : ∀ n, CParam.name n ∉ ps := fun n h => by cases hs.name n h
    show (valueIn c m f w = none ∧ ∃ v, FieldValue m.headers f ps v) ↔ (∀ p ∈ ps, p = .req) ∧
      (Wire.linesOf m.headers f = [] ∨ lowerCase f ≠ f) ∧ ∀ l ∈ Wire.linesOf m.headers f, ∃ t, Wire.LineText l t
    simp only [lineText_iff, linesOf_eq]
    rw [field_has hp]
    unfold valueIn
    rw [if_neg hat]
    by_cases hl : lowerCase f = f
    · rw [if_pos hl, ← Option.not_isSome_iff_eq_none, Option.isSome_iff_exists, field_some hr hp hn]
      simp only [hl, ne_eq, not_true, or_false]
      constructor
      · rintro ⟨h1, h2, h3⟩
        refine ⟨h2, ?_, h3⟩
        by_contra h4
        exact h1 ⟨h4, (fun h => by cases (h2 _ h)), Or.inr h3⟩
      · rintro ⟨h1, h2, h3⟩
        exact ⟨fun h => h.1 h2, h1, h3⟩
    · rw [if_neg hl]
      exact ⟨fun h => ⟨h.2.1, Or.inr hl, h.2.2⟩, fun h => ⟨rfl, h.1, h.2.2⟩⟩
  | derived d =>
    have hd := derived_params hs
    unfold valueIn
    rw [show nameText (.derived d) = d.toStr from rfl, if_pos (toStr_head d)]
    cases m with
    | req r =>
      have := request_none (c := c) (r := r) hr hd
      rw [show LaxIn (.req r) ⟨.derived d, ps⟩ ↔ LaxRequest r ps d from Iff.rfl, ← this]
      exact and_congr_right fun _ => exists_congr fun v => ⟨fun h => h.2, fun h => ⟨hd, h⟩⟩
    | res s =>
      have hreq : CParam.req ∉ ps := by
        rcases hq with ⟨r, h⟩ | h
        · cases h
        · exact h
      rw [show LaxIn (.res s) ⟨.derived d, ps⟩ ↔ (d = .signatureParams ∧ ∃ v, Wire.SigParamsValue s.headers v) from Iff.rfl]
      show (responseValue s d.toStr w = none ∧ ∃ v, ps = [] ∧ ResponseValue s d v) ↔ _
      by_cases hps : ps = []
      · rw [← response_none hr hps]
        simp [hps]
      · refine iff_of_false ?_ ?_
        · rintro ⟨_, _, h, _⟩; exact hps h
        · rintro ⟨rfl, _⟩
          obtain ⟨p, h⟩ := List.exists_mem_of_ne_nil _ hps
          rcases hd p h with rfl | ⟨h', _⟩
          · exact hreq h
          · cases h'

theorem valueIn_missing {m : Msg} {i : CId} {v : Str} (hs : SafeId i) (hp : PlainId i) (hr : Rfc.Reads w i.params)
    (hq : (∃ r, m = .req r) ∨ CParam.req ∉ i.params) (h : valueIn c m (nameText i.name) w = some v) :
    (∃ v, ValueIn m i v) ↔ CParam.bs ∉ i.params := by
  obtain ⟨n, ps⟩ := i
  cases n with
  | field f =>
    have hn : ∀ n, CParam.name n ∉ ps := fun n h => by cases hs.name n h
    unfold valueIn at h
    rw [show nameText (.field f) = f from rfl, if_neg (hs.noAt f rfl)] at h
    split at h
    · obtain ⟨h1, h2, h3⟩ := (field_some hr hp hn).1 ⟨v, h⟩
      show (∃ v, FieldValue m.headers f ps v) ↔ CParam.bs ∉ ps
      rw [field_has hp]
      constructor
      · rintro ⟨h4, _⟩ h5; cases h4 _ h5
      · intro h4
        refine ⟨?_, h3.resolve_left h4⟩
        intro p hpp
        cases p with
        | req => rfl
        | sf => exact absurd rfl (hp _ hpp).1
        | key k => exact absurd rfl ((hp _ hpp).2 k)
        | bs => exact absurd hpp h4
        | tr => exact absurd hpp h2
        | name n => exact absurd hpp (hn n)
    · cases h
  | derived d =>
    have hd := derived_params hs
    have hb : CParam.bs ∉ ps := by
      intro h; rcases hd _ h with e | ⟨_, _, e⟩ <;> cases e
    refine iff_of_true ?_ hb
    unfold valueIn at h
    rw [show nameText (.derived d) = d.toStr from rfl, if_pos (toStr_head d)] at h
    cases m with
    | req r =>
      obtain ⟨v, hv⟩ := request_has hr h
      exact ⟨v, hd, hv⟩
    | res s =>
      simp only at h
      unfold responseValue at h
      split at h
      · cases h
      rename_i hx
      split at h
      · rename_i he
        have : d = .status := by revert he; cases d <;> decide
        subst this
        refine ⟨_, ?_, rfl⟩
        rcases hq with ⟨r, e⟩ | hq
        · cases e
        rw [List.eq_nil_iff_forall_not_mem]
        intro p hpp
        rcases hd p hpp with rfl | ⟨e, _⟩
        · exact hq hpp
        · cases e
      · cases h
end

section
variable {c : Ctx} {m : Msg} {rf : Option Request} {i : CId} {it : Item}

/-- C92: one component. The library has a value and the RFC has none: exactly in the listed cases. -/
theorem C92_lax (hs : SafeId i) (hp : PlainId i) (hl : LegalItem it) (ht : serItem it = idText i) :
    (value c m rf it = none ∧ ∃ v, Wire.HasValue m rf i v) ↔ Lax m rf i := by
  rw [item_eq hs hl ht]
  obtain ⟨w, hw, hr⟩ := wants_of hs
  simp only [wireHasValue_iff]
  show (Option.bind (wants (i.params.map paramKV)) _ = none ∧ _) ↔ _
  rw [hw, Option.bind_some]
  unfold HasValue Lax
  by_cases hq : CParam.req ∈ i.params
  · rw [if_pos (hr.req.2 hq)]
    simp only [hq, if_true, not_true, false_and, true_and, false_or]
    cases m with
    | req r =>
      refine iff_of_false ?_ ?_
      · rintro ⟨_, _, _, _, h, _⟩; cases h
      · rintro ⟨_, _, h, _⟩; cases h
    | res s =>
      cases rf with
      | none =>
        refine iff_of_false ?_ ?_
        · rintro ⟨_, _, _, _, _, h, _⟩; cases h
        · rintro ⟨_, _, _, h, _⟩; cases h
      | some r =>
        have := valueIn_lax (c := c) (m := .req r) hs hp hr (Or.inl ⟨r, rfl⟩)
        constructor
        · rintro ⟨h1, v, s', r', h2, h3, h4⟩
          cases h3
          exact ⟨s, r, rfl, rfl, this.1 ⟨h1, v, h4⟩⟩
        · rintro ⟨s', r', h2, h3, h4⟩
          cases h3
          obtain ⟨h5, v, h6⟩ := this.2 h4
          exact ⟨h5, v, s, r, rfl, rfl, h6⟩
  · rw [if_neg (fun e => hq (hr.req.1 e))]
    simp only [hq, if_false, not_false_eq_true, true_and, false_and, or_false]
    exact valueIn_lax hs hp hr (Or.inr hq)

/-- C92: the other way round. The RFC has a value and the library has none: only with `bs`. -/
theorem C92_missing {v : Str} (hs : SafeId i) (hp : PlainId i) (hl : LegalItem it) (ht : serItem it = idText i)
    (h : value c m rf it = some v) : (∃ v, Wire.HasValue m rf i v) ↔ CParam.bs ∉ i.params := by
  rw [item_eq hs hl ht] at h
  obtain ⟨w, hw, hr⟩ := wants_of hs
  simp only [wireHasValue_iff]
  replace h : Option.bind (wants (i.params.map paramKV)) (fun w => if w.req then
        match m, rf with
        | .res _, some r => valueIn c (.req r) (nameText i.name) w
        | _, _ => none
      else valueIn c m (nameText i.name) w) = some v := h
  rw [hw, Option.bind_some] at h
  unfold HasValue
  by_cases hq : CParam.req ∈ i.params
  · rw [if_pos (hr.req.2 hq)] at h
    simp only [hq, if_true]
    split at h
    · rename_i s r
      rw [← valueIn_missing hs hp hr (Or.inl ⟨r, rfl⟩) h]
      constructor
      · rintro ⟨v, s', r', _, e, h⟩; cases e; exact ⟨v, h⟩
      · rintro ⟨v, h⟩; exact ⟨v, s, r, rfl, rfl, h⟩
    · cases h
  · rw [if_neg (fun e => hq (hr.req.1 e))] at h
    simp only [hq, if_false]
    exact valueIn_missing hs hp hr (Or.inr hq) h

end

/-! ### Bases -/

theorem idName_inj {a b : CId} (ha : SafeId a) (hb : SafeId b) (h : nameText a.name = nameText b.name) : a.name = b.name := by
  have h1 := ofBare_nameText ha.noAt
  rw [h, ofBare_nameText hb.noAt] at h1
  injection h1 with h1; exact h1.symm

theorem same_ids {a b : CId} (ha : SafeId a) (hb : SafeId b) (h : Same (idItem a) (idItem b)) : SameId a b := by
  refine ⟨idName_inj ha hb (by simpa [idItem] using h.1), ?_⟩
  have h := h.2
  exact (List.map_perm_map_iff paramKV_inj).1 h

theorem lines_exist {m : Msg} {rf : Option Request} {ids : List CId} : (∃ t, Wire.Lines m rf ids t) ↔ ∀ i ∈ ids, ∃ v, Wire.HasValue m rf i v := by
  constructor
  · rintro ⟨t, h⟩
    induction h with
    | nil => simp
    | cons h _ ih =>
      intro i hi
      rcases List.mem_cons.1 hi with rfl | hi
      · exact ⟨_, h⟩
      · exact ih i hi
  · intro h
    induction ids with
    | nil => exact ⟨_, .nil⟩
    | cons i ids ih =>
      obtain ⟨t, ht⟩ := ih (fun i hi => h i (by simp [hi]))
      obtain ⟨v, hv⟩ := h i (by simp)
      exact ⟨_, .cons hv ht⟩

section
variable {c : Ctx} {m : Msg} {rf : Option Request} {l : InnerList} {p : SigParams}

theorem inner_eq (hs : SafeParams p) (hl : LegalEntry (.inner l)) (ht : serInner l = paramsText p) : l = ⟨p.covered.map idItem, paramsKV p⟩ := by
  have e1 : serList [.inner l] = some (serInner l) := by simp [serList, serEntry]
  have e2 : serList [paramsEntry p] = some (serInner l) := by
    rw [ht, ← C58_params_text, params_disp_eq hs]; simp [serList]
  have := C32_serialization_injective.1 [.inner l] [paramsEntry p] (by simpa [LegalList] using hl)
    (by simpa [LegalList] using paramsEntry_legal hs) (e1.trans e2.symm)
  simpa [paramsEntry] using this

theorem base_some (hs : SafeParams p) : (∃ t, base c m rf ⟨p.covered.map idItem, paramsKV p⟩ = some t) ↔
    ∀ i ∈ p.covered, ∃ v, value c m rf (idItem i) = some v := by
  have hp : (p.covered.map idItem).Pairwise (fun i j => ¬ Same i j) := by
    rw [List.pairwise_map]
    exact hs.distinct.imp_of_mem fun ha hb hn h => hn (same_ids (hs.ids _ ha) (hs.ids _ hb) h)
  constructor
  · rintro ⟨t, h⟩ i hi
    obtain ⟨_, vs, hv, _⟩ := Rfc.base_lines h
    obtain ⟨v, _, hv⟩ := forall₂_mem_left hv (idItem i) (List.mem_map_of_mem hi)
    exact ⟨v, hv⟩
  · intro h
    have : ∃ ls, allSome ((p.covered.map idItem).map (line c m rf)) = some ls := by
      simp only [Rfc.allSome_iff]
      generalize p.covered = ids at h
      clear hp
      induction ids with
      | nil => exact ⟨[], .nil⟩
      | cons i ids ih =>
        obtain ⟨ls, hls⟩ := ih (fun i hi => h i (by simp [hi]))
        obtain ⟨v, hv⟩ := h i (by simp)
        exact ⟨(serItem (idItem i) ++ c! ": " ++ v ++ c! "\n") :: ls, .cons (by unfold line; rw [hv]; rfl) hls⟩
    obtain ⟨ls, hls⟩ := this
    unfold base
    rw [if_pos hp, hls]
    exact ⟨_, rfl⟩

/-- C92: the library has a base and the RFC has none: the library has a value for every component, one of them in the listed cases. -/
theorem C92_base (hs : SafeParams p) (hp : ∀ i ∈ p.covered, PlainId i) (hl : LegalEntry (.inner l)) (ht : serInner l = paramsText p) :
    (base c m rf l = none ∧ ∃ t, Wire.BaseOf m rf p t) ↔ (∀ i ∈ p.covered, ∃ v, Wire.HasValue m rf i v) ∧ ∃ i ∈ p.covered, Lax m rf i := by
  rw [inner_eq hs hl ht, ← Option.not_isSome_iff_eq_none, Option.isSome_iff_exists, base_some hs]
  have e : (∃ t, Wire.BaseOf m rf p t) ↔ ∀ i ∈ p.covered, ∃ v, Wire.HasValue m rf i v := by
    rw [← lines_exist]
    exact ⟨fun ⟨_, t, h, _⟩ => ⟨t, h⟩, fun ⟨t, h⟩ => ⟨_, t, h, rfl⟩⟩
  rw [e, and_comm]
  refine and_congr_right fun h => ?_
  have key : ∀ i ∈ p.covered, (¬ ∃ v, value c m rf (idItem i) = some v) ↔ Lax m rf i := by
    intro i hi
    have := C92_lax (c := c) (m := m) (rf := rf) (hs.ids i hi) (hp i hi) (idItem_legal (hs.ids i hi))
      (by rw [← C58_id_text, disp_eq_ser (hs.ids i hi)])
    rw [← this, ← Option.isSome_iff_exists, Option.not_isSome_iff_eq_none]
    exact ⟨fun e => ⟨e, h i hi⟩, fun e => e.1⟩
  constructor
  · intro hn
    by_contra hc
    refine hn fun i hi => ?_
    by_contra hv
    exact hc ⟨i, hi, (key i hi).1 hv⟩
  · rintro ⟨i, hi, hx⟩ hn
    exact (key i hi).2 hx (hn i hi)

/-- C92: the RFC has a base and the library has none: only with `bs`. -/
theorem C92_base_missing {t : Str} (hs : SafeParams p) (hp : ∀ i ∈ p.covered, PlainId i) (hl : LegalEntry (.inner l))
    (ht : serInner l = paramsText p) (h : base c m rf l = some t) : (∃ t, Wire.BaseOf m rf p t) ↔ ∀ i ∈ p.covered, CParam.bs ∉ i.params := by
  rw [inner_eq hs hl ht] at h
  have e : (∃ t, Wire.BaseOf m rf p t) ↔ ∀ i ∈ p.covered, ∃ v, Wire.HasValue m rf i v := by
    rw [← lines_exist]
    exact ⟨fun ⟨_, t, h, _⟩ => ⟨t, h⟩, fun ⟨t, h⟩ => ⟨_, t, h, rfl⟩⟩
  rw [e]
  refine forall₂_congr fun i hi => ?_
  obtain ⟨v, hv⟩ := (base_some hs).1 ⟨t, h⟩ i hi
  exact C92_missing (hs.ids i hi) (hp i hi) (idItem_legal (hs.ids i hi)) (by rw [← C58_id_text, disp_eq_ser (hs.ids i hi)]) hv

end

/-! ### Cases of each kind -/

def y92 : Request := xReq "GET" none none "/p" (some "a=1&a=2") [(c! "signature-input", utf8 (c! "old=()"))]
def i92 (n : CName) : CId := ⟨n, []⟩

theorem i92_derived (d : Derived) : SafeId (i92 (.derived d)) ∧ PlainId (i92 (.derived d)) :=
  ⟨{ distinct := by simp [i92]
     name := nofun
     fieldOnly := by rintro (h | h | h | ⟨_, h⟩) <;> cases h
     noAt := nofun
     nameText := nofun
     keyText := nofun
     nameParam := nofun }, nofun⟩

/-- No authority and no Host: the RFC has no `@target-uri`, the library takes the path and the query for it. -/
example : Rfc9421.value xCtx (.req y92) none ⟨.str (c! "@target-uri"), []⟩ = none ∧
    ∃ v, Wire.HasValue (.req y92) none (i92 (.derived .targetUri)) v :=
  (C92_lax (i92_derived _).1 (i92_derived _).2 (str_legal (by decide)) (by decide)).2
    (Or.inl ⟨nofun, .targetUri ⟨rfl, Or.inr (by rintro t ⟨l, h, _⟩; revert h; show ([] : List Bytes) = [l] → False; simp)⟩⟩)

/-- `@signature-params` as a covered component: the RFC forbids it, the library takes what is in Signature-Input. -/
example : Rfc9421.value xCtx (.req y92) none ⟨.str (c! "@signature-params"), []⟩ = none ∧
    ∃ v, Wire.HasValue (.req y92) none (i92 (.derived .signatureParams)) v :=
  (C92_lax (i92_derived _).1 (i92_derived _).2 (str_legal (by decide)) (by decide)).2
    (Or.inl ⟨nofun, .signatureParams (v := c! "()") (wireSigParams_iff.2 ⟨utf8 (c! "old=()"), c! "old=()", c! "old", by decide, Or.inl (by decide), by decide, by decide⟩)⟩)

/-- Two query parameters with the name. -/
example : Lax (.req y92) none ⟨.derived .queryParam, [.name (c! "a")]⟩ :=
  Or.inl ⟨(by simp), .queryParam (n := c! "a") (by simp) ⟨'a', by decide, by decide⟩ (by decide +kernel)⟩

/-- `@method` is in none of the cases. -/
example : ¬ Lax (.req y92) none (i92 (.derived .method)) := by
  rintro (⟨_, h⟩ | ⟨h, _⟩)
  · cases h
  · cases h

def p92 (ids : List CId) : SigParams := { covered := ids }

theorem i92_field {f : Str} {ps : List CParam} (h1 : f.head? ≠ some '@') (h2 : SafeText f) (h3 : (ps.map paramLabel).Nodup)
    (h4 : ∀ p ∈ ps, p = .req ∨ p = .bs) : SafeId ⟨.field f, ps⟩ ∧ PlainId ⟨.field f, ps⟩ := by
  have no : ∀ {q}, q ∈ ps → q ≠ .req → q ≠ .bs → False := by
    intro q h a b
    rcases h4 q h with e | e
    · exact a e
    · exact b e
  exact ⟨{ distinct := h3
           name := fun n h => (no h nofun nofun).elim
           fieldOnly := fun _ => ⟨f, rfl⟩
           noAt := by intro g hg; injection hg with hg; subst hg; exact h1
           nameText := by intro g hg; injection hg with hg; subst hg; exact h2
           keyText := fun n h => (no h nofun nofun).elim
           nameParam := fun n h => (no h nofun nofun).elim },
    fun p hp => ⟨by rintro rfl; exact no hp nofun nofun, by rintro k rfl; exact no hp nofun nofun⟩⟩

theorem p92_safe {ids : List CId} (h1 : ∀ i ∈ ids, SafeId i) (h2 : ids.Pairwise (fun a b => ¬ SameId a b)) : SafeParams (p92 ids) :=
  ⟨nofun, nofun, nofun, nofun, nofun, nofun, h1, h2⟩

/-- `("@method" "digest")` without a field `digest`: no base by the RFC, but the library signs and verifies one. -/
example : base xCtx (.req y92) none ⟨[⟨.str (c! "@method"), []⟩, ⟨.str (c! "digest"), []⟩], []⟩ = none ∧
    ∃ t, Wire.BaseOf (.req y92) none (p92 [i92 (.derived .method), i92 (.field (c! "digest"))]) t := by
  have hf := i92_field (f := c! "digest") (ps := []) (by decide) (by decide) (by decide) (by simp)
  refine (C92_base (p92_safe ?_ (by simp [i92, SameId])) ?_ ?_ (by decide)).2 ⟨?_, i92 (.field (c! "digest")), by simp [p92], Or.inl ⟨nofun, ?_⟩⟩
  · intro i hi
    rcases List.mem_pair.1 hi with rfl | rfl
    exacts [(i92_derived _).1, hf.1]
  · intro i hi
    rcases List.mem_pair.1 hi with rfl | rfl
    exacts [(i92_derived _).2, hf.2]
  · refine ⟨?_, by simp [LegalParams]⟩
    intro i hi
    rcases List.mem_pair.1 hi with rfl | rfl <;> exact str_legal (by decide)
  · intro i hi
    rcases List.mem_pair.1 hi with rfl | rfl
    · exact ⟨_, Or.inl ⟨nofun, nofun, rfl⟩⟩
    · exact ⟨[], Or.inl ⟨nofun, [], [], .nil, .done, rfl⟩⟩
  · exact ⟨nofun, Or.inl rfl, by intro l hl; cases hl⟩

/-- A field as bytes: a base by the RFC only. -/
example : ∃ t, base xCtx (.req x76) none ⟨[⟨.str (c! "host"), [(c! "bs", .bool true)]⟩], []⟩ = some t ∧
    ¬ ∃ t, Wire.BaseOf (.req x76) none (p92 [⟨.field (c! "host"), [.bs]⟩]) t := by
  have hf := i92_field (f := c! "host") (ps := [.bs]) (by decide) (by decide) (by decide) (by simp)
  obtain ⟨t, h⟩ : ∃ t, base xCtx (.req x76) none ⟨[⟨.str (c! "host"), [(c! "bs", .bool true)]⟩], []⟩ = some t :=
    Option.isSome_iff_exists.1 (by decide +kernel)
  refine ⟨t, h, ?_⟩
  rw [C92_base_missing (p92_safe ?_ (by simp)) ?_ ?_ (by decide) h]
  · intro h; exact h _ (by simp [p92]; rfl) (by simp)
  · intro i hi; rw [List.mem_singleton.1 hi]; exact hf.1
  · intro i hi; rw [List.mem_singleton.1 hi]; exact hf.2
  · refine ⟨?_, by simp [LegalParams]⟩
    intro i hi
    rw [List.mem_singleton.1 hi]
    exact ⟨by show ∀ c ∈ c! "host", Printable c; decide, by decide, by intro kv hkv; rw [List.mem_singleton.1 hkv]; exact ⟨by decide, trivial⟩⟩

end Verif
