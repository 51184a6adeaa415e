import Verif.Proofs.ParamsRead
import Verif.Model.UniqueHash
import Verif.Props.C05
/-!
C14 Duplicate covered components, C15 parameter discipline of ids, C37 check of the lines of a base.
-/
namespace Verif
open Sfv Spec

/-! ### C14 -/

/-- C14: `try_new` on ids (each with a set of parameters) accepts exactly the lists without two ids that are equal up to the
order of their parameters; it then records the ids in order and the clock reading. -/
theorem C14_try_new (now : UInt64) (ids : List CId) (hset : ∀ i ∈ ids, i.params.Nodup) :
    (ids.Pairwise (fun a b => ¬ SameId a b) → SigParams.tryNew now ids = .ok { created := some now, covered := ids }) ∧
    (¬ ids.Pairwise (fun a b => ¬ SameId a b) → SigParams.tryNew now ids = .err .invalidSignatureParams) := by
  unfold SigParams.tryNew
  constructor
  · intro h; rw [if_neg (by simp [(hasUnique_iff hset).2 h])]
  · intro h; rw [if_pos (by rw [hasUnique_iff hset]; exact h)]

/-- C14: parameters read from a header never contain two ids equal up to the order of parameters. -/
theorem C14_parsed (s : Str) (p : SigParams) (h : SigParams.ofStr s = .ok p) : p.covered.Pairwise (fun a b => ¬ SameId a b) := by
  obtain ⟨l, _, h⟩ := Res.bind_eq_ok.1 h
  split at h
  · rename_i i
    obtain ⟨ids, h1, h⟩ := Res.bind_eq_ok.1 h
    split at h
    · cases h
    rename_i hu
    simp only [Bool.not_eq_true, Bool.not_eq_false] at hu
    rw [setKVs_covered h]
    refine (hasUnique_iff ?_).1 hu
    intro j hj
    obtain ⟨it, _, hof⟩ := forall₂_mem_right (Res.collect_ok_iff.1 h1) j hj
    exact labels_nodup (ofStr_rules hof).distinct
  · cases h

/-- C14: when the covered items of a parsed inner list are ids that are pairwise different, the parameters are not refused. -/
theorem C14_never_refused (l : InnerList) (ids : List CId)
    (h : List.Forall₂ (fun i id => CId.ofStr (serItem i) = .ok id) l.items ids)
    (hd : ids.Pairwise (fun a b => ¬ SameId a b)) : ∀ e, SigParams.ofEntry (.inner l) ≠ .err e := by
  intro e he
  unfold SigParams.ofEntry at he
  simp only [Res.collect_ok_iff.2 h, Res.bind_ok] at he
  have hu : hasUnique ids = true := (hasUnique_iff (by
    intro j hj
    obtain ⟨it, _, hof⟩ := forall₂_mem_right h j hj
    exact labels_nodup (ofStr_rules hof).distinct)).2 hd
  rw [if_neg (by simp [hu])] at he
  exact setKVs_ne_err _ _ _ he

theorem sortStrs_perm {a b : List Str} (h : a.Perm b) : sortStrs a = sortStrs b := by
  unfold sortStrs
  apply List.Perm.eq_of_pairwise (le := fun a b => decide (a ≤ b))
  · intro x y _ _ h1 h2; simp at h1 h2; exact List.le_antisymm h1 h2
  · exact List.pairwise_mergeSort (fun a b c h1 h2 => by simp at *; exact List.le_trans h1 h2)
      (fun a b => by simp; exact List.le_total a b) _
  · exact List.pairwise_mergeSort (fun a b c h1 h2 => by simp at *; exact List.le_trans h1 h2)
      (fun a b => by simp; exact List.le_total a b) _
  · exact ((List.mergeSort_perm _ _).trans h).trans (List.mergeSort_perm _ _).symm

/-- C14: the hash set of the code, with the library's own hash of parameters and any hash function, gives the same answer as
comparing all pairs. -/
theorem C14_hash_set {κ : Type} [DecidableEq κ] (H : CName × List Str → κ) (ids : List CId) (hset : ∀ i ∈ ids, i.params.Nodup) :
    uniqueHashed H [] ids = true ↔ ids.Pairwise (fun a b => ¬ SameId a b) := by
  have has : ∀ s x, (∀ i ∈ s, i.params.Nodup) → (hsHas H s x = true ↔ ∃ y ∈ s, SameId y x) := by
    intro s x hs
    unfold hsHas
    rw [List.any_eq_true]
    constructor
    · rintro ⟨y, hy, h⟩
      simp only [Bool.and_eq_true, decide_eq_true_eq] at h
      exact ⟨y, hy, (eqv_iff (hs y hy)).1 h.2⟩
    · rintro ⟨y, hy, h⟩
      refine ⟨y, hy, ?_⟩
      simp only [Bool.and_eq_true, decide_eq_true_eq]
      refine ⟨?_, (eqv_iff (hs y hy)).2 h⟩
      unfold hashInput
      rw [h.1, sortStrs_perm (h.2.map _)]
  have main : ∀ (l s : List CId), (∀ i ∈ l, i.params.Nodup) → (∀ i ∈ s, i.params.Nodup) →
      (uniqueHashed H s l = true ↔ (∀ x ∈ l, ∀ y ∈ s, ¬ SameId y x) ∧ l.Pairwise (fun a b => ¬ SameId a b)) := by
    intro l
    induction l with
    | nil => intro s _ _; simp [uniqueHashed]
    | cons x t ih =>
      intro s hl hs
      have hx := hl x (by simp)
      simp only [uniqueHashed]
      by_cases hh : hsHas H s x = true
      · rw [if_pos hh]
        simp only [Bool.false_eq_true, false_iff, not_and]
        intro h
        obtain ⟨y, hy, hyx⟩ := (has s x hs).1 hh
        exact absurd hyx (h x (by simp) y hy)
      · rw [if_neg hh, ih (x :: s) (fun i hi => hl i (by simp [hi])) (by
          intro i hi; rcases List.mem_cons.1 hi with rfl | hi
          · exact hx
          · exact hs i hi)]
        rw [has s x hs] at hh
        simp only [not_exists, not_and] at hh
        rw [List.pairwise_cons]
        constructor
        · rintro ⟨h1, h2⟩
          refine ⟨?_, fun z hz => h1 z hz x (by simp), h2⟩
          intro z hz y hy
          rcases List.mem_cons.1 hz with rfl | hz
          · exact hh y hy
          · exact h1 z hz y (by simp [hy])
        · rintro ⟨h1, h2, h3⟩
          refine ⟨?_, h3⟩
          intro z hz y hy
          rcases List.mem_cons.1 hy with rfl | hy
          · exact h2 z hz
          · exact h1 z (by simp [hz]) y hy
  simpa using main ids [] hset (by simp)

-- the parameters are compared as sets
example : SigParams.ofStr (c! "(\"a\";req;sf \"a\";sf;req)") = .err .invalidSignatureParams := by decide
example : (SigParams.ofStr (c! "(\"a\";req;sf \"a\";sf)")).isOk = true := by decide
example : SameId ⟨.field (c! "a"), [.req, .sf]⟩ ⟨.field (c! "a"), [.sf, .req]⟩ := ⟨rfl, List.Perm.swap _ _ _⟩

/-! ### C15 -/

/-- C15: every id accepted from a text obeys the parameter rules. -/
theorem C15_id_rules (s : Str) (i : CId) (h : CId.ofStr s = .ok i) : IdRules i := ofStr_rules h

/-- C15: the ids inside accepted signature parameters obey them too. -/
theorem C15_covered_rules (e : Entry) (p : SigParams) (h : SigParams.ofEntry e = .ok p) : ∀ i ∈ p.covered, IdRules i := by
  cases e with
  | item i => cases h
  | inner l =>
    obtain ⟨ids, h1, h⟩ := Res.bind_eq_ok.1 h
    split at h
    · cases h
    rw [setKVs_covered h]
    intro j hj
    obtain ⟨it, _, hof⟩ := forall₂_mem_right (Res.collect_ok_iff.1 h1) j hj
    exact ofStr_rules hof

/-- C15: a name starts with `@` exactly when it is one of the ten derived components. -/
theorem C15_at_names (s : Str) (i : CId) (h : CId.ofStr s = .ok i) :
    ((nameText i.name).head? = some '@' ↔ ∃ d, i.name = .derived d) := by
  have hr := C15_id_rules s i h
  cases hn : i.name with
  | field f => simp only [nameText, reduceCtorEq, exists_false, iff_false]; exact hr.noAt f hn
  | derived d => obtain ⟨t, ht⟩ := toStr_at d; simp [nameText, ht]

example : CId.ofStr (c! "\"@method\";sf") = .err .invalidComponentId := by decide
example : CId.ofStr (c! "\"date\";name=\"x\"") = .err .invalidComponentId := by decide
example : CId.ofStr (c! "\"@query-param\";name=\"x\"") = .ok ⟨.derived .queryParam, [.name (c! "x")]⟩ := by decide

/-! ### C37 -/

/-- C37: `HttpSignatureBase::try_new` accepts exactly when line and covered id agree position by position. -/
theorem C37_try_new (lines : List Component) (p : SigParams) (hset : ∀ c ∈ lines, c.id.params.Nodup) :
    SigBase.tryNew lines p = .ok ⟨lines, p⟩ ↔ List.Forall₂ (fun c i => SameId c.id i) lines p.covered := by
  have zip : ∀ (l : List Component) (ids : List CId), (∀ c ∈ l, c.id.params.Nodup) → l.length = ids.length →
      ((l.zip ids).all (fun lc => lc.1.id.eqv lc.2) = true ↔ List.Forall₂ (fun c i => SameId c.id i) l ids) := by
    intro l
    induction l with
    | nil => intro ids _ h; cases ids <;> simp at h ⊢
    | cons c t ih =>
      intro ids hl h
      cases ids with
      | nil => simp at h
      | cons i ids =>
        simp only [List.zip_cons_cons, List.all_cons, Bool.and_eq_true, List.forall₂_cons]
        rw [ih ids (fun x hx => hl x (by simp [hx])) (by simpa using h), eqv_iff (hl c (by simp))]
  unfold SigBase.tryNew
  constructor
  · intro h
    split at h
    · cases h
    rename_i h1
    split at h
    · cases h
    rename_i h2
    exact (zip _ _ hset (by simpa using h1)).1 (by simpa using h2)
  · intro h
    rw [if_neg (by simpa using h.length_eq), if_neg (by rw [(zip _ _ hset h.length_eq).2 h]; simp)]

/-- C37: otherwise the error is `BuildSignatureBaseError`; it never panics. -/
theorem C37_try_new_err (lines : List Component) (p : SigParams) (h : ∀ b, SigBase.tryNew lines p ≠ .ok b) :
    SigBase.tryNew lines p = .err .buildSignatureBase := by
  unfold SigBase.tryNew at *
  split
  · rfl
  split
  · rfl
  · rename_i h1 h2; exact absurd (by rw [if_neg h1, if_neg h2]) (h ⟨lines, p⟩)

example : SigBase.tryNew [⟨⟨.field (c! "a"), [.req, .sf]⟩, .plain (c! "1")⟩] { covered := [⟨.field (c! "a"), [.sf, .req]⟩] } =
    .ok ⟨[⟨⟨.field (c! "a"), [.req, .sf]⟩, .plain (c! "1")⟩], { covered := [⟨.field (c! "a"), [.sf, .req]⟩] }⟩ := by decide
example : SigBase.tryNew [⟨⟨.field (c! "a"), []⟩, .plain (c! "1")⟩] { covered := [⟨.field (c! "b"), []⟩] } =
    .err .buildSignatureBase := by decide

end Verif
