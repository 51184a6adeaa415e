import Verif.Props.C22
import Verif.Proofs.Canon
/-!
C27 `sf` canonicalisation and C28 `key` selection. `Spec.Canon`, `Spec.Members` and `Extracts` are in Spec/Value.lean and
Props/C22.lean.
-/
namespace Verif
open Sfv Spec

/-! ### C27 -/

/-- C27: with `sf` each line is replaced by its canonical form. -/
theorem C27_value {m : Msg} {rf : Option Request} (hw : WfHeaders m.headers) (hf : ∀ r, rf = some r → WfHeaders r.headers)
    (f v : Str) :
    Extracts m rf ⟨.field f, [.sf]⟩ v ↔
      ∃ ts out, LineTexts (fieldLines m.headers f) ts ∧ List.Forall₂ Canon ts out ∧ v = join (c! ", ") out := by
  rw [extracts_iff hw hf]
  unfold HasValue
  rw [if_neg (by simp)]
  unfold ValueIn FieldValue
  constructor
  · rintro ⟨ts, out, h1, h2, h3⟩
    cases h2 with
    | sf h2 h4 => cases h4; exact ⟨ts, out, h1, h2, h3⟩
  · rintro ⟨ts, out, h1, h2, h3⟩; exact ⟨ts, out, h1, .sf h2 (.done _), h3⟩

/-- C27: the canonical form is determined, is its own canonical form, and has only printable characters. -/
theorem C27_canonical {v t : Str} (h : Canon v t) : (∀ u, Canon v u → u = t) ∧ Canon t t ∧ ∀ c ∈ t, Printable c :=
  ⟨fun _ h' => canon_unique h' h, canon_idempotent h, canon_printable h⟩

/-- C27: lines that are the same list have the same canonical form; so do lines that are no list but the same dictionary. -/
theorem C27_same_value {v w : Str} (h : (parseList v = parseList w ∧ (parseList v).isSome) ∨
      (parseList v = none ∧ parseList w = none ∧ parseDict v = parseDict w)) (t : Str) : Canon v t ↔ Canon w t := by
  unfold Canon
  rcases h with ⟨h, hs⟩ | ⟨h1, h2, h3⟩
  · rw [← h]
    obtain ⟨l, hl⟩ := Option.isSome_iff_exists.1 hs
    simp [hl]
  · rw [h1, h2, h3]

/-- C27: two messages whose lines are pairwise the same list have the same component value. -/
theorem C27_same_lines {m m' : Msg} (hw : WfHeaders m.headers) (hw' : WfHeaders m'.headers) (f : Str) (ts ts' : List Str)
    (h1 : LineTexts (fieldLines m.headers f) ts) (h2 : LineTexts (fieldLines m'.headers f) ts')
    (h : List.Forall₂ (fun v w => ∃ l, parseList v = some l ∧ parseList w = some l) ts ts') (v : Str) :
    Extracts m none ⟨.field f, [.sf]⟩ v ↔ Extracts m' none ⟨.field f, [.sf]⟩ v := by
  have uniq : ∀ {ls : List Bytes} {a b : List Str}, LineTexts ls a → LineTexts ls b → a = b := by
    intro ls a b ha hb
    unfold LineTexts at ha hb
    induction ha generalizing b with
    | nil => cases hb; rfl
    | cons x _ ih => cases hb with | cons y z => rw [x] at y; injection y with y; rw [y, ih z]
  have tr : ∀ out, List.Forall₂ Canon ts out ↔ List.Forall₂ Canon ts' out := by
    clear h1 h2
    induction h with
    | nil => intro out; rfl
    | cons x _ ih =>
      intro out
      obtain ⟨l, e1, e2⟩ := x
      have c := C27_same_value (Or.inl ⟨e1.trans e2.symm, by rw [e1]; rfl⟩)
      constructor
      · intro h; cases h with | cons a b => exact .cons ((c _).1 a) ((ih _).1 b)
      · intro h; cases h with | cons a b => exact .cons ((c _).2 a) ((ih _).2 b)
  rw [C27_value hw (by simp), C27_value hw' (by simp)]
  constructor
  · rintro ⟨a, out, ha, hc, hv⟩
    rw [uniq ha h1] at hc
    exact ⟨ts', out, h2, (tr _).1 hc, hv⟩
  · rintro ⟨a, out, ha, hc, hv⟩
    rw [uniq ha h2] at hc
    exact ⟨ts, out, h1, (tr _).2 hc, hv⟩

/-- C27: a line that is neither a list nor a dictionary, or that is blank, makes signing and verifying fail. -/
theorem C27_fails {m : Msg} {p : SigParams} {rf : Option Request} (hw : WfHeaders m.headers) (f : Str)
    (hi : ⟨.field f, [.sf]⟩ ∈ p.covered) (l : Bytes) (hl : l ∈ fieldLines m.headers f) (t : Str) (ht : hvToStr l = some t)
    (hbad : (parseList t = none ∧ parseDict t = none) ∨ ∀ c ∈ t, c = ' ') : ∃ e, buildBase m p rf = .err e := by
  rw [buildBase_fails]
  refine ⟨_, hi, ?_⟩
  rintro v ⟨c, h, _⟩
  rw [extractFor_noreq (by simp)] at h
  unfold extractComponent at h
  obtain ⟨w, ⟨ts, out, h1, h2, hw2⟩, hc⟩ := (extractHttpField_ok hw f [.sf] c).1 h
  clear h hw2 hc
  cases h2 with
  | @sf _ _ mid _ h2 h3 =>
    clear h3
    have : ∃ u, Canon t u := by
      unfold LineTexts at h1
      generalize fieldLines m.headers f = ls at h1 hl
      induction h1 generalizing mid with
      | nil => simp at hl
      | cons a _ ih =>
        cases h2 with
        | cons x y =>
          rcases List.mem_cons.1 hl with rfl | hl
          · rw [ht] at a; injection a with a; subst a; exact ⟨_, x⟩
          · exact ih y hl
    obtain ⟨u, hu⟩ := this
    rcases hbad with ⟨b1, b2⟩ | hb
    · rcases hu with ⟨_, h, _⟩ | ⟨_, _, h, _⟩
      · rw [b1] at h; cases h
      · rw [b2] at h; cases h
    · have e0 : t.dropWhile isSp = [] := by
        clear ht hu hl h1
        induction t with
        | nil => rfl
        | cons c t ih => rw [List.dropWhile_cons, hb c (by simp), if_pos (by rfl)]; exact ih (fun c hc => hb c (by simp [hc]))
      have e1 : parseList t = some [] := by unfold parseList; rw [e0]; exact parseSep_nil
      rcases hu with ⟨l, h, h'⟩ | ⟨h, _⟩
      · rw [e1] at h; injection h with h; subst h; simp [serList] at h'
      · rw [e1] at h; cases h

example : Canon (c! "  1;  a=tok ,\t(\"x\"   \"y\" );b") (c! "1;a=tok, (\"x\" \"y\");b") := by
  refine Or.inl ⟨[.item ⟨.int 1, [(c! "a", .tok (c! "tok"))]⟩, .inner ⟨[⟨.str (c! "x"), []⟩, ⟨.str (c! "y"), []⟩], [(c! "b", .bool true)]⟩], ?_, ?_⟩ <;> decide
example : Canon (c! "a=1,   b, a=2") (c! "a=2, b") := by
  refine Or.inr ⟨by decide, [(c! "a", .item ⟨.int 2, []⟩), (c! "b", .item ⟨.bool true, []⟩)], by decide, by decide⟩
example : Extracts (.req exReq) none ⟨.field (c! "x-list"), [.sf]⟩ (c! "1, 2, a;q=1") :=
  ⟨⟨⟨.field (c! "x-list"), [.sf]⟩, .plain (c! "1, 2, a;q=1")⟩, by decide, rfl, rfl⟩

/-! ### C28 -/

/-- C28: with `key=k` the value consists of the canonical forms of the members `k` of the lines. -/
theorem C28_value {m : Msg} {rf : Option Request} (hw : WfHeaders m.headers) (hf : ∀ r, rf = some r → WfHeaders r.headers)
    (f k v : Str) :
    Extracts m rf ⟨.field f, [.key k]⟩ v ↔
      ∃ ts ds, LineTexts (fieldLines m.headers f) ts ∧ List.Forall₂ (fun t d => parseDict t = some d) ts ds ∧
        v = join (c! ", ") (ds.filterMap (fun d => (d.lookup k).map serEntry)) := by
  rw [extracts_iff hw hf]
  unfold HasValue
  rw [if_neg (by simp)]
  unfold ValueIn FieldValue
  constructor
  · rintro ⟨ts, out, h1, h2, h3⟩
    cases h2 with
    | key h2 h4 =>
      cases h4
      obtain ⟨ds, h5, rfl⟩ := h2
      exact ⟨ts, ds, h1, h5, h3⟩
  · rintro ⟨ts, ds, h1, h2, h3⟩; exact ⟨ts, _, h1, .key ⟨ds, h2, rfl⟩ (.done _), h3⟩

/-- C28: what is written for a member parses back to that member and nothing else. -/
theorem C28_member_text {t k : Str} {d : Dict} {e : Entry} (h : parseDict t = some d) (hk : d.lookup k = some e) :
    parseList (serEntry e) = some [e] :=
  parseList_ser (l := [e]) (by
    intro x hx
    simp at hx; subst hx
    exact ((parseDict_legal h).2 _ (lookup_mem hk)).2) rfl

/-- C28: a line that is no dictionary makes signing and verifying fail, even if another line has the key. -/
theorem C28_fails {m : Msg} {p : SigParams} {rf : Option Request} (hw : WfHeaders m.headers) (f k : Str)
    (hi : ⟨.field f, [.key k]⟩ ∈ p.covered) (l : Bytes) (hl : l ∈ fieldLines m.headers f) (t : Str) (ht : hvToStr l = some t)
    (hbad : parseDict t = none) : ∃ e, buildBase m p rf = .err e := by
  rw [buildBase_fails]
  refine ⟨_, hi, ?_⟩
  rintro v ⟨c, h, _⟩
  rw [extractFor_noreq (by simp)] at h
  unfold extractComponent at h
  obtain ⟨w, ⟨ts, out, h1, h2, _⟩, _⟩ := (extractHttpField_ok hw f [.key k] c).1 h
  clear h
  cases h2 with
  | key h2 _ =>
    obtain ⟨ds, h2, hm⟩ := h2
    clear hm
    have : ∃ u, parseDict t = some u := by
      unfold LineTexts at h1
      generalize fieldLines m.headers f = ls at h1 hl
      induction h1 generalizing ds with
      | nil => simp at hl
      | cons a _ ih =>
        cases h2 with
        | cons x y =>
          rcases List.mem_cons.1 hl with rfl | hl
          · rw [ht] at a; injection a with a; subst a; exact ⟨_, x⟩
          · exact ih _ y hl
    obtain ⟨u, hu⟩ := this
    rw [hbad] at hu; cases hu

example : Extracts (.req exReq) none ⟨.field (c! "x-dict"), [.key (c! "b")]⟩ (c! "(1 2)") :=
  ⟨⟨⟨.field (c! "x-dict"), [.key (c! "b")]⟩, .plain (c! "(1 2)")⟩, by decide, rfl, rfl⟩

end Verif
