import Verif.Spec.Forward
import Verif.Proofs.Rfc
import Verif.Proofs.WireValue
import Verif.Proofs.Hyper
/-!
Helper lemmas for C80.
-/
namespace Verif
open Spec Sfv

def textOf (l : Bytes) : Str := l.map (fun x => Char.ofNat x.toNat)

theorem lineTexts_visible {ls : List Bytes} {ts : List Str} :
    LineTexts ls ts ↔ (∀ l ∈ ls, l.all hvVisible = true) ∧ ts = ls.map textOf := by
  induction ls generalizing ts with
  | nil => constructor
           · intro h; cases h; exact ⟨by simp, rfl⟩
           · rintro ⟨_, rfl⟩; exact .nil
  | cons a t ih =>
    constructor
    · intro h
      cases h with
      | cons h1 h2 =>
        obtain ⟨h3, rfl⟩ := ih.1 h2
        unfold hvToStr at h1
        split at h1
        · next hv => injection h1 with h1; subst h1; exact ⟨fun l hl => (List.mem_cons.1 hl).elim (fun e => e ▸ hv) (h3 l), rfl⟩
        · cases h1
    · rintro ⟨h, rfl⟩
      refine .cons ?_ (ih.2 ⟨fun l hl => h l (List.mem_cons_of_mem _ hl), rfl⟩)
      unfold hvToStr
      rw [if_pos (h a List.mem_cons_self)]
      rfl

theorem visible_inter (g : List Bytes) : (List.intercalate [44, 32] g).all hvVisible = true ↔ ∀ l ∈ g, l.all hvVisible = true := by
  induction g with
  | nil => simp
  | cons a t ih =>
    cases t with
    | nil => simp [List.intercalate]
    | cons b t =>
      have e : List.intercalate [44, 32] (a :: b :: t) = a ++ [44, 32] ++ List.intercalate [44, 32] (b :: t) := by
        simp [List.intercalate]
      rw [e, List.all_append, List.all_append, Bool.and_eq_true, Bool.and_eq_true, ih]
      have : ([44, 32] : Bytes).all hvVisible = true := by decide
      simp [this]

theorem textOf_inter (g : List Bytes) : textOf (List.intercalate [44, 32] g) = join (c! ", ") (g.map textOf) := by
  induction g with
  | nil => rfl
  | cons a t ih =>
    cases t with
    | nil => simp [List.intercalate]
    | cons b t =>
      have e : List.intercalate [44, 32] (a :: b :: t) = a ++ [44, 32] ++ List.intercalate [44, 32] (b :: t) := by
        simp [List.intercalate]
      rw [e, List.map_cons, join_cons _ _ (by simp), ← ih]
      unfold textOf
      simp only [List.map_append, List.map_cons, List.map_nil]
      rfl

/-- Combining changes neither whether the lines are text nor the text. -/
theorem combined_texts {ls ls' : List Bytes} (h : Wire.Combined ls ls') :
    ((∀ l ∈ ls', l.all hvVisible = true) ↔ ∀ l ∈ ls, l.all hvVisible = true) ∧
    join (c! ", ") (ls'.map textOf) = join (c! ", ") (ls.map textOf) ∧ (ls' = [] ↔ ls = []) := by
  obtain ⟨gs, hg, rfl, rfl⟩ := h
  refine ⟨?_, ?_, ?_⟩
  · simp only [List.mem_map, forall_exists_index, and_imp, forall_apply_eq_imp_iff₂, visible_inter, List.mem_flatten]
    exact ⟨fun h l g hg hl => h g hg l hl, fun h g hg l hl => h l g hg hl⟩
  · rw [List.map_flatten, Rfc.join_flatten, List.map_map, List.map_map]
    · congr 1
      apply List.map_congr_left
      intro g _
      exact textOf_inter g
    · intro l hl
      obtain ⟨g, h1, rfl⟩ := List.mem_map.1 hl
      simpa using hg g h1
  · cases gs with
    | nil => simp
    | cons g t => simp [hg g List.mem_cons_self]

theorem regrouped_texts {a b : List Bytes} (h : Wire.Regrouped a b) {ts : List Str} (ht : LineTexts a ts) :
    ∃ us, LineTexts b us ∧ join (c! ", ") us = join (c! ", ") ts ∧ (us = [] ↔ ts = []) := by
  obtain ⟨ls, h1, h2⟩ := h
  obtain ⟨a1, a2, a3⟩ := combined_texts h1
  obtain ⟨b1, b2, b3⟩ := combined_texts h2
  obtain ⟨hv, rfl⟩ := lineTexts_visible.1 ht
  refine ⟨b.map textOf, lineTexts_visible.2 ⟨b1.2 (a1.1 hv), rfl⟩, by rw [a2, b2], ?_⟩
  rw [List.map_eq_nil_iff, List.map_eq_nil_iff, a3, b3]

theorem regrouped_symm {a b : List Bytes} (h : Wire.Regrouped a b) : Wire.Regrouped b a := by
  obtain ⟨ls, h1, h2⟩ := h; exact ⟨ls, h2, h1⟩

theorem combined_self (ls : List Bytes) : Wire.Combined ls ls := by
  refine ⟨ls.map (fun l => [l]), by simp, ?_, ?_⟩
  · induction ls with
    | nil => rfl
    | cons a t ih => simpa using ih
  · induction ls with
    | nil => rfl
    | cons a t ih => simpa [List.intercalate] using ih

theorem regrouped_self (ls : List Bytes) : Wire.Regrouped ls ls := ⟨ls, combined_self ls, combined_self ls⟩

theorem regrouped_nil {a b : List Bytes} (h : Wire.Regrouped a b) : a = [] ↔ b = [] := by
  obtain ⟨ls, h1, h2⟩ := h
  rw [(combined_texts h1).2.2, (combined_texts h2).2.2]

/-- Regrouped signature fields carry the same, and fail in the same way. -/
theorem extract_regrouped {m m' : Msg} (hw : WfHeaders m.headers) (hw' : WfHeaders m'.headers)
    (hi : Wire.Regrouped (fieldLines m.headers (c! "signature-input")) (fieldLines m'.headers (c! "signature-input")))
    (hs : Wire.Regrouped (fieldLines m.headers (c! "signature")) (fieldLines m'.headers (c! "signature"))) :
    extractSignatureHeaders m = extractSignatureHeaders m' := by
  have texts : ∀ {m m' : Msg}, Wire.Regrouped (fieldLines m.headers (c! "signature-input")) (fieldLines m'.headers (c! "signature-input")) →
      Wire.Regrouped (fieldLines m.headers (c! "signature")) (fieldLines m'.headers (c! "signature")) →
      ∀ ts us, SigTexts m.headers ts us → ∃ ts' us', SigTexts m'.headers ts' us' ∧
        join (c! ", ") ts' = join (c! ", ") ts ∧ join (c! ", ") us' = join (c! ", ") us := by
    intro m m' hi hs ts us ⟨h1, h2, h3, h4⟩
    obtain ⟨ts', a1, a2, a3⟩ := regrouped_texts hi h1
    obtain ⟨us', b1, b2, b3⟩ := regrouped_texts hs h2
    exact ⟨ts', us', ⟨a1, b1, fun e => h3 (a3.1 e), fun e => h4 (b3.1 e)⟩, a2, b2⟩
  have no : (∃ ts us, SigTexts m'.headers ts us) → ∃ ts us, SigTexts m.headers ts us := by
    rintro ⟨ts, us, h⟩
    obtain ⟨ts', us', h', _⟩ := texts (regrouped_symm hi) (regrouped_symm hs) ts us h
    exact ⟨ts', us', h'⟩
  rcases extract_cases hw with ⟨ha, he, _⟩ | ⟨h1, h2, h3, he⟩ | ⟨_, _, ts, us, h⟩
  · rw [regrouped_nil hi, regrouped_nil hs] at ha
    rcases extract_cases hw' with ⟨_, he', _⟩ | ⟨h1, h2, _⟩ | ⟨h1, h2, _⟩
    · rw [he, he']
    · rcases ha with ha | ha
      · exact absurd ha h1
      · exact absurd ha h2
    · rcases ha with ha | ha
      · exact absurd ha h1
      · exact absurd ha h2
  · rw [Ne, regrouped_nil hi] at h1
    rw [Ne, regrouped_nil hs] at h2
    rcases extract_cases hw' with ⟨ha, _, _⟩ | ⟨_, _, _, he'⟩ | ⟨_, _, h⟩
    · rcases ha with ha | ha
      · exact absurd ha h1
      · exact absurd ha h2
    · rw [he, he']
    · exact absurd (no h) h3
  · obtain ⟨ts', us', h', e1, e2⟩ := texts hi hs ts us h
    rw [extract_of_texts hw h, extract_of_texts hw' h', e1, e2]

/-- Verification depends on a message through what it carries and the bases. -/
theorem verify_congr_base {m m' : Msg} {rf rf' : Option Request} (hw : WfHeaders m.headers) (hw' : WfHeaders m'.headers)
    (hf : ∀ r, rf = some r → WfHeaders r.headers) (hf' : ∀ r, rf' = some r → WfHeaders r.headers)
    (he : extractSignatureHeaders m = extractSignatureHeaders m')
    (hb : ∀ l, extractSignatureHeaders m = .ok l → ∀ kv ∈ l, ∀ t, BaseOf m rf kv.2.params t ↔ BaseOf m' rf' kv.2.params t)
    (now : UInt64) (keys : List (VerifyingKey × Option Str)) :
    verifySignatures now m keys rf = verifySignatures now m' keys rf' ∧
    ∀ k id, verifySignature now m k id rf = verifySignature now m' k id rf' := by
  have one : ∀ l, extractSignatureHeaders m = .ok l → ∀ k id,
      verifyOne now (l.filterMap (entryOf m rf)) k id = verifyOne now (l.filterMap (entryOf m' rf')) k id := by
    intro l hl k id
    have hb := hb l hl
    have ha : ∀ kv ∈ l, (Accepts now m rf k id kv.2 ↔ Accepts now m' rf' k id kv.2) := by
      intro kv hkv; unfold Accepts; simp only [hb kv hkv]
    have hc : ∀ kv ∈ l, (Crashes now m rf k id kv.2 ↔ Crashes now m' rf' k id kv.2) := by
      intro kv hkv; unfold Crashes; simp only [hb kv hkv]
    have hd : ∀ kv ∈ l, (Candidate m rf id kv.2 ↔ Candidate m' rf' id kv.2) := by
      intro kv hkv; unfold Candidate; simp only [hb kv hkv]
    obtain ⟨a1, a2, a3, a4, a5⟩ := verifyOne_cases (now := now) (k := k) (id := id) hw hf l
    obtain ⟨b1, b2, b3, b4, b5⟩ := verifyOne_cases (now := now) (k := k) (id := id) hw' hf' l
    have nc : (∀ kv ∈ l, ¬ Crashes now m rf k id kv.2) → ∀ kv ∈ l, ¬ Crashes now m' rf' k id kv.2 :=
      fun h kv hkv hx => h kv hkv ((hc kv hkv).2 hx)
    cases h : verifyOne now (l.filterMap (entryOf m rf)) k id with
    | panic =>
      obtain ⟨kv, hkv, hx⟩ := a1.1 h
      exact (b1.2 ⟨kv, hkv, (hc kv hkv).1 hx⟩).symm
    | ok n =>
      obtain ⟨h1, l1, sh, l2, rfl, h2, h3⟩ := (a2 n).1 h
      refine ((b2 n).2 ⟨nc h1, l1, sh, l2, rfl, (ha (n, sh) (by simp)).1 h2, ?_⟩).symm
      intro kv hkv hx
      exact h3 kv hkv ((ha kv (by simp [hkv])).2 hx)
    | err e =>
      rcases a5 e h with rfl | rfl
      · exact (b3.2 (fun kv hkv hx => a3.1 h kv hkv ((hd kv hkv).2 hx))).symm
      · obtain ⟨h1, ⟨kv, hkv, h2⟩, h3⟩ := a4.1 h
        exact (b4.2 ⟨nc h1, ⟨kv, hkv, (hd kv hkv).1 h2⟩, fun kv hkv hx => h3 kv hkv ((ha kv hkv).2 hx)⟩).symm
  constructor
  · rw [verifySignatures_eq, verifySignatures_eq, ← he]
    cases hx : extractSignatureHeaders m with
    | ok l => simp only [Res.bind_ok, verifyInner, one l hx]
    | err e => rfl
    | panic => rfl
  · intro k id
    rw [verifySignature_eq, verifySignature_eq, ← he]
    cases hx : extractSignatureHeaders m with
    | ok l => simp only [Res.bind_ok, one l hx]
    | err e => rfl
    | panic => rfl

theorem applied_plain {ps : List CParam} (h : ∀ p ∈ ps, p = .req) {vs out : List Str} : Applied ps vs out ↔ out = vs := by
  constructor
  · intro ha
    induction ha with
    | done => rfl
    | req _ ih => exact ih (fun p hp => h p (List.mem_cons_of_mem _ hp))
    | sf => exact absurd (h .sf List.mem_cons_self) (by simp)
    | key => exact absurd (h (.key _) List.mem_cons_self) (by simp)
  · rintro rfl
    induction ps with
    | nil => exact .done _
    | cons p t ih =>
      rw [h p List.mem_cons_self]
      exact .req (ih (fun p hp => h p (List.mem_cons_of_mem _ hp)))

theorem samePart_symm {m m' : Msg} {i : CId} (h : Wire.SamePart m m' i) : Wire.SamePart m' m i := by
  obtain ⟨n, ps⟩ := i
  cases n with
  | field f =>
    rcases h with h | ⟨h1, h2⟩
    · exact Or.inl h.symm
    · exact Or.inr ⟨h1, regrouped_symm h2⟩
  | derived d =>
    cases d <;> cases m <;> cases m' <;> simp only [Wire.SamePart] at h ⊢ <;>
      first | exact h | exact h.symm | exact ⟨h.1.symm, h.2.symm⟩

theorem samePart_value {m m' : Msg} {i : CId} (h : Wire.SamePart m m' i) {v : Str} (hv : ValueIn m i v) : ValueIn m' i v := by
  obtain ⟨n, ps⟩ := i
  cases n with
  | field f =>
    simp only [ValueIn] at hv ⊢
    obtain ⟨ts, out, h1, h2, h3⟩ := hv
    rcases h with h | ⟨hp, h⟩
    · exact ⟨ts, out, by rw [← linesOf_eq, ← h]; exact h1, h2, h3⟩
    · obtain ⟨us, b1, b2, _⟩ := regrouped_texts h h1
      rw [applied_plain hp] at h2
      exact ⟨us, us, b1, (applied_plain hp).2 rfl, by rw [h3, h2, b2]⟩
  | derived d =>
    cases d <;> cases m <;> cases m' <;> simp only [Wire.SamePart, linesOf_eq] at h <;>
      simp only [ValueIn, RequestValue, ResponseValue, RequestValue.SigParamsValue] at hv ⊢ <;>
      first
      | exact hv
      | (obtain ⟨h1, h2⟩ := h; rw [← h1, ← h2]; exact hv)
      | (obtain ⟨h1, h2⟩ := h; rw [← h1]; exact hv)
      | (obtain ⟨h1, h2⟩ := h; rw [← h2]; exact hv)
      | (rw [← h]; exact hv)

/-- The base depends on the values. -/
theorem wireBase_congr {m m' : Msg} {rf rf' : Option Request} {p : SigParams}
    (h : ∀ i ∈ p.covered, ∀ v, Wire.HasValue m rf i v ↔ Wire.HasValue m' rf' i v) (t : Str) :
    Wire.BaseOf m rf p t ↔ Wire.BaseOf m' rf' p t := by
  have key : ∀ {is : List CId}, (∀ i ∈ is, ∀ v, Wire.HasValue m rf i v ↔ Wire.HasValue m' rf' i v) →
      ∀ t, Wire.Lines m rf is t ↔ Wire.Lines m' rf' is t := by
    intro is hv t
    constructor
    · intro hl
      induction hl with
      | nil => exact .nil
      | cons h1 _ ih => exact .cons ((hv _ List.mem_cons_self _).1 h1) (ih fun i hi => hv i (List.mem_cons_of_mem _ hi))
    · intro hl
      induction hl with
      | nil => exact .nil
      | cons h1 _ ih => exact .cons ((hv _ List.mem_cons_self _).2 h1) (ih fun i hi => hv i (List.mem_cons_of_mem _ hi))
  unfold Wire.BaseOf
  simp only [key h]

end Verif
