import Verif.Spec.Reorder
import Verif.Props.C88
/-!
C90: the order of signatures. The members of Signature may stand in any order, and so may those of Signature-Input, except that the
order of the latter decides which of several acceptable signatures is found.
-/
namespace Verif
open Sfv Spec

/-! ### Dictionaries with the same members -/

theorem agree_perm {a a' b b' : Dict} {l : List (Str × SigHeaders)} (ha : a.Perm a') (hb : b.Perm b')
    (h : Agree a b l) : ∃ l', Agree a' b' l' ∧ l.Perm l' := by
  have pair : List.Forall₂ (fun (kv : Str × Entry) (kh : Str × SigHeaders) => kv.1 = kh.1) b l := by
    have := h.order
    rw [← List.forall₂_eq_eq_eq, List.forall₂_map_left_iff, List.forall₂_map_right_iff] at this
    exact (this.imp fun _ _ e => e.symm).flip
  obtain ⟨l', h1, h2⟩ : ∃ l', l.Perm l' ∧ List.Forall₂ (fun (kv : Str × Entry) (kh : Str × SigHeaders) => kv.1 = kh.1) b' l' := by
    obtain ⟨l', h1, h2⟩ := List.perm_comp_forall₂ hb.symm pair
    exact ⟨l', h2.symm, h1⟩
  refine ⟨l', ⟨?_, ?_, ?_, ?_, ?_⟩, h1⟩
  · intro k
    rw [← (ha.map Prod.fst).mem_iff, ← (hb.map Prod.fst).mem_iff]
    exact h.labels k
  · intro kv hkv; exact h.bytes kv (ha.mem_iff.2 hkv)
  · intro kv hkv; exact h.inner kv (hb.mem_iff.2 hkv)
  · rw [← List.forall₂_eq_eq_eq, List.forall₂_map_left_iff, List.forall₂_map_right_iff]
    exact (h2.imp fun _ _ e => e.symm).flip
  · intro kh hk
    obtain ⟨p1, ⟨ps, p2⟩, e, p3, p4⟩ := h.pairing kh (h1.mem_iff.2 hk)
    exact ⟨p1, ⟨ps, ha.mem_iff.1 p2⟩, e, hb.mem_iff.1 p3, p4⟩

/-- C90: a message whose signature fields have the same members in another order carries the same signatures in another order. -/
theorem C90_carries {h h' : Headers} {l : List (Str × SigHeaders)} (hi : Wire.SameMembers h h' (c! "signature-input"))
    (hs : Wire.SameMembers h h' (c! "signature")) (hl : Wire.Carries h l) : ∃ l', Wire.Carries h' l' ∧ l.Perm l' := by
  obtain ⟨ts, ts', b, b', a1, a2, a3, a4, a5, a6, a7⟩ := hi
  obtain ⟨us, us', a, a', b1, b2, b3, b4, b5, b6, b7⟩ := hs
  obtain ⟨vs, ws, x, y, c1, c2, c3, c4, c5, c6, c7⟩ := wireCarries_iff.1 hl
  rw [commas_eq] at a5 a6 b5 b6
  have a5 := (C63_dict _ _).2 a5
  have a6 := (C63_dict _ _).2 a6
  have b5 := (C63_dict _ _).2 b5
  have b6 := (C63_dict _ _).2 b6
  cases lineTexts_inj (linesText_iff.1 a1) c1
  cases lineTexts_inj (linesText_iff.1 b1) c2
  rw [a5] at c6; injection c6 with c6; subst c6
  rw [b5] at c5; injection c5 with c5; subst c5
  obtain ⟨l', d1, d2⟩ := agree_perm b7 a7 c7
  exact ⟨l', wireCarries_iff.2 ⟨ts', us', a', b', linesText_iff.1 a2, linesText_iff.1 b2, a4, b4, b6, a6, d1⟩, d2⟩

theorem sameMembers_symm {h h' : Headers} {n : Str} (x : Wire.SameMembers h h' n) : Wire.SameMembers h' h n := by
  obtain ⟨ts, ts', b, b', a1, a2, a3, a4, a5, a6, a7⟩ := x
  exact ⟨ts', ts, b', b, a2, a1, a4, a3, a6, a5, a7.symm⟩

/-- C90: the order of the members of Signature alone does not matter at all. -/
theorem C90_signature_field {h h' : Headers} {l : List (Str × SigHeaders)}
    (hi : Wire.linesOf h (c! "signature-input") = Wire.linesOf h' (c! "signature-input")) (hs : Wire.SameMembers h h' (c! "signature")) :
    Wire.Carries h l ↔ Wire.Carries h' l := by
  have key : ∀ {h h' : Headers}, Wire.linesOf h (c! "signature-input") = Wire.linesOf h' (c! "signature-input") →
      Wire.SameMembers h h' (c! "signature") → Wire.Carries h l → Wire.Carries h' l := by
    intro h h' hi hs hl
    obtain ⟨us, us', a, a', b1, b2, b3, b4, b5, b6, b7⟩ := hs
    obtain ⟨vs, ws, x, y, c1, c2, c3, c4, c5, c6, c7⟩ := wireCarries_iff.1 hl
    rw [commas_eq] at b5 b6
    have b5 := (C63_dict _ _).2 b5
    have b6 := (C63_dict _ _).2 b6
    cases lineTexts_inj (linesText_iff.1 b1) c2
    rw [b5] at c5; injection c5 with c5; subst c5
    rw [linesOf_eq, linesOf_eq] at hi
    refine wireCarries_iff.2 ⟨vs, us', a', y, hi ▸ c1, linesText_iff.1 b2, c3, b4, b6, c6, ?_, ?_, c7.inner, c7.order, ?_⟩
    · intro k; rw [← (b7.map Prod.fst).mem_iff]; exact c7.labels k
    · intro kv hkv; exact c7.bytes kv (b7.mem_iff.2 hkv)
    · intro kh hk
      obtain ⟨p1, ⟨ps, p2⟩, p3⟩ := c7.pairing kh hk
      exact ⟨p1, ⟨ps, b7.mem_iff.1 p2⟩, p3⟩
  exact ⟨key hi hs, key hi.symm (sameMembers_symm hs)⟩

/-! ### Lines in another order -/

theorem lineDict_iff {b : Bytes} {d : Dict} : Wire.LineDict b d ↔ ∃ t, hvToStr b = some t ∧ parseDict t = some d := by
  unfold Wire.LineDict
  constructor
  · rintro ⟨t, h1, h2⟩; exact ⟨t, lineText_iff.1 h1, (C63_dict _ _).2 h2⟩
  · rintro ⟨t, h1, h2⟩; exact ⟨t, lineText_iff.2 h1, (C63_dict _ _).1 h2⟩

/-- Lines with their dictionaries, joined. -/
theorem joined_dict {x : List (Bytes × Str × Dict)} (hx : ∀ y ∈ x, hvToStr y.1 = some y.2.1 ∧ parseDict y.2.1 = some y.2.2 ∧ y.2.2 ≠ [])
    (hp : x.Pairwise fun y z => ∀ k ∈ y.2.2.map Prod.fst, k ∉ z.2.2.map Prod.fst) (hne : x ≠ []) :
    parseDict (join (c! ", ") (x.map fun y => y.2.1)) = some (x.flatMap fun y => y.2.2) := by
  induction x with
  | nil => exact absurd rfl hne
  | cons y t ih =>
    cases t with
    | nil =>
      have : parseDict y.2.1 = some y.2.2 := (hx y (by simp)).2.1
      simpa [join] using this
    | cons z t =>
      have h := ih (fun w hw => hx w (List.mem_cons_of_mem _ hw)) (List.pairwise_cons.1 hp).2 (by simp)
      have e : join (c! ", ") ((y :: z :: t).map fun y => y.2.1) = y.2.1 ++ c! ", " ++ join (c! ", ") ((z :: t).map fun y => y.2.1) := by
        simp [join]
      rw [e, List.flatMap_cons]
      refine parseDict_concat (hx y (by simp)).2.1 h (hx y (by simp)).2.2 ?_ ?_
      · have := (hx z (by simp)).2.2
        simp [this]
      · intro k hk hk'
        obtain ⟨kv, h1, h2⟩ := List.mem_map.1 hk
        obtain ⟨w, h3, h4⟩ := List.mem_flatMap.1 h1
        exact (List.pairwise_cons.1 hp).1 w h3 k hk' (List.mem_map.2 ⟨kv, h4, h2⟩)

theorem pairwise_list {α β : Type} {P : α → β → Prop} {ls : List α} (h : ∀ b ∈ ls, ∃ d, P b d) : ∃ x : List (α × β), x.map Prod.fst = ls ∧ ∀ y ∈ x, P y.1 y.2 := by
  induction ls with
  | nil => exact ⟨[], rfl, nofun⟩
  | cons a t ih =>
    obtain ⟨x, h1, h2⟩ := ih (fun b hb => h b (List.mem_cons_of_mem _ hb))
    obtain ⟨d, hd⟩ := h a (by simp)
    refine ⟨(a, d) :: x, by simp [h1], ?_⟩
    intro y hy
    rcases List.mem_cons.1 hy with rfl | hy
    · exact hd
    · exact h2 y hy

/-- The lines of a shuffle, with their dictionaries, before and after. -/
theorem shuffled_data {ls ls' : List Bytes} (h : Wire.Shuffled ls ls') :
    ∃ x x' : List (Bytes × Str × Dict), x.Perm x' ∧ ls = x.map Prod.fst ∧ ls' = x'.map Prod.fst ∧
      (∀ y ∈ x, hvToStr y.1 = some y.2.1 ∧ parseDict y.2.1 = some y.2.2 ∧ y.2.2 ≠ []) ∧
      x.Pairwise fun y z => ∀ k ∈ y.2.2.map Prod.fst, k ∉ z.2.2.map Prod.fst := by
  obtain ⟨x, h1, h2⟩ := pairwise_list (P := fun b (td : Str × Dict) => hvToStr b = some td.1 ∧ parseDict td.1 = some td.2 ∧ td.2 ≠ []) (ls := ls) (by
    intro b hb
    obtain ⟨d, h1, h2⟩ := h.dict b hb
    obtain ⟨t, h3, h4⟩ := lineDict_iff.1 h1
    exact ⟨(t, d), h3, h4, h2⟩)
  have pair : List.Forall₂ (fun (b : Bytes) (y : Bytes × Str × Dict) => b = y.1) ls x := by
    rw [← h1, List.forall₂_map_left_iff]
    exact List.forall₂_same.2 fun _ _ => rfl
  obtain ⟨x', h3, h4⟩ := List.perm_comp_forall₂ h.perm.symm pair
  refine ⟨x, x', h4.symm, h1.symm, ?_, h2, ?_⟩
  · have := h3
    rw [← List.forall₂_map_right_iff (f := Prod.fst), List.forall₂_eq_eq_eq] at this
    exact this
  · have := h.apart
    rw [← h1, List.pairwise_map] at this
    refine this.imp_of_mem ?_
    intro y z hy hz hyz
    exact hyz _ _ (lineDict_iff.2 ⟨_, (h2 y hy).1, (h2 y hy).2.1⟩) (lineDict_iff.2 ⟨_, (h2 z hz).1, (h2 z hz).2.1⟩)

theorem apart_perm {x x' : List (Bytes × Str × Dict)} (h : x.Perm x')
    (hp : x.Pairwise fun y z => ∀ k ∈ y.2.2.map Prod.fst, k ∉ z.2.2.map Prod.fst) :
    x'.Pairwise fun y z => ∀ k ∈ y.2.2.map Prod.fst, k ∉ z.2.2.map Prod.fst :=
  h.pairwise hp (fun {_ _} hyz k hk hk' => hyz k hk' hk)

/-- C90: in particular the lines of a field may be shuffled. -/
theorem C90_lines {h h' : Headers} {n : Str} (hs : Wire.Shuffled (Wire.linesOf h n) (Wire.linesOf h' n)) (hne : Wire.linesOf h n ≠ []) :
    Wire.SameMembers h h' n := by
  obtain ⟨x, x', h1, h2, h3, h4, h5⟩ := shuffled_data hs
  have hx : x ≠ [] := by rintro rfl; exact hne h2
  have hx' : x' ≠ [] := by rintro rfl; exact hx h1.eq_nil
  have h4' : ∀ y ∈ x', hvToStr y.1 = some y.2.1 ∧ parseDict y.2.1 = some y.2.2 ∧ y.2.2 ≠ [] := fun y hy => h4 y (h1.mem_iff.2 hy)
  have texts : ∀ (x : List (Bytes × Str × Dict)), (∀ y ∈ x, hvToStr y.1 = some y.2.1 ∧ parseDict y.2.1 = some y.2.2 ∧ y.2.2 ≠ []) →
      LineTexts (x.map Prod.fst) (x.map fun y => y.2.1) := by
    intro x hx
    unfold LineTexts
    rw [List.forall₂_map_left_iff, List.forall₂_map_right_iff, List.forall₂_same]
    exact fun y hy => (hx y hy).1
  refine ⟨x.map fun y => y.2.1, x'.map fun y => y.2.1, x.flatMap fun y => y.2.2, x'.flatMap fun y => y.2.2, ?_, ?_, by simp [hx], by simp [hx'], ?_, ?_, ?_⟩
  · rw [linesText_iff, ← linesOf_eq, h2]; exact texts x h4
  · rw [linesText_iff, ← linesOf_eq, h3]; exact texts x' h4'
  · rw [commas_eq, ← C63_dict]; exact joined_dict h4 h5 hx
  · rw [commas_eq, ← C63_dict]; exact joined_dict h4' (apart_perm h1 h5) hx'
  · exact h1.flatMap_right _

/-! ### Values -/

/-- One member is found in one of the lines, wherever it stands. -/
theorem shuffled_members {ls ls' : List Bytes} (h : Wire.Shuffled ls ls') {k : Str} {ts ts' out : List Str} (ht : LineTexts ls ts)
    (ht' : LineTexts ls' ts') (hm : Members k ts out) : Members k ts' out := by
  obtain ⟨x, x', h1, h2, h3, h4, h5⟩ := shuffled_data h
  subst h2 h3
  have texts : ∀ (x : List (Bytes × Str × Dict)), (∀ y ∈ x, hvToStr y.1 = some y.2.1 ∧ parseDict y.2.1 = some y.2.2 ∧ y.2.2 ≠ []) →
      LineTexts (x.map Prod.fst) (x.map fun y => y.2.1) := by
    intro x hx
    unfold LineTexts
    rw [List.forall₂_map_left_iff, List.forall₂_map_right_iff, List.forall₂_same]
    exact fun y hy => (hx y hy).1
  have h4' : ∀ y ∈ x', hvToStr y.1 = some y.2.1 ∧ parseDict y.2.1 = some y.2.2 ∧ y.2.2 ≠ [] := fun y hy => h4 y (h1.mem_iff.2 hy)
  cases lineTexts_inj ht (texts x h4)
  cases lineTexts_inj ht' (texts x' h4')
  have dicts : ∀ (x : List (Bytes × Str × Dict)), (∀ y ∈ x, hvToStr y.1 = some y.2.1 ∧ parseDict y.2.1 = some y.2.2 ∧ y.2.2 ≠ []) →
      List.Forall₂ (fun v d => parseDict v = some d) (x.map fun y => y.2.1) (x.map fun y => y.2.2) := by
    intro x hx
    rw [List.forall₂_map_left_iff, List.forall₂_map_right_iff, List.forall₂_same]
    exact fun y hy => (hx y hy).2.1
  obtain ⟨ds, m1, m2⟩ := hm
  have hds : ds = x.map fun y => y.2.2 := by
    have := dicts x h4
    clear m2 h1 h4 h5 h4' ht ht' h
    induction x generalizing ds with
    | nil => cases m1; rfl
    | cons y t ih =>
      cases m1 with
      | cons q1 q2 =>
        cases this with
        | cons r1 r2 => rw [q1] at r1; injection r1 with r1; subst r1; rw [ih _ q2 r2]; rfl
  refine ⟨_, dicts x' h4', ?_⟩
  rw [m2, hds]
  rw [List.filterMap_map, List.filterMap_map]
  have perm := h1.filterMap ((fun d => (d.lookup k).map serEntry) ∘ fun y => y.2.2)
  have few : ∀ x : List (Bytes × Str × Dict), x.Pairwise (fun y z => ∀ k ∈ y.2.2.map Prod.fst, k ∉ z.2.2.map Prod.fst) →
      (x.filterMap ((fun d => (d.lookup k).map serEntry) ∘ fun y => y.2.2)).length ≤ 1 := by
    intro x hx
    induction x with
    | nil => simp
    | cons y t ih =>
      have hx := List.pairwise_cons.1 hx
      rw [List.filterMap_cons]
      cases hy : ((fun d : Dict => (d.lookup k).map serEntry) ∘ fun y : Bytes × Str × Dict => y.2.2) y with
      | none => exact ih hx.2
      | some e =>
        have hk : k ∈ y.2.2.map Prod.fst := by
          by_contra hk
          simp only [Function.comp] at hy
          rw [← imGet_lookup, imGet_none.2 hk] at hy
          cases hy
        have : t.filterMap ((fun d => (d.lookup k).map serEntry) ∘ fun y => y.2.2) = [] := by
          rw [List.filterMap_eq_nil_iff]
          intro z hz
          simp only [Function.comp]
          rw [← imGet_lookup, imGet_none.2 (hx.1 z hz k hk)]
          rfl
        rw [this]; simp
  have l1 := few x h5
  revert perm l1
  generalize List.filterMap _ x = p
  generalize List.filterMap _ x' = q
  intro perm l1
  match p, l1 with
  | [], _ => exact perm.nil_eq
  | [a], _ => exact (List.perm_singleton.1 perm.symm).symm

theorem shuffled_symm {ls ls' : List Bytes} (h : Wire.Shuffled ls ls') : Wire.Shuffled ls' ls :=
  ⟨h.perm.symm, fun b hb => h.dict b (h.perm.mem_iff.2 hb), h.perm.pairwise h.apart (fun {_ _} hyz d e hd he k hk hk' => hyz e d he hd k hk' hk)⟩

/-- C90: a component that is one member of a field is worth the same after the lines were shuffled. -/
theorem C90_value {m m' : Msg} {rf rf' : Option Request} {i : CId} (h : Wire.Unmoved m m' rf rf' i) (v : Str) :
    Wire.HasValue m rf i v ↔ Wire.HasValue m' rf' i v := by
  rcases h with h | ⟨hr, f, k, ps, hn, hp, hs⟩
  · exact C80_value h v
  · have key : ∀ {m m' : Msg} {rf rf' : Option Request}, Wire.Shuffled (Wire.linesOf m.headers f) (Wire.linesOf m'.headers f) →
        HasValue m rf i v → HasValue m' rf' i v := by
      intro m m' rf rf' hs hv
      unfold HasValue at hv ⊢
      rw [if_neg hr] at hv ⊢
      unfold ValueIn at hv ⊢
      rw [hn] at hv ⊢
      simp only at hv ⊢
      obtain ⟨ts, out, h1, h2, h3⟩ := hv
      rw [hp] at h2 ⊢
      obtain ⟨x, x', g1, g2, g3, g4, g5⟩ := shuffled_data hs
      have ht' : LineTexts (fieldLines m'.headers f) (x'.map fun y => y.2.1) := by
        rw [← linesOf_eq, g3]
        unfold LineTexts
        rw [List.forall₂_map_left_iff, List.forall₂_map_right_iff, List.forall₂_same]
        exact fun y hy => (g4 y (g1.mem_iff.2 hy)).1
      refine ⟨_, out, ht', ?_, h3⟩
      cases h2 with
      | key a b => exact .key (shuffled_members hs h1 ht' a) b
    rw [wireHasValue_iff, wireHasValue_iff]
    exact ⟨key hs, key (shuffled_symm hs)⟩

/-- C90: so is the signature base. -/
theorem C90_base {m m' : Msg} {rf rf' : Option Request} {p : SigParams} (h : ∀ i ∈ p.covered, Wire.Unmoved m m' rf rf' i) (t : Str) :
    Wire.BaseOf m rf p t ↔ Wire.BaseOf m' rf' p t := wireBase_congr (fun i hi => C90_value (h i hi)) t

/-! ### Verification -/

theorem firstWith_exists {q : SigHeaders → Prop} {l : List (Str × SigHeaders)} : (∃ n, FirstWith q l n) ↔ ∃ kv ∈ l, q kv.2 := by
  constructor
  · rintro ⟨n, l1, h, l2, rfl, hq, _⟩; exact ⟨(n, h), by simp, hq⟩
  · rintro ⟨kv, hkv, hq⟩
    obtain ⟨s, t, rfl⟩ := List.append_of_mem hkv
    clear hkv
    induction s with
    | nil => exact ⟨kv.1, [], kv.2, t, rfl, hq, by simp⟩
    | cons a s ih =>
      by_cases ha : q a.2
      · exact ⟨a.1, [], a.2, s ++ kv :: t, rfl, ha, by simp⟩
      · obtain ⟨n, l1, h, l2, e, h1, h2⟩ := ih
        refine ⟨n, a :: l1, h, l2, by simp [e], h1, ?_⟩
        intro x hx
        rcases List.mem_cons.1 hx with rfl | hx
        · exact ha
        · exact h2 x hx

/-- Two outcomes that differ at most in the name. -/
def sameOutcome : Res HyperErr Str → Res HyperErr Str → Prop
  | .ok _, .ok _ => True
  | .err e, .err e' => e = e'
  | .panic, .panic => True
  | _, _ => False

section
variable {now : UInt64} {m m' : Msg} {rf rf' : Option Request} {l l' : List (Str × SigHeaders)}

theorem verifyOne_perm (hw : WfHeaders m.headers) (hw' : WfHeaders m'.headers) (hf : ∀ r, rf = some r → WfHeaders r.headers)
    (hf' : ∀ r, rf' = some r → WfHeaders r.headers) (hp : l.Perm l') (hb : ∀ kv ∈ l, ∀ t, BaseOf m rf kv.2.params t ↔ BaseOf m' rf' kv.2.params t)
    (k : VerifyingKey) (id : Option Str) :
    sameOutcome (verifyOne now (l.filterMap (entryOf m rf)) k id) (verifyOne now (l'.filterMap (entryOf m' rf')) k id) := by
  have ha : ∀ kv ∈ l, (Accepts now m rf k id kv.2 ↔ Accepts now m' rf' k id kv.2) := by
    intro kv hkv; unfold Accepts; simp only [hb kv hkv]
  have hc : ∀ kv ∈ l, (Crashes now m rf k id kv.2 ↔ Crashes now m' rf' k id kv.2) := by
    intro kv hkv; unfold Crashes; simp only [hb kv hkv]
  have hd : ∀ kv ∈ l, (Candidate m rf id kv.2 ↔ Candidate m' rf' id kv.2) := by
    intro kv hkv; unfold Candidate; simp only [hb kv hkv]
  obtain ⟨a1, a2, a3, a4, a5⟩ := verifyOne_cases (now := now) (k := k) (id := id) hw hf l
  obtain ⟨b1, b2, b3, b4, b5⟩ := verifyOne_cases (now := now) (k := k) (id := id) hw' hf' l'
  have nc : (∀ kv ∈ l, ¬ Crashes now m rf k id kv.2) → ∀ kv ∈ l', ¬ Crashes now m' rf' k id kv.2 := by
    intro h kv hkv hx
    have hkv := hp.mem_iff.2 hkv
    exact h kv hkv ((hc kv hkv).2 hx)
  cases h : verifyOne now (l.filterMap (entryOf m rf)) k id with
  | panic =>
    obtain ⟨kv, hkv, hx⟩ := a1.1 h
    rw [b1.2 ⟨kv, hp.mem_iff.1 hkv, (hc kv hkv).1 hx⟩]; trivial
  | ok n =>
    obtain ⟨h1, h2⟩ := (a2 n).1 h
    obtain ⟨kv, hkv, hq⟩ := firstWith_exists.1 ⟨n, h2⟩
    obtain ⟨n', hn'⟩ := firstWith_exists.2 ⟨kv, hp.mem_iff.1 hkv, (ha kv hkv).1 hq⟩
    rw [(b2 n').2 ⟨nc h1, hn'⟩]; trivial
  | err e =>
    rcases a5 e h with rfl | rfl
    · rw [b3.2 (fun kv hkv hx => a3.1 h kv (hp.mem_iff.2 hkv) ((hd kv (hp.mem_iff.2 hkv)).2 hx))]; rfl
    · obtain ⟨h1, ⟨kv, hkv, h2⟩, h3⟩ := a4.1 h
      rw [b4.2 ⟨nc h1, ⟨kv, hp.mem_iff.1 hkv, (hd kv hkv).1 h2⟩,
        fun kv hkv hx => h3 kv (hp.mem_iff.2 hkv) ((ha kv (hp.mem_iff.2 hkv)).2 hx)⟩]; rfl

/-- C90: verification with one key has the same outcome for two messages that carry the same signatures in different orders, over the
same bases, except for the name that is found. -/
theorem C90_verify (hw : WfHeaders m.headers) (hw' : WfHeaders m'.headers) (hf : ∀ r, rf = some r → WfHeaders r.headers)
    (hf' : ∀ r, rf' = some r → WfHeaders r.headers) (hl : Wire.Carries m.headers l) (hl' : Wire.Carries m'.headers l') (hp : l.Perm l')
    (hb : ∀ kv ∈ l, ∀ i ∈ kv.2.params.covered, Wire.Unmoved m m' rf rf' i) (k : VerifyingKey) (id : Option Str) :
    ((∃ n, verifySignature now m k id rf = .ok n) ↔ ∃ n, verifySignature now m' k id rf' = .ok n) ∧
    (∀ e, verifySignature now m k id rf = .err e ↔ verifySignature now m' k id rf' = .err e) ∧
    (verifySignature now m k id rf = .panic ↔ verifySignature now m' k id rf' = .panic) ∧
    ∀ n, verifySignature now m' k id rf' = .ok n → ∃ sh, (n, sh) ∈ l ∧ Accepts now m rf k id sh := by
  have hb : ∀ kv ∈ l, ∀ t, BaseOf m rf kv.2.params t ↔ BaseOf m' rf' kv.2.params t := by
    intro kv hkv t
    rw [← wireBaseOf_iff, ← wireBaseOf_iff]; exact C90_base (hb kv hkv) t
  have e : verifySignature now m k id rf = verifyOne now (l.filterMap (entryOf m rf)) k id := by
    rw [verifySignature_eq, (extractSignatureHeaders_ok hw l).2 (wireCarries_iff.1 hl)]; rfl
  have e' : verifySignature now m' k id rf' = verifyOne now (l'.filterMap (entryOf m' rf')) k id := by
    rw [verifySignature_eq, (extractSignatureHeaders_ok hw' l').2 (wireCarries_iff.1 hl')]; rfl
  have key := verifyOne_perm (now := now) hw hw' hf hf' hp hb k id
  rw [← e, ← e'] at key
  refine ⟨?_, ?_, ?_, ?_⟩
  · revert key
    cases verifySignature now m k id rf <;> cases verifySignature now m' k id rf' <;> simp [sameOutcome]
  · revert key
    cases verifySignature now m k id rf <;> cases verifySignature now m' k id rf' <;> simp [sameOutcome]
  · revert key
    cases verifySignature now m k id rf <;> cases verifySignature now m' k id rf' <;> simp [sameOutcome]
  · intro n hn
    obtain ⟨l'', h1, _, l1, sh, l2, rfl, h2, _⟩ := (C10_ok_iff hw' hf' n).1 hn
    cases carries_unique hw' h1 (wireCarries_iff.1 hl')
    have hm : (n, sh) ∈ l := hp.mem_iff.2 (by simp)
    refine ⟨sh, hm, ?_⟩
    unfold Accepts at h2 ⊢
    simpa only [hb (n, sh) hm] using h2

/-- C90: if the key accepts one signature only, the name is the same too. -/
theorem C90_one (hw : WfHeaders m.headers) (hw' : WfHeaders m'.headers) (hf : ∀ r, rf = some r → WfHeaders r.headers)
    (hf' : ∀ r, rf' = some r → WfHeaders r.headers) (hl : Wire.Carries m.headers l) (hl' : Wire.Carries m'.headers l') (hp : l.Perm l')
    (hb : ∀ kv ∈ l, ∀ i ∈ kv.2.params.covered, Wire.Unmoved m m' rf rf' i) (k : VerifyingKey) (id : Option Str)
    (h1 : ∀ x ∈ l, ∀ y ∈ l, Accepts now m rf k id x.2 → Accepts now m rf k id y.2 → x = y) :
    verifySignature now m k id rf = verifySignature now m' k id rf' := by
  obtain ⟨a1, a2, a3, a4⟩ := C90_verify (now := now) hw hw' hf hf' hl hl' hp hb k id
  cases h : verifySignature now m k id rf with
  | panic => exact (a3.1 h).symm
  | err e => exact ((a2 e).1 h).symm
  | ok n =>
    obtain ⟨n', hn'⟩ := a1.1 ⟨n, h⟩
    obtain ⟨sh', b1, b2⟩ := a4 n' hn'
    obtain ⟨l'', c1, _, l1, sh, l2, rfl, c2, _⟩ := (C10_ok_iff hw hf n).1 h
    cases carries_unique hw c1 (wireCarries_iff.1 hl)
    have := h1 (n, sh) (by simp) (n', sh') b1 c2 b2
    rw [hn']
    injection this with this
    rw [this]

theorem gather_same {α : Type} {f g : α → Res HyperErr Str} (h : ∀ a, sameOutcome (f a) (g a)) (ks : List α) :
    ((gather (ks.map f) : Res HyperErr _) = .panic ↔ (gather (ks.map g) : Res HyperErr _) = .panic) ∧
    (∀ e, (gather (ks.map f) : Res HyperErr _) ≠ .err e ∧ (gather (ks.map g) : Res HyperErr _) ≠ .err e) ∧
    ∀ rs, (gather (ks.map f) : Res HyperErr _) = .ok rs → ∃ rs', (gather (ks.map g) : Res HyperErr _) = .ok rs' ∧ List.Forall₂ Wire.SameResult rs rs' := by
  induction ks with
  | nil => exact ⟨by simp [gather], by simp [gather], fun rs h => ⟨[], rfl, by injection h with h; subst h; exact .nil⟩⟩
  | cons a t ih =>
    obtain ⟨i1, i2, i3⟩ := ih
    have ha := h a
    simp only [List.map_cons]
    generalize f a = p at ha ⊢
    generalize g a = q at ha ⊢
    cases p <;> cases q <;> simp only [sameOutcome] at ha <;> simp only [gather] <;> revert i1 i2 i3 <;>
      generalize (gather (t.map f) : Res HyperErr _) = x <;> generalize (gather (t.map g) : Res HyperErr _) = y <;>
      cases x <;> cases y <;> simp_all [Wire.SameResult]

/-- C90: the same for many keys: the results differ at most in the names that are found. -/
theorem C90_many (hw : WfHeaders m.headers) (hw' : WfHeaders m'.headers) (hf : ∀ r, rf = some r → WfHeaders r.headers)
    (hf' : ∀ r, rf' = some r → WfHeaders r.headers) (hl : Wire.Carries m.headers l) (hl' : Wire.Carries m'.headers l') (hp : l.Perm l')
    (hb : ∀ kv ∈ l, ∀ i ∈ kv.2.params.covered, Wire.Unmoved m m' rf rf' i) (keys : List (VerifyingKey × Option Str)) :
    (verifySignatures now m keys rf = .panic ↔ verifySignatures now m' keys rf' = .panic) ∧
    (∀ e, verifySignatures now m keys rf ≠ .err e ∧ verifySignatures now m' keys rf' ≠ .err e) ∧
    ∀ rs, verifySignatures now m keys rf = .ok rs → ∃ rs', verifySignatures now m' keys rf' = .ok rs' ∧ List.Forall₂ Wire.SameResult rs rs' := by
  have hb : ∀ kv ∈ l, ∀ t, BaseOf m rf kv.2.params t ↔ BaseOf m' rf' kv.2.params t := by
    intro kv hkv t
    rw [← wireBaseOf_iff, ← wireBaseOf_iff]; exact C90_base (hb kv hkv) t
  rw [verifySignatures_eq, verifySignatures_eq, (extractSignatureHeaders_ok hw l).2 (wireCarries_iff.1 hl),
    (extractSignatureHeaders_ok hw' l').2 (wireCarries_iff.1 hl')]
  simp only [Res.bind_ok, verifyInner]
  exact gather_same (fun ki => verifyOne_perm hw hw' hf hf' hp hb ki.1 ki.2) keys

/-- C90: nothing is lost or gained: the accessors report the same signatures, in another order. -/
theorem C90_accessors (hw : WfHeaders m.headers) (hw' : WfHeaders m'.headers) (hl : Wire.Carries m.headers l) (hl' : Wire.Carries m'.headers l')
    (hp : l.Perm l') (rsa : Bool) :
    (∃ x x', getSignatureParams m = .ok x ∧ getSignatureParams m' = .ok x' ∧ x.Perm x') ∧
    ∃ x x', getAlgKeyIds rsa m = .ok x ∧ getAlgKeyIds rsa m' = .ok x' ∧ x.Perm x' := by
  have n := carries_nodup (wireCarries_iff.1 hl)
  have n' := carries_nodup (wireCarries_iff.1 hl')
  unfold getSignatureParams getAlgKeyIds
  rw [(extractSignatureHeaders_ok hw l).2 (wireCarries_iff.1 hl), (extractSignatureHeaders_ok hw' l').2 (wireCarries_iff.1 hl')]
  simp only [Res.bind_ok]
  refine ⟨⟨_, _, rfl, rfl, ?_⟩, ⟨_, _, rfl, rfl, ?_⟩⟩
  · rw [imOfList_of_nodup (by rw [List.map_map]; exact n), imOfList_of_nodup (by rw [List.map_map]; exact n')]
    exact hp.map _
  · rw [imOfList_of_nodup (by rw [List.map_map]; exact n), imOfList_of_nodup (by rw [List.map_map]; exact n')]
    exact hp.map _

end

/-! ### Cases -/

/-- How to see that lines are shuffled. -/
theorem shuffled_of {x x' : List (Bytes × Str × Dict)} (hp : x.Perm x')
    (hx : ∀ y ∈ x, hvToStr y.1 = some y.2.1 ∧ parseDict y.2.1 = some y.2.2 ∧ y.2.2 ≠ [])
    (ha : x.Pairwise fun y z => ∀ k ∈ y.2.2.map Prod.fst, k ∉ z.2.2.map Prod.fst) : Wire.Shuffled (x.map Prod.fst) (x'.map Prod.fst) := by
  refine ⟨hp.map _, ?_, ?_⟩
  · intro b hb
    obtain ⟨y, hy, rfl⟩ := List.mem_map.1 hb
    exact ⟨y.2.2, lineDict_iff.2 ⟨_, (hx y hy).1, (hx y hy).2.1⟩, (hx y hy).2.2⟩
  · rw [List.pairwise_map]
    refine ha.imp_of_mem ?_
    intro y z hy hz h d e hd he
    obtain ⟨t, h1, h2⟩ := lineDict_iff.1 hd
    obtain ⟨u, h3, h4⟩ := lineDict_iff.1 he
    rw [(hx y hy).1] at h1; injection h1 with h1; subst h1
    rw [(hx z hz).1] at h3; injection h3 with h3; subst h3
    rw [(hx y hy).2.1] at h2; injection h2 with h2; subst h2
    rw [(hx z hz).2.1] at h4; injection h4 with h4; subst h4
    exact h

/-- The example message of C10 with the lines of both signature fields shuffled. -/
def mReq : Request := { vReq with
  headers := [(c! "signature", utf8 (c! "a=:Ag==:")), (c! "signature-input", utf8 (c! "c=(\"date\");alg=\"ed25519\";keyid=\"k1\"")),
    (c! "date", utf8 (c! "Tue")),
    (c! "signature-input", utf8 (c! "a=(\"date\" \"@status\");keyid=\"k1\", b=(\"@method\");expires=100;keyid=\"k2\"")),
    (c! "signature", utf8 (c! "c=:Aw==:, b=:AQ==:"))] }

theorem mReq_wf : WfHeaders mReq.headers := by
  intro kv hkv
  simp only [mReq, List.mem_cons, List.not_mem_nil, or_false] at hkv
  rcases hkv with rfl | rfl | rfl | rfl | rfl <;> exact ⟨by decide, by decide, by decide⟩

/-- The lines of Signature in the example, with their members. -/
def vLines : List (Bytes × Str × Dict) :=
  [(utf8 (c! "c=:Aw==:, b=:AQ==:"), c! "c=:Aw==:, b=:AQ==:", [(c! "c", .item ⟨.bytes [3], []⟩), (c! "b", .item ⟨.bytes [1], []⟩)]),
   (utf8 (c! "a=:Ag==:"), c! "a=:Ag==:", [(c! "a", .item ⟨.bytes [2], []⟩)])]

/-- The lines of Signature-Input. -/
def vInputs : List (Bytes × Str × Dict) :=
  [(utf8 (c! "a=(\"date\" \"@status\");keyid=\"k1\", b=(\"@method\");expires=100;keyid=\"k2\""),
      c! "a=(\"date\" \"@status\");keyid=\"k1\", b=(\"@method\");expires=100;keyid=\"k2\"",
      [(c! "a", .inner ⟨[⟨.str (c! "date"), []⟩, ⟨.str (c! "@status"), []⟩], [(c! "keyid", .str (c! "k1"))]⟩),
       (c! "b", .inner ⟨[⟨.str (c! "@method"), []⟩], [(c! "expires", .int 100), (c! "keyid", .str (c! "k2"))]⟩)]),
   (utf8 (c! "c=(\"date\");alg=\"ed25519\";keyid=\"k1\""), c! "c=(\"date\");alg=\"ed25519\";keyid=\"k1\"",
      [(c! "c", .inner ⟨[⟨.str (c! "date"), []⟩], [(c! "alg", .str (c! "ed25519")), (c! "keyid", .str (c! "k1"))]⟩)])]

set_option maxRecDepth 10000 in
theorem vLines_shuffled : Wire.Shuffled (Wire.linesOf vReq.headers (c! "signature")) (Wire.linesOf mReq.headers (c! "signature")) :=
  shuffled_of (x := vLines) (x' := vLines.reverse) (List.reverse_perm _).symm (by decide) (by decide)

set_option maxRecDepth 10000 in
theorem vInputs_shuffled : Wire.Shuffled (Wire.linesOf vReq.headers (c! "signature-input")) (Wire.linesOf mReq.headers (c! "signature-input")) :=
  shuffled_of (x := vInputs) (x' := vInputs.reverse) (List.reverse_perm _).symm (by decide) (by decide)

theorem mReq_carries : ∃ l', Wire.Carries mReq.headers l' ∧ vSigs.Perm l' :=
  C90_carries (C90_lines vInputs_shuffled (by decide)) (C90_lines vLines_shuffled (by decide)) (wireCarries_iff.2 vReq_carries)

/-- The components of the example signatures are not in the signature fields. -/
theorem vSigs_unmoved : ∀ kv ∈ vSigs, ∀ i ∈ kv.2.params.covered, Wire.Unmoved (.req vReq) (.req mReq) none none i := by
  intro kv hkv i hi
  simp only [vSigs, List.mem_cons, List.not_mem_nil, or_false] at hkv
  refine Or.inl (.here ?_ ?_) <;> rcases hkv with rfl | rfl | rfl <;> simp only [List.mem_cons, List.not_mem_nil, or_false] at hi
  · rcases hi with rfl | rfl <;> decide
  · subst hi; decide
  · subst hi; decide
  · rcases hi with rfl | rfl
    · exact Or.inl (by decide)
    · exact ⟨rfl, rfl⟩
  · subst hi; exact ⟨rfl, rfl⟩
  · subst hi; exact Or.inl (by decide)

-- the hypotheses are met: what is accepted and refused stays so
set_option maxRecDepth 10000 in
example : (∃ n, verifySignature 101 (.req mReq) vKey none none = .ok n) ∧
    verifySignature 101 (.req mReq) vKey (some (c! "k2")) none = .err .invalidSignature ∧
    verifySignature 100 (.req mReq) vKey (some (c! "k2")) none = .ok (c! "b") := by
  obtain ⟨l', h1, h2⟩ := mReq_carries
  obtain ⟨_, o2, _, o4, _⟩ := vReq_outcomes
  have key := fun now id => C90_verify (now := now) (m := .req vReq) (m' := .req mReq) vReq_wf mReq_wf (by simp) (by simp)
    (wireCarries_iff.2 vReq_carries) h1 h2 vSigs_unmoved vKey id
  refine ⟨(key 101 none).1.1 ⟨_, o2⟩, ((key 101 _).2.1 _).1 o4, ?_⟩
  have e := C90_one (now := 100) (m := .req vReq) (m' := .req mReq) vReq_wf mReq_wf (by simp) (by simp) (wireCarries_iff.2 vReq_carries) h1 h2
    vSigs_unmoved vKey (some (c! "k2")) (by
      have one : ∀ x ∈ vSigs, ForKey (some (c! "k2")) x.2 → x.1 = c! "b" := by
        intro x hx hk
        have all : ∀ x ∈ vSigs, x.2.params.keyid = some (c! "k2") → x.1 = c! "b" := by decide
        exact all x hx (hk _ rfl)
      rintro x hx y hy ⟨_, _, hx', _⟩ ⟨_, _, hy', _⟩
      exact List.inj_on_of_nodup_map (carries_nodup vReq_carries) hx hy ((one x hx hx').trans (one y hy hy').symm))
  rw [← e]; decide

set_option maxRecDepth 10000 in
/-- C90: which of several acceptable signatures is found does depend on the order. -/
theorem C90_name : verifySignature 100 (.req vReq) vKey none none = .ok (c! "b") ∧ verifySignature 100 (.req mReq) vKey none none = .ok (c! "c") := by
  decide

set_option maxRecDepth 10000 in
/-- C90: a component that is a whole signature field is not worth the same after its lines were shuffled; so it matters for a signature over
the signature fields of the request. -/
theorem C90_whole_field : ∃ v, Wire.HasValue (.res ⟨200, [], .data []⟩) (some vReq) ⟨.field (c! "signature"), [.req]⟩ v ∧
    ¬ Wire.HasValue (.res ⟨200, [], .data []⟩) (some mReq) ⟨.field (c! "signature"), [.req]⟩ v := by
  refine ⟨c! "c=:Aw==:, b=:AQ==:, a=:Ag==:", ?_, ?_⟩
  · rw [wireHasValue_iff]
    refine ⟨_, _, rfl, rfl, [c! "c=:Aw==:, b=:AQ==:", c! "a=:Ag==:"], [c! "c=:Aw==:, b=:AQ==:", c! "a=:Ag==:"], ?_, .req (.done _), by decide⟩
    exact .cons (by decide) (.cons (by decide) .nil)
  · rw [wireHasValue_iff]
    rintro ⟨_, _, _, h, ts, out, h1, h2, h3⟩
    injection h with h; subst h
    have h4 : LineTexts (fieldLines mReq.headers (c! "signature")) [c! "a=:Ag==:", c! "c=:Aw==:, b=:AQ==:"] :=
      .cons (by decide) (.cons (by decide) .nil)
    cases lineTexts_inj h1 h4
    rw [applied_plain (by simp)] at h2
    subst h2
    revert h3; decide

/-- Two lines with one label, in either order. -/
def twice (a b : Str) : Headers :=
  [(c! "signature-input", utf8 (c! "x=()")), (c! "signature", utf8 a), (c! "signature", utf8 b)]

theorem twice_wf (a b : Str) : WfHeaders (twice a b) := by
  intro kv hkv
  simp only [twice, List.mem_cons, List.not_mem_nil, or_false] at hkv
  have n1 : (c! "signature") ≠ [] ∧ (c! "signature").length ≤ 65535 ∧ ∀ c ∈ c! "signature", isTchar c = true ∧ ¬('A' ≤ c ∧ c ≤ 'Z') := by decide
  have n2 : (c! "signature-input") ≠ [] ∧ (c! "signature-input").length ≤ 65535 ∧
    ∀ c ∈ c! "signature-input", isTchar c = true ∧ ¬('A' ≤ c ∧ c ≤ 'Z') := by decide
  rcases hkv with rfl | rfl | rfl
  · exact n2
  · exact n1
  · exact n1

set_option maxRecDepth 10000 in
/-- C90: if a label stands in two lines, their order decides: the last one counts. -/
theorem C90_repeated_label :
    Wire.Carries (twice (c! "x=:AQ==:") (c! "x=:Ag==:")) [(c! "x", ⟨c! "x", [2], { covered := [] }⟩)] ∧
    Wire.Carries (twice (c! "x=:Ag==:") (c! "x=:AQ==:")) [(c! "x", ⟨c! "x", [1], { covered := [] }⟩)] := by
  rw [wireCarries_iff, wireCarries_iff]
  exact ⟨(extractSignatureHeaders_ok (m := .req { vReq with headers := twice (c! "x=:AQ==:") (c! "x=:Ag==:") }) (twice_wf _ _) _).1 (by decide),
    (extractSignatureHeaders_ok (m := .req { vReq with headers := twice (c! "x=:Ag==:") (c! "x=:AQ==:") }) (twice_wf _ _) _).1 (by decide)⟩

-- a member of a field is worth the same wherever it stands
example : Wire.HasValue (.req vReq) none ⟨.field (c! "signature"), [.key (c! "b")]⟩ (c! ":AQ==:") ↔
    Wire.HasValue (.req mReq) none ⟨.field (c! "signature"), [.key (c! "b")]⟩ (c! ":AQ==:") :=
  C90_value (m := .req vReq) (m' := .req mReq) (Or.inr ⟨by decide, c! "signature", c! "b", [], rfl, rfl, vLines_shuffled⟩) _

-- and the accessors say the same, in another order
example : ∃ x x', getSignatureParams (.req vReq) = .ok x ∧ getSignatureParams (.req mReq) = .ok x' ∧ x.Perm x' := by
  obtain ⟨l', h1, h2⟩ := mReq_carries
  exact (C90_accessors (m := .req vReq) (m' := .req mReq) vReq_wf mReq_wf (wireCarries_iff.2 vReq_carries) h1 h2 true).1

end Verif
