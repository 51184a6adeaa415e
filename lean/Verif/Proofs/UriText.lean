import Mathlib.Data.List.Induction
import Verif.Proofs.Text
import Verif.Spec.UriText
/-! Lemmas on the URI parser. -/
namespace Verif
open Spec

theorem splitAtFirst_iff {f : Char → Bool} {s a r : Str} :
    splitAtFirst f s = (a, r) ↔ s = a ++ r ∧ (∀ c ∈ a, f c = false) ∧ ∀ c, r.head? = some c → f c = true := by
  constructor
  · intro h
    simp only [splitAtFirst, Prod.mk.injEq] at h
    obtain ⟨rfl, rfl⟩ := h
    refine ⟨(List.takeWhile_append_dropWhile).symm, fun c hc => by simpa using takeWhile_all c hc, fun c hc => ?_⟩
    have := List.head?_dropWhile_not (fun c => !f c) s
    rw [hc] at this
    simpa using this
  · rintro ⟨rfl, h1, h2⟩
    induction a with
    | nil =>
      cases r with
      | nil => rfl
      | cons c t => simp [splitAtFirst, h2 c rfl]
    | cons b t ih =>
      have := ih fun c hc => h1 c (List.mem_cons_of_mem _ hc)
      simp only [splitAtFirst, Prod.mk.injEq] at this ⊢
      simp [h1 b List.mem_cons_self, this]

theorem dropFragment_iff {s p : Str} : dropFragment s = p ↔ ∃ f, s = p ++ fragmentText f ∧ '#' ∉ p := by
  constructor
  · intro h
    rw [dropFragment] at h
    rcases hsp : splitAtFirst (· == '#') s with ⟨a, r⟩
    rw [hsp] at h
    obtain ⟨h1, h2, h3⟩ := splitAtFirst_iff.mp hsp
    subst h
    have hp : '#' ∉ a := fun hc => by simpa using h2 _ hc
    cases r with
    | nil => exact ⟨none, by simpa [fragmentText] using h1, hp⟩
    | cons c t =>
      have : c = '#' := by simpa using h3 c rfl
      exact ⟨some t, by rw [h1, this]; rfl, hp⟩
  · rintro ⟨f, rfl, hp⟩
    have : splitAtFirst (· == '#') (p ++ fragmentText f) = (p, fragmentText f) := by
      refine splitAtFirst_iff.mpr ⟨rfl, fun c hc => ?_, fun c hc => ?_⟩
      · simpa using fun e : c = '#' => hp (e ▸ hc)
      · cases f with
        | none => cases hc
        | some f => injection hc with e; simp [← e]
    rw [dropFragment, this]

theorem pathQuery_iff {L : UriLib} {s p : Str} {q : Option Str} :
    pathQuery L s = some (p, q) ↔ ∃ f, s = p ++ queryText q ++ fragmentText f ∧ PathText L p q := by
  constructor
  · intro h
    obtain ⟨f, hs, hf⟩ := (dropFragment_iff (p := dropFragment s)).mp rfl
    rw [pathQuery] at h
    rcases hsp : splitAtFirst (· == '?') (dropFragment s) with ⟨a, r⟩
    obtain ⟨h1, h2, h3⟩ := splitAtFirst_iff.mp hsp
    have ha : ∀ c ∈ a, c ≠ '?' := fun c hc e => by simpa [e] using h2 c hc
    rw [hsp] at h
    refine ⟨f, ?_⟩
    rw [h1] at hs hf
    simp only [List.mem_append, not_or] at hf
    cases r with
    | nil =>
      simp only [Option.ite_none_right_eq_some, Option.some.injEq, Prod.mk.injEq, List.all_eq_true] at h
      obtain ⟨h, rfl, rfl⟩ := h
      exact ⟨hs, fun c hc => ⟨h c hc, ha c hc, fun e => hf.1 (e ▸ hc)⟩, nofun⟩
    | cons b t =>
      simp only [Option.ite_none_right_eq_some, Option.some.injEq, Prod.mk.injEq, List.all_eq_true] at h
      obtain ⟨⟨h, h'⟩, rfl, rfl⟩ := h
      have : b = '?' := by simpa using h3 b rfl
      subst this
      refine ⟨hs, fun c hc => ⟨h c hc, ha c hc, fun e => hf.1 (e ▸ hc)⟩, ?_⟩
      rintro _ ⟨⟩ c hc
      exact ⟨h' c hc, fun e => hf.2 (List.mem_cons_of_mem _ (e ▸ hc))⟩
  · rintro ⟨f, rfl, h⟩
    have hd : dropFragment (p ++ queryText q ++ fragmentText f) = p ++ queryText q := by
      refine dropFragment_iff.mpr ⟨f, rfl, ?_⟩
      simp only [List.mem_append, not_or]
      refine ⟨fun hc => (h.path _ hc).2.2 rfl, ?_⟩
      cases q with
      | none => simp [queryText]
      | some q => simpa [queryText] using fun hc => (h.query _ rfl _ hc).2 rfl
    have hsp : splitAtFirst (· == '?') (p ++ queryText q) = (p, queryText q) := by
      refine splitAtFirst_iff.mpr ⟨rfl, fun c hc => ?_, fun c hc => ?_⟩
      · simpa using (h.path _ hc).2.1
      · cases q with
        | none => cases hc
        | some q => injection hc with e; simp [← e]
    rw [pathQuery, hd, hsp]
    cases q with
    | none => simpa [queryText] using fun c hc => (h.path c hc).1
    | some q => simpa [queryText] using ⟨fun c hc => (h.path c hc).1, fun c hc => (h.query _ rfl c hc).1⟩

/-! ### Authority -/

theorem lastPart_snoc (x : Str) (c : Char) :
    lastPart (x ++ [c]) = if c = '@' ∨ c = ']' then [] else lastPart x ++ [c] := by
  unfold lastPart
  by_cases h1 : c = '@' <;> by_cases h2 : c = ']' <;> simp [h1, h2]

/-- What the loop knows after the text `x`. -/
def AuthSt.After (st : AuthSt) (x : Str) : Prop :=
  st.colons = (lastPart x).count ':' ∧ (st.opened = true ↔ '[' ∈ x) ∧ (st.closed = true ↔ ']' ∈ x) ∧
    (st.percent = true ↔ '%' ∈ lastPart x) ∧ (st.atLast = true ↔ x.getLast? = some '@')

/-- The character `c` may follow the text `x`. -/
def Follow (L : UriLib) (x : Str) (c : Char) : Prop :=
  (c = ':' → (lastPart x).count ':' < 8) ∧ (c = '[' → '%' ∉ lastPart x ∧ '[' ∉ x) ∧ (c = ']' → '[' ∈ x ∧ ']' ∉ x) ∧
    (L.authChar c = true ∨ c ∈ (c! ":[]@%"))

theorem step_iff {L : UriLib} {st st' : AuthSt} {x : Str} {c : Char} (h : st.After x) :
    st.step L c = some st' → Follow L x c ∧ st'.After (x ++ [c]) := by
  obtain ⟨h1, h2, h3, h4, h5⟩ := h
  intro hs
  unfold AuthSt.step at hs
  unfold Follow AuthSt.After
  rw [lastPart_snoc]
  split at hs
  · rename_i e; subst e
    split at hs
    · cases hs
    · cases hs
      simp_all
  split at hs
  · rename_i e; subst e
    split at hs
    · cases hs
    · cases hs
      simp_all
  split at hs
  · rename_i e; subst e
    split at hs
    · cases hs
    · cases hs
      simp_all
  split at hs
  · rename_i e; subst e
    cases hs
    simp_all
  split at hs
  · rename_i e; subst e
    cases hs
    simp_all
  split at hs
  · cases hs
    simp_all
    refine ⟨fun e => ?_, fun e => ?_, fun e => ?_⟩ <;> exact absurd e.symm (by assumption)
  · cases hs

theorem step_some {L : UriLib} {st : AuthSt} {x : Str} {c : Char} (h : st.After x) (hf : Follow L x c) :
    ∃ st', st.step L c = some st' := by
  obtain ⟨h1, h2, h3, h4, h5⟩ := h
  obtain ⟨f1, f2, f3, f4⟩ := hf
  unfold AuthSt.step
  split
  · rename_i e; have := f1 e; rw [if_neg (by omega)]; exact ⟨_, rfl⟩
  split
  · rename_i e; have := f2 e; rw [if_neg (by simp [h4, h2, this])]; exact ⟨_, rfl⟩
  split
  · rename_i e; have := f3 e; rw [if_neg (by simp [h3, h2, this])]; exact ⟨_, rfl⟩
  split
  · exact ⟨_, rfl⟩
  split
  · exact ⟨_, rfl⟩
  rename_i a b c d e
  rcases f4 with f4 | f4
  · rw [if_pos f4]; exact ⟨_, rfl⟩
  · simp_all

theorem start_after : AuthSt.start.After [] := by simp [AuthSt.start, AuthSt.After, lastPart]

theorem scan_after {L : UriLib} (a : Str) : ∀ {st : AuthSt}, a.foldlM (AuthSt.step L) AuthSt.start = some st →
    st.After a ∧ ∀ x c y, a = x ++ c :: y → Follow L x c := by
  induction a using List.reverseRecOn with
  | nil => intro st h; cases h; exact ⟨start_after, fun x c y e => by simp at e⟩
  | append_singleton t b ih =>
    intro st h
    rw [List.foldlM_append] at h
    cases hm : t.foldlM (AuthSt.step L) AuthSt.start with
    | none => rw [hm] at h; cases h
    | some st1 =>
      rw [hm] at h
      have h' : AuthSt.step L st1 b = some st := by simpa using h
      obtain ⟨i1, i2⟩ := ih hm
      obtain ⟨s1, s2⟩ := step_iff i1 h'
      refine ⟨s2, fun x c y e => ?_⟩
      cases y using List.reverseRecOn with
      | nil =>
        have e1 := List.append_inj' e rfl
        have e2 : b = c := by simpa using e1.2
        rw [← e1.1, ← e2]; exact s1
      | append_singleton y d =>
        rw [← List.cons_append, ← List.append_assoc] at e
        exact i2 x c y (List.append_inj' e rfl).1

theorem scan_some {L : UriLib} (a : Str) (h : ∀ x c y, a = x ++ c :: y → Follow L x c) :
    ∃ st, a.foldlM (AuthSt.step L) AuthSt.start = some st := by
  induction a using List.reverseRecOn with
  | nil => exact ⟨_, rfl⟩
  | append_singleton t b ih =>
    obtain ⟨st1, h1⟩ := ih fun x c y e => h x c (y ++ [b]) (by simp [e])
    obtain ⟨st, h2⟩ := step_some (scan_after t h1).1 (h t b [] (by simp))
    exact ⟨st, by rw [List.foldlM_append, h1]; simpa using h2⟩

theorem authorityOk_iff {L : UriLib} {a : Str} (ha : ∀ c ∈ a, authEnd c = false) : authorityOk L a = true ↔ AuthText L a := by
  constructor
  · intro h
    unfold authorityOk at h
    split at h
    case h_2 => cases h
    rename_i st hst
    obtain ⟨⟨h1, h2, h3, h4, h5⟩, hf⟩ := scan_after a hst
    simp only [AuthSt.ok, Bool.and_eq_true, beq_iff_eq, decide_eq_true_eq, Bool.not_eq_true'] at h
    obtain ⟨⟨⟨e1, e2⟩, e3⟩, e4⟩ := h
    refine ⟨?_, ?_, fun x y e => ?_, fun x y e => (hf x _ y e).2.2.1 rfl, fun hm => ?_, ⟨by omega, ?_⟩, ?_⟩
    · intro c hc
      obtain ⟨x, y, e⟩ := List.append_of_mem hc
      refine ⟨?_, (hf x c y e).2.2.2⟩
      have := ha c hc
      simp [authEnd] at this
      simp [this]
    · intro x
      induction x using List.reverseRecOn with
      | nil => intro y _; simp [lastPart]
      | append_singleton x c ih =>
        intro y e
        rw [lastPart_snoc]
        split
        · simp
        · have i := ih ([c] ++ y) (by rw [e]; simp)
          have j := (hf x c y (by rw [e]; simp)).1
          rw [List.count_append]
          by_cases hc : c = ':'
          · subst hc; have := j rfl; simp; omega
          · simp [hc]; exact i
    · exact ⟨((hf x _ y e).2.1 rfl).2, ((hf x _ y e).2.1 rfl).1⟩
    · exact h3.mp (e1 ▸ h2.mpr hm)
    · intro hm; rw [h4.mpr hm] at e4; cases e4
    · intro hm; rw [h5.mpr hm] at e3; cases e3
  · intro h
    have hf : ∀ x c y, a = x ++ c :: y → Follow L x c := by
      intro x c y e
      refine ⟨?_, ?_, ?_, ?_⟩
      · rintro rfl
        have := h.colons (x ++ [':']) y (by simp [e])
        rw [lastPart_snoc] at this
        simp at this
        omega
      · rintro rfl
        exact ⟨(h.opening x y e).2, (h.opening x y e).1⟩
      · rintro rfl
        exact h.closing x y e
      · exact (h.chars c (by simp [e])).2
    obtain ⟨st, hst⟩ := scan_some a hf
    obtain ⟨⟨h1, h2, h3, h4, h5⟩, _⟩ := scan_after a hst
    unfold authorityOk
    rw [hst]
    simp only [AuthSt.ok, Bool.and_eq_true, beq_iff_eq, decide_eq_true_eq, Bool.not_eq_true']
    refine ⟨⟨⟨?_, ?_⟩, ?_⟩, ?_⟩
    · rw [Bool.eq_iff_iff, h2, h3]
      refine ⟨h.pair, fun hm => ?_⟩
      obtain ⟨x, y, e⟩ := List.append_of_mem hm
      rw [e]
      exact List.mem_append_left _ (h.closing x y e).1
    · rw [h1]; exact h.port.1
    · rw [Bool.eq_false_iff]; exact fun e => h.host (h5.mp e)
    · rw [Bool.eq_false_iff]; exact fun e => h.port.2 (h4.mp e)

theorem authText_end {L : UriLib} {a : Str} (h : AuthText L a) : ∀ c ∈ a, authEnd c = false := by
  intro c hc
  have := (h.chars c hc).1
  simp at this
  simp [authEnd, this]

/-! ### Schemes -/

theorem otherScheme_iff {L : UriLib} {s n r : Str} :
    otherScheme L s = some (n, r) ↔ s = n ++ c! "://" ++ r ∧ ∀ c ∈ n, L.schemeChar c = true := by
  induction s generalizing n with
  | nil => simp [otherScheme]
  | cons c t ih =>
    unfold otherScheme
    split
    · rename_i e; subst e
      constructor
      · intro h
        split at h
        · cases h; exact ⟨rfl, by simp⟩
        · cases h
      · rintro ⟨h1, h2⟩
        cases n with
        | nil =>
          simp only [List.nil_append, List.cons_append, List.cons.injEq, true_and] at h1
          subst h1; rfl
        | cons d n =>
          simp only [List.cons_append, List.cons.injEq] at h1
          have := (L.scheme_clean d (h2 d List.mem_cons_self)).2.2.1
          exact absurd h1.1.symm this
    · rename_i hc
      split
      · rename_i hs
        constructor
        · intro h
          cases ho : otherScheme L t with
          | none => rw [ho] at h; cases h
          | some x =>
            rw [ho] at h
            cases h
            obtain ⟨h1, h2⟩ := ih.mp (show otherScheme L t = some (x.1, x.2) from ho)
            exact ⟨by rw [h1]; simp, fun d hd => by
              rcases List.mem_cons.mp hd with rfl | hd
              · exact hs
              · exact h2 d hd⟩
        · rintro ⟨h1, h2⟩
          cases n with
          | nil => simp at h1; exact absurd h1.1 hc
          | cons d n =>
            simp only [List.cons_append, List.cons.injEq] at h1
            obtain ⟨rfl, h1⟩ := h1
            rw [ih.mpr ⟨by simpa using h1, fun e he => h2 e (List.mem_cons_of_mem _ he)⟩]
            rfl
      · rename_i hs
        constructor
        · intro h; cases h
        · rintro ⟨h1, h2⟩
          cases n with
          | nil => simp at h1; exact absurd h1.1 hc
          | cons d n =>
            simp only [List.cons_append, List.cons.injEq] at h1
            exact absurd (h1.1 ▸ h2 d List.mem_cons_self) hs

theorem lower_length (s : Str) : (lower s).length = s.length := by simp [lower]

theorem toLower_eq {c x : Char} (hx : x.toNat < 97) (h : c.toLower = x) : c = x := by
  unfold Char.toLower at h
  split at h
  · rename_i hc
    have := congrArg Char.toNat h
    have h1 : ('A').toNat ≤ c.toNat := hc.1
    have h2 : c.toNat ≤ ('Z').toNat := hc.2
    have h3 : (c.val + ('a'.val - 'A'.val)).toNat = x.toNat := this
    have e1 : ('a'.val - 'A'.val : UInt32) = 32 := by decide
    rw [e1, UInt32.toNat_add] at h3
    have e2 : c.val.toNat = c.toNat := rfl
    have e3 : ('A').toNat = 65 := rfl
    have e4 : ('Z').toNat = 90 := rfl
    have e5 : (32 : UInt32).toNat = 32 := rfl
    omega
  · exact h

theorem lower_sep {t x : Str} (h : lower t = x ++ c! "://") : ∃ n, t = n ++ c! "://" ∧ lower n = x := by
  obtain ⟨n, m, rfl, hn, hm⟩ := List.map_eq_append_iff.mp (show t.map Char.toLower = x ++ c! "://" from h)
  refine ⟨n, ?_, hn⟩
  have hl : m.length = 3 := by have := congrArg List.length hm; simpa using this
  match m, hm, hl with
  | [a, b, c], hm, _ =>
    simp only [List.map_cons, List.map_nil, List.cons.injEq, and_true] at hm
    rw [toLower_eq (by decide) hm.1, toLower_eq (by decide) hm.2.1, toLower_eq (by decide) hm.2.2]

theorem colon_split {n n' x x' : Str} (h : ':' ∉ n) (h' : ':' ∉ n') (e : n ++ ':' :: x = n' ++ ':' :: x') : n = n' ∧ x = x' := by
  induction n generalizing n' with
  | nil =>
    cases n' with
    | nil => simpa using e
    | cons c t => simp only [List.nil_append, List.cons_append, List.cons.injEq] at e; exact absurd (e.1 ▸ List.mem_cons_self) h'
  | cons b t ih =>
    cases n' with
    | nil => simp only [List.nil_append, List.cons_append, List.cons.injEq] at e; exact absurd (e.1 ▸ List.mem_cons_self) h
    | cons c u =>
      simp only [List.cons_append, List.cons.injEq] at e
      obtain ⟨e1, e2⟩ := ih (fun hm => h (List.mem_cons_of_mem _ hm)) (fun hm => h' (List.mem_cons_of_mem _ hm)) e.2
      exact ⟨by rw [e.1, e1], e2⟩

theorem lower_noColon {n x : Str} (h : lower n = x) (hx : ':' ∉ x) : ':' ∉ n := by
  intro hm
  have : Char.toLower ':' ∈ lower n := List.mem_map_of_mem hm
  rw [h] at this
  exact hx this

theorem schemeText_noColon {L : UriLib} {n : Str} (h : SchemeText L n) : ':' ∉ n := by
  rcases h with h | h | h
  · exact lower_noColon h (by decide)
  · exact lower_noColon h (by decide)
  · exact fun hm => (L.scheme_clean _ (h.2.2 _ hm)).2.2.1 rfl

theorem splitScheme_some {L : UriLib} {s sch r : Str} :
    splitScheme L s = (some sch, r) ↔ ∃ n, s = n ++ c! "://" ++ r ∧ SchemeText L n ∧ sch = canonScheme n := by
  constructor
  · intro h
    unfold splitScheme at h
    split at h
    · rename_i hl
      cases h
      obtain ⟨n, h1, h2⟩ := lower_sep (x := c! "http") hl
      exact ⟨n, by rw [← h1, List.take_append_drop], Or.inl h2, by simp [canonScheme, h2]⟩
    split at h
    · rename_i hl
      cases h
      obtain ⟨n, h1, h2⟩ := lower_sep (x := c! "https") hl
      exact ⟨n, by rw [← h1, List.take_append_drop], Or.inr (Or.inl h2), by simp [canonScheme, h2]⟩
    rename_i h1 h2
    split at h
    · rename_i n r' ho
      obtain ⟨e1, e2⟩ := otherScheme_iff.mp ho
      split at h
      · rename_i hc
        obtain ⟨h3, h4⟩ := Prod.mk.inj h
        have h5 : n = sch := Option.some.inj h3
        subst h5
        subst h4
        refine ⟨n, e1, Or.inr (Or.inr ⟨hc.1, hc.2, e2⟩), ?_⟩
        unfold canonScheme
        rw [if_neg]
        rintro (hn | hn)
        · apply h1
          have : n.length = 4 := by rw [← lower_length, hn]; rfl
          rw [e1, List.take_append_of_le_length (by simp [this]), List.take_of_length_le (by simp [this]), lower, List.map_append]
          rw [show n.map Char.toLower = _ from hn]; decide
        · apply h2
          have : n.length = 5 := by rw [← lower_length, hn]; rfl
          rw [e1, List.take_append_of_le_length (by simp [this]), List.take_of_length_le (by simp [this]), lower, List.map_append]
          rw [show n.map Char.toLower = _ from hn]; decide
      · cases h
    · cases h
  · rintro ⟨n, rfl, hn, rfl⟩
    have hc := schemeText_noColon hn
    unfold splitScheme
    by_cases h1 : lower n = c! "http"
    · have hl : n.length = 4 := by rw [← lower_length, h1]; rfl
      rw [if_pos]
      · rw [List.drop_append_of_le_length (by simp [hl]), List.drop_of_length_le (by simp [hl])]
        simp [canonScheme, h1]
      · rw [List.take_append_of_le_length (by simp [hl]), List.take_of_length_le (by simp [hl]), lower, List.map_append]
        rw [show n.map Char.toLower = _ from h1]; decide
    by_cases h2 : lower n = c! "https"
    · have hl : n.length = 5 := by rw [← lower_length, h2]; rfl
      rw [if_neg, if_pos]
      · rw [List.drop_append_of_le_length (by simp [hl]), List.drop_of_length_le (by simp [hl])]
        simp [canonScheme, h2]
      · rw [List.take_append_of_le_length (by simp [hl]), List.take_of_length_le (by simp [hl]), lower, List.map_append]
        rw [show n.map Char.toLower = _ from h2]; decide
      · intro hh
        obtain ⟨n', e1, e2⟩ := lower_sep (x := c! "http") hh
        have e3 := List.take_append_drop 7 (n ++ c! "://" ++ r)
        rw [e1] at e3
        have := (colon_split (lower_noColon e2 (by decide)) hc (by simpa using e3)).1
        exact h1 (this ▸ e2)
    · rw [if_neg, if_neg]
      · have hn3 : n.length ≤ 64 ∧ (n ≠ [] ∨ L.emptyScheme = true) ∧ ∀ c ∈ n, L.schemeChar c = true := by
          rcases hn with hn | hn | hn
          · exact absurd hn h1
          · exact absurd hn h2
          · exact hn
        rw [otherScheme_iff.mpr ⟨rfl, hn3.2.2⟩]
        simp only [canonScheme, h1, h2, or_self, if_false]
        rw [if_pos ⟨hn3.1, hn3.2.1⟩]
      · intro hh
        obtain ⟨n', e1, e2⟩ := lower_sep (x := c! "https") hh
        have e3 := List.take_append_drop 8 (n ++ c! "://" ++ r)
        rw [e1] at e3
        have := (colon_split (lower_noColon e2 (by decide)) hc (by simpa using e3)).1
        exact h2 (this ▸ e2)
      · intro hh
        obtain ⟨n', e1, e2⟩ := lower_sep (x := c! "http") hh
        have e3 := List.take_append_drop 7 (n ++ c! "://" ++ r)
        rw [e1] at e3
        have := (colon_split (lower_noColon e2 (by decide)) hc (by simpa using e3)).1
        exact h1 (this ▸ e2)

theorem splitScheme_none {L : UriLib} {s r : Str} (h : splitScheme L s = (none, r)) : r = s := by
  unfold splitScheme at h
  split at h
  · cases h
  split at h
  · cases h
  split at h
  · split at h
    · cases h
    · cases h; rfl
  · cases h; rfl

theorem parseFull_iff {L : UriLib} {s : Str} {u : Uri} :
    parseFull L s = some u ↔ (AuthText L s ∧ u = ⟨none, some s, [], none⟩) ∨
      ∃ n a p q f, s = n ++ c! "://" ++ a ++ p ++ queryText q ++ fragmentText f ∧ SchemeText L n ∧ a ≠ [] ∧ AuthText L a ∧
        (p = [] ∨ p.head? = some '/') ∧ PathText L p q ∧ u = ⟨some (canonScheme n), some a, p, q⟩ := by
  have split3 : ∀ {s n a p : Str} {q f : Option Str}, s = n ++ c! "://" ++ a ++ p ++ queryText q ++ fragmentText f →
      s = n ++ c! "://" ++ (a ++ (p ++ queryText q ++ fragmentText f)) := by
    rintro _ n a p q f rfl
    simp only [List.append_assoc]
  constructor
  · intro h
    unfold parseFull at h
    split at h
    · rename_i r hs
      have := splitScheme_none hs
      subst this
      split at h
      · rename_i a hsp
        obtain ⟨e1, e2, -⟩ := splitAtFirst_iff.mp hsp
        rw [List.append_nil] at e1
        subst e1
        split at h
        · rename_i ha
          cases h
          exact Or.inl ⟨(authorityOk_iff e2).mp ha, rfl⟩
        · cases h
      · cases h
    · rename_i sch r hs
      obtain ⟨n, e1, e2, rfl⟩ := splitScheme_some.mp hs
      obtain ⟨a, r', hsp⟩ : ∃ a r', splitAtFirst authEnd r = (a, r') := ⟨_, _, rfl⟩
      rw [hsp] at h
      obtain ⟨g1, g2, g3⟩ := splitAtFirst_iff.mp hsp
      simp only at h
      split at h
      · rename_i ha
        cases hp : pathQuery L r' with
        | none => rw [hp] at h; cases h
        | some x =>
          obtain ⟨p, q⟩ := x
          rw [hp] at h
          cases h
          obtain ⟨f, k1, k2⟩ := pathQuery_iff.mp hp
          refine Or.inr ⟨n, a, p, q, f, ?_, e2, ha.1, (authorityOk_iff g2).mp ha.2, ?_, k2, rfl⟩
          · rw [e1, g1, k1]; simp only [List.append_assoc]
          · cases p with
            | nil => exact Or.inl rfl
            | cons c t =>
              have h1 := g3 c (by rw [k1]; rfl)
              have h2 := k2.path c List.mem_cons_self
              simp [authEnd, h2.2.1, h2.2.2] at h1
              exact Or.inr (by rw [h1]; rfl)
      · cases h
  · rintro (⟨h, rfl⟩ | ⟨n, a, p, q, f, hs, h2, h3, h4, h5, h6, rfl⟩)
    · have hsp : splitAtFirst authEnd s = (s, []) := splitAtFirst_iff.mpr ⟨by simp, authText_end h, by simp⟩
      unfold parseFull
      obtain ⟨o, r, hs⟩ : ∃ o r, splitScheme L s = (o, r) := ⟨_, _, rfl⟩
      cases o with
      | none =>
        have := splitScheme_none hs
        subst this
        rw [hs]
        simp only [hsp]
        rw [if_pos ((authorityOk_iff (authText_end h)).mpr h)]
      | some sch =>
        obtain ⟨n, e1, -, -⟩ := splitScheme_some.mp hs
        exact absurd (authText_end h '/' (by rw [e1]; simp)) (by decide)
    · unfold parseFull
      rw [splitScheme_some.mpr ⟨n, split3 hs, h2, rfl⟩]
      simp only
      have hsp : splitAtFirst authEnd (a ++ (p ++ queryText q ++ fragmentText f)) = (a, p ++ queryText q ++ fragmentText f) := by
        refine splitAtFirst_iff.mpr ⟨rfl, authText_end h4, fun c hc => ?_⟩
        rcases h5 with rfl | h5
        · cases q with
          | some q => cases hc; decide
          | none =>
            cases f with
            | some f => cases hc; decide
            | none => cases hc
        · cases p with
          | nil => cases h5
          | cons d t => cases h5; cases hc; decide
      rw [hsp]
      simp only
      rw [if_pos ⟨h3, (authorityOk_iff (authText_end h4)).mpr h4⟩, pathQuery_iff.mpr ⟨f, rfl, h6⟩]
      rfl

theorem parse_iff {L : UriLib} {s : Str} {u : Uri} :
    Uri.parse L s = some u ↔ (utf8 s).length ≤ L.maxLen ∧ UriText L s u := by
  have noSlash : ∀ {t : Str}, SchemeText L ('/' :: t) → False := by
    rintro t (h | h | h)
    · simp [lower] at h
    · simp [lower] at h
    · exact (L.scheme_clean '/' (h.2.2 _ List.mem_cons_self)).2.1 rfl
  unfold Uri.parse
  by_cases hl : L.maxLen < (utf8 s).length
  · rw [if_pos hl]
    exact ⟨nofun, fun h => absurd h.1 (by omega)⟩
  rw [if_neg hl]
  have hl' : (utf8 s).length ≤ L.maxLen := by omega
  constructor
  · intro h
    refine ⟨hl', ?_⟩
    split at h
    · cases h
    · cases h; exact .asterisk
    · rename_i t
      cases hp : pathQuery L ('/' :: t) with
      | none => rw [hp] at h; cases h
      | some x =>
        obtain ⟨p, q⟩ := x
        rw [hp] at h
        cases h
        obtain ⟨f, k1, k2⟩ := pathQuery_iff.mp hp
        rw [k1]
        refine .origin ?_ k2
        cases p with
        | nil =>
          cases q with
          | some q => simp [queryText] at k1
          | none =>
            cases f with
            | some f => simp [queryText, fragmentText] at k1
            | none => simp [queryText, fragmentText] at k1
        | cons c t' => simp at k1; simp [← k1.1]
    · rename_i h1 h2 h3
      rcases parseFull_iff.mp h with ⟨k1, rfl⟩ | ⟨n, a, p, q, f, rfl, k2, k3, k4, k5, k6, rfl⟩
      · exact .authority h1 h2 k1
      · exact .absolute k2 k3 k4 k5 k6
  · rintro ⟨-, h⟩
    cases h with
    | asterisk => rfl
    | @origin p q f h1 h2 =>
      cases p with
      | nil => cases h1
      | cons c t =>
        cases h1
        simp only [List.cons_append]
        rw [pathQuery_iff.mpr ⟨f, by simp, h2⟩]
        rfl
    | authority h1 h2 h3 =>
      split
      · exact absurd rfl h1
      · exact absurd rfl h2
      · exact absurd (authText_end h3 '/' List.mem_cons_self) (by decide)
      · exact parseFull_iff.mpr (Or.inl ⟨h3, rfl⟩)
    | @absolute n a p q f h1 h2 h3 h4 h5 =>
      have key := parseFull_iff.mpr (Or.inr ⟨n, a, p, q, f, rfl, h1, h2, h3, h4, h5, rfl⟩)
      split
      · rename_i e; simp at e
      · rename_i e
        have := congrArg List.length e
        simp at this
        omega
      · rename_i t e
        cases n with
        | nil => simp at e
        | cons c n =>
          simp only [List.cons_append, List.cons.injEq] at e
          obtain ⟨rfl, -⟩ := e
          exact absurd h1 noSlash
      · exact key

end Verif
