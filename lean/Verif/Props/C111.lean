import Verif.Spec.Pick
import Verif.Props.C101
import Verif.Props.C80
import Verif.Props.C72
import Verif.Props.C88
import Verif.Props.C62
/-!
C111 Junk in the signature fields does not stop a receiver that looks at the lines in pairs.
-/
namespace Verif
open Sfv Spec

section
variable {now : UInt64} {m : Msg} {rf : Option Request} {k : VerifyingKey} {id : Option Str}

/-! ### One pair of lines -/

theorem receive_one (hw : WfHeaders m.headers) (hf : ∀ r, rf = some r → WfHeaders r.headers) (hk : LibraryKey k) (n : Str) :
    Guard.receive now m [(k, id)] rf = .ok [.ok n] ↔ NoBackslash m.headers ∧
      ∃ l, Wire.Carries m.headers l ∧ ∃ l1 h l2, l = l1 ++ (n, h) :: l2 ∧ Wire.Checked now m rf k id h (.ok ()) ∧
        (∀ kv ∈ l1, ¬ Wire.Checked now m rf k id kv.2 (.ok ())) ∧ ∀ i ∈ h.params.covered, Guard.idHere m rf i = true := by
  have same : ∀ {l : List (Str × SigHeaders)} {h : SigHeaders} {p : SigParams}, Carries m.headers l → (n, h) ∈ l →
      (n, p) ∈ l.map (fun kv => (kv.1, kv.2.params)) → p = h.params := by
    intro l h p hc h1 h2
    obtain ⟨kv, h3, h4⟩ := List.mem_map.1 h2
    injection h4 with h4 h5
    have := List.inj_on_of_nodup_map (carries_nodup hc) h1 h3 h4.symm
    rw [← h5, ← this]
  rw [receive_ok hw]
  refine and_congr_right fun _ => ?_
  constructor
  · rintro ⟨l, hl, qs, hq, he⟩
    have hv := verifyAll_ok hq
    cases hv with
    | cons hv hn =>
      rename_i q qs
      cases hn
      simp only [List.map_cons, List.map_nil, List.cons.injEq, and_true] at he
      obtain ⟨rfl, p, hp, hc⟩ := accept_ok he.symm
      have hg : Guard.verify now m k id rf = .ok n := by
        unfold Guard.verifyAll Guard.call at hq
        unfold Guard.verify Guard.call
        split at hq
        · rename_i hh
          rw [if_pos hh, hv]; rfl
        · cases hq
      obtain ⟨l', hl', l1, h, l2, e, h1, h2⟩ := (C100_accepts hw hf hk n).1 hg
      refine ⟨l', hl', l1, h, l2, e, h1, h2, ?_⟩
      have hll : l = l' := carries_unique hw hl (wireCarries_iff.1 hl')
      rw [← same hl (by rw [hll, e]; simp) hp]
      exact hc
  · rintro ⟨l, hl, l1, h, l2, e, h1, h2, h3⟩
    have hg := (C100_accepts (now := now) (id := id) hw hf hk n).2 ⟨l, hl, l1, h, l2, e, h1, h2⟩
    have hl := wireCarries_iff.1 hl
    refine ⟨l, hl, [.ok n], ?_, ?_⟩
    · unfold Guard.verify Guard.call at hg
      unfold Guard.verifyAll Guard.call
      split at hg
      · rename_i hh
        rw [if_pos hh]
        have hg : verifySignature now m (Guard.key k) id rf = .ok n := by
          revert hg
          cases verifySignature now m (Guard.key k) id rf <;> simp
        rw [List.map_cons, List.map_nil, C35_batch_of_single (now := now) (rf := rf) [(Guard.key k, id)] [.ok n] hw hl (.cons hg .nil)]
        rfl
      · cases hg
    · simp only [List.map_cons, List.map_nil, List.cons.injEq, and_true, Guard.accept]
      cases hfd : (l.map fun kv => (kv.1, kv.2.params)).find? (fun kv => kv.1 == n) with
      | none =>
        have := List.find?_eq_none.1 hfd (n, h.params) (List.mem_map.2 ⟨(n, h), by rw [e]; simp, rfl⟩)
        simp at this
      | some kv =>
        have h4 := List.find?_some hfd
        have h5 := List.mem_of_find?_eq_some hfd
        obtain ⟨a, b⟩ := kv
        have h4 : a = n := by simpa using h4
        subst h4
        have := same hl (h := h) (by rw [e]; simp) h5
        subst this
        simp only
        rw [if_pos (by rw [List.all_eq_true]; exact h3)]

/-! ### The message with one pair -/

theorem mem_candidates (hw : WfHeaders m.headers) (x : Msg) : x ∈ Pick.candidates m ↔
    ∃ i ∈ Wire.linesOf m.headers (c! "signature-input"), ∃ s ∈ Wire.linesOf m.headers (c! "signature"), x = Pick.only m i s := by
  unfold Pick.candidates
  simp only [List.mem_flatMap, List.mem_map, getAll_fieldLines hw, linesOf_eq, hSignatureInput, hSignature]
  exact ⟨fun ⟨i, h1, s, h2, h3⟩ => ⟨i, h1, s, h2, h3.symm⟩, fun ⟨i, h1, s, h2, h3⟩ => ⟨i, h1, s, h2, h3.symm⟩⟩

theorem wf_others {h : Headers} (hw : WfHeaders h) : WfHeaders (Pick.others h) := fun kv hkv => hw kv (List.mem_of_mem_filter hkv)

theorem wf_only (hw : WfHeaders m.headers) (i s : Bytes) : WfHeaders (Pick.only m i s).headers := by
  unfold Pick.only
  rw [headers_withHeaders]
  intro kv hkv
  rcases List.mem_append.1 hkv with h | h
  · exact wf_others hw kv h
  · simp only [List.mem_cons, List.not_mem_nil, or_false] at h
    have w1 : WfName hSignatureInput := ⟨by decide, by decide, by decide⟩
    have w2 : WfName hSignature := ⟨by decide, by decide, by decide⟩
    rcases h with rfl | rfl
    · exact w1
    · exact w2

/-- A name other than those of the two fields. -/
def Other (f : Str) : Prop := lower f ≠ c! "signature" ∧ lower f ≠ c! "signature-input"

theorem lines_others {h : Headers} {f : Str} (ho : Other f) : fieldLines (Pick.others h) f = fieldLines h f := by
  unfold fieldLines Pick.others
  rw [List.filter_filter]
  congr 1
  refine List.filter_congr fun kv _ => ?_
  by_cases hc : lower kv.1 = lower f
  · have h1 : kv.1 ≠ hSignatureInput := by
      intro e; rw [e] at hc; exact ho.2 (hc.symm.trans (by decide))
    have h2 : kv.1 ≠ hSignature := by
      intro e; rw [e] at hc; exact ho.1 (hc.symm.trans (by decide))
    simp [hc, h1, h2]
  · simp [hc]

theorem others_none {h : Headers} (hw : WfHeaders h) {f : Str} (ho : f = c! "signature" ∨ f = c! "signature-input") :
    fieldLines (Pick.others h) f = [] := by
  unfold fieldLines
  rw [List.map_eq_nil_iff, List.filter_eq_nil_iff]
  intro kv hkv
  obtain ⟨h1, h2⟩ := List.mem_filter.1 hkv
  have hl := WfName.lower (hw kv h1)
  simp only [decide_eq_true_eq]
  intro e
  simp only [Bool.and_eq_true, bne_iff_ne, hSignature, hSignatureInput] at h2
  rcases ho with rfl | rfl
  · exact h2.2 (by rw [← hl, e]; decide)
  · exact h2.1 (by rw [← hl, e]; decide)

theorem others_only (i s : Bytes) {f : Str} (ho : Other f) : fieldLines (Pick.only m i s).headers f = fieldLines m.headers f := by
  unfold Pick.only
  rw [headers_withHeaders, fieldLines_append, lines_others ho]
  have : fieldLines [(hSignatureInput, i), (hSignature, s)] f = [] := by
    unfold fieldLines
    rw [List.map_eq_nil_iff, List.filter_eq_nil_iff]
    intro kv hkv
    simp only [List.mem_cons, List.not_mem_nil, or_false] at hkv
    simp only [decide_eq_true_eq]
    intro e
    have e1 : lower hSignatureInput = c! "signature-input" := by decide
    have e2 : lower hSignature = c! "signature" := by decide
    rcases hkv with rfl | rfl
    · exact ho.2 (e.symm.trans e1)
    · exact ho.1 (e.symm.trans e2)
  rw [this, List.append_nil]

theorem only_lines (hw : WfHeaders m.headers) (i s : Bytes) :
    fieldLines (Pick.only m i s).headers (c! "signature-input") = [i] ∧ fieldLines (Pick.only m i s).headers (c! "signature") = [s] := by
  unfold Pick.only
  rw [headers_withHeaders, fieldLines_append, fieldLines_append, others_none hw (Or.inr rfl), others_none hw (Or.inl rfl)]
  constructor <;> simp [fieldLines, lower, hSignature, hSignatureInput]

/-- Two messages that agree but for the two fields, and parameters that do not cover these. -/
theorem notSelf_same {h h' : Headers} (hs : ∀ f, Other f → fieldLines h f = fieldLines h' f) {p : SigParams} (hp : NotSelf p) :
    ∀ i ∈ p.covered, Wire.SameFor (m.withHeaders h) (m.withHeaders h') rf rf i := by
  intro i hi
  by_cases hr : CParam.req ∈ i.params
  · cases m with
    | req r => exact .never hr (by intro s r' h; cases h) (by intro s r' h; cases h)
    | res s =>
      cases rf with
      | none => exact .never hr (by simp) (by simp)
      | some r =>
        refine .there hr rfl rfl rfl rfl ?_
        unfold Wire.SamePart
        cases i.name with
        | field f => exact Or.inl rfl
        | derived d => cases d <;> first | rfl | exact ⟨rfl, rfl⟩
  · refine .here hr ?_
    have hn := hp i hi hr
    unfold Wire.SamePart
    cases hi : i.name with
    | field f =>
      left
      rw [linesOf_eq, linesOf_eq, headers_withHeaders, headers_withHeaders]
      exact hs f (hn.2 f hi)
    | derived d =>
      have : d ≠ .signatureParams := fun e => hn.1 (by rw [hi, e])
      cases d <;> cases m <;> first | exact absurd rfl this | rfl | exact ⟨rfl, rfl⟩

theorem here_same {h h' : Headers} (hw : WfHeaders h) (hw' : WfHeaders h') (hf : ∀ r, rf = some r → WfHeaders r.headers)
    (hs : ∀ f, Other f → fieldLines h f = fieldLines h' f) {p : SigParams} (hp : NotSelf p) {i : CId} (hi : i ∈ p.covered)
    (hh : Guard.idHere (m.withHeaders h) rf i = true) : Guard.idHere (m.withHeaders h') rf i = true := by
  obtain ⟨x, h1, h2, h3⟩ := (C101_here (m := m.withHeaders h) (by rw [headers_withHeaders]; exact hw) hf i).1 hh
  refine (C101_here (m := m.withHeaders h') (by rw [headers_withHeaders]; exact hw') hf i).2 ?_
  unfold Speaks at h1 ⊢
  by_cases hq : CParam.req ∈ i.params
  · simp only [if_pos hq] at h1 ⊢
    refine ⟨x, ?_, h2, h3⟩
    cases m <;> exact h1
  · simp only [if_neg hq] at h1 ⊢
    subst h1
    refine ⟨_, rfl, fun f hf => ?_, fun r hr hn => ?_⟩
    · have := h2 f hf
      rw [headers_withHeaders] at this ⊢
      rw [← hs f ((hp i hi hq).2 f hf)]
      exact this
    · cases m with
      | req q =>
        injection hr with hr; subst hr
        exact h3 { q with headers := h } rfl hn
      | res s => cases hr

/-! ### The receiver -/

theorem firstOf_panic (hf : ∀ r, rf = some r → WfHeaders r.headers) (hk : LibraryKey k) {l : List Msg} (hl : ∀ x ∈ l, WfHeaders x.headers) :
    Pick.firstOf now k id rf l ≠ .panic := by
  induction l with
  | nil => simp [Pick.firstOf]
  | cons x t ih =>
    have hx := C101_never_panics (now := now) (hl x (by simp)) hf [(k, id)] (by simpa using hk)
    unfold Pick.firstOf
    split
    · simp
    · rename_i e; exact absurd e hx
    · exact ih (fun x hx => hl x (by simp [hx]))

theorem firstOf_some {l : List Msg} {x : Msg} {n : Str} (h : Pick.firstOf now k id rf l = .ok (some (x, n))) :
    x ∈ l ∧ Guard.receive now x [(k, id)] rf = .ok [.ok n] := by
  induction l with
  | nil => cases h
  | cons y t ih =>
    unfold Pick.firstOf at h
    split at h
    · rename_i e
      injection h with h; injection h with h; injection h with h1 h2
      subst h1 h2
      exact ⟨by simp, e⟩
    · cases h
    · obtain ⟨h1, h2⟩ := ih h
      exact ⟨by simp [h1], h2⟩

theorem firstOf_none (hf : ∀ r, rf = some r → WfHeaders r.headers) (hk : LibraryKey k) {l : List Msg} (hl : ∀ x ∈ l, WfHeaders x.headers)
    {x : Msg} (hx : x ∈ l) {n : Str} (h : Guard.receive now x [(k, id)] rf = .ok [.ok n]) :
    ∃ y n', Pick.firstOf now k id rf l = .ok (some (y, n')) := by
  induction l with
  | nil => cases hx
  | cons y t ih =>
    have hy := C101_never_panics (now := now) (hl y (by simp)) hf [(k, id)] (by simpa using hk)
    unfold Pick.firstOf
    split
    · exact ⟨_, _, rfl⟩
    · rename_i e; exact absurd e hy
    · rename_i e _
      refine ih (fun x hx => hl x (by simp [hx])) ((List.mem_cons.1 hx).resolve_left ?_)
      rintro rfl
      exact e n h

theorem wf_candidates (hw : WfHeaders m.headers) : ∀ x ∈ Pick.candidates m, WfHeaders x.headers := by
  intro x hx
  obtain ⟨i, _, s, _, rfl⟩ := (mem_candidates hw x).1 hx
  exact wf_only hw i s

/-- C111: it never panics. -/
theorem C111_never_panics (hw : WfHeaders m.headers) (hf : ∀ r, rf = some r → WfHeaders r.headers) (hk : LibraryKey k) :
    Pick.receive now m k id rf ≠ .panic := firstOf_panic hf hk (wf_candidates hw)

/-- C111: what is needed of two lines of the message. -/
structure GoodPair (now : UInt64) (m : Msg) (rf : Option Request) (k : VerifyingKey) (id : Option Str) (i s : Bytes) (n : Str) (sh : SigHeaders) :
    Prop where
  input : i ∈ Wire.linesOf m.headers (c! "signature-input")
  signature : s ∈ Wire.linesOf m.headers (c! "signature")
  backslash : ∀ b ∈ i, b.toNat ≠ 92
  carried : ∃ l, Wire.Carries (Pick.only m i s).headers l ∧ ∃ l1 l2, l = l1 ++ (n, sh) :: l2 ∧
    ∀ kv ∈ l1, ¬ Wire.Checked now (Pick.only m i s) rf k id kv.2 (.ok ())
  checked : Wire.Checked now (Pick.only m i s) rf k id sh (.ok ())
  here : ∀ c ∈ sh.params.covered, Guard.idHere (Pick.only m i s) rf c = true

theorem good_iff (hw : WfHeaders m.headers) (hf : ∀ r, rf = some r → WfHeaders r.headers) (hk : LibraryKey k) {i s : Bytes}
    (hi : i ∈ Wire.linesOf m.headers (c! "signature-input")) (hs : s ∈ Wire.linesOf m.headers (c! "signature")) (n : Str) :
    Guard.receive now (Pick.only m i s) [(k, id)] rf = .ok [.ok n] ↔ ∃ sh, GoodPair now m rf k id i s n sh := by
  rw [receive_one (wf_only hw i s) hf hk]
  have hb : NoBackslash (Pick.only m i s).headers ↔ ∀ b ∈ i, b.toNat ≠ 92 := by
    unfold NoBackslash
    rw [linesOf_eq, (only_lines hw i s).1]
    simp
  rw [hb]
  constructor
  · rintro ⟨h1, l, h2, l1, h, l2, h3, h4, h5, h6⟩
    exact ⟨h, hi, hs, h1, ⟨l, h2, l1, l2, h3, h5⟩, h4, h6⟩
  · rintro ⟨h, _, _, h1, ⟨l, h2, l1, l2, h3, h5⟩, h4, h6⟩
    exact ⟨h1, l, h2, l1, h, l2, h3, h4, h5, h6⟩

/-- C111: it accepts if and only if the message has two such lines, and then it returns the message with two such lines. -/
theorem C111_accepts (hw : WfHeaders m.headers) (hf : ∀ r, rf = some r → WfHeaders r.headers) (hk : LibraryKey k) :
    ((∃ x n, Pick.receive now m k id rf = .ok (some (x, n))) ↔ ∃ i s n sh, GoodPair now m rf k id i s n sh) ∧
    ∀ x n, Pick.receive now m k id rf = .ok (some (x, n)) → ∃ i s sh, GoodPair now m rf k id i s n sh ∧ x = Pick.only m i s := by
  have key : ∀ x n, Pick.receive now m k id rf = .ok (some (x, n)) → ∃ i s sh, GoodPair now m rf k id i s n sh ∧ x = Pick.only m i s := by
    intro x n h
    obtain ⟨h1, h2⟩ := firstOf_some h
    obtain ⟨i, hi, s, hs, rfl⟩ := (mem_candidates hw x).1 h1
    obtain ⟨sh, hg⟩ := (good_iff hw hf hk hi hs n).1 h2
    exact ⟨i, s, sh, hg, rfl⟩
  refine ⟨⟨?_, ?_⟩, key⟩
  · rintro ⟨x, n, h⟩
    obtain ⟨i, s, sh, hg, _⟩ := key x n h
    exact ⟨i, s, n, sh, hg⟩
  · rintro ⟨i, s, n, sh, hg⟩
    exact firstOf_none hf hk (wf_candidates hw) ((mem_candidates hw _).2 ⟨i, hg.input, s, hg.signature, rfl⟩)
      ((good_iff hw hf hk hg.input hg.signature n).2 ⟨sh, hg⟩)

theorem firstOf_before {l : List Msg} {x : Msg} {n : Str} (h : Pick.firstOf now k id rf l = .ok (some (x, n))) :
    ∃ l1 l2, l = l1 ++ x :: l2 ∧ Guard.receive now x [(k, id)] rf = .ok [.ok n] ∧ ∀ y ∈ l1, ∀ n', Guard.receive now y [(k, id)] rf ≠ .ok [.ok n'] := by
  induction l with
  | nil => cases h
  | cons y t ih =>
    unfold Pick.firstOf at h
    split at h
    · rename_i e
      injection h with h; injection h with h; injection h with h1 h2
      subst h1 h2
      exact ⟨[], t, rfl, e, by simp⟩
    · cases h
    · rename_i e _
      obtain ⟨l1, l2, h1, h2, h3⟩ := ih h
      refine ⟨y :: l1, l2, by rw [h1]; rfl, h2, ?_⟩
      intro z hz n' hn
      rcases List.mem_cons.1 hz with rfl | hz
      · exact e n' hn
      · exact h3 z hz n' hn

theorem map_split {α β : Type} {f : α → β} {l : List α} {l1 l2 : List β} {x : β} (h : l.map f = l1 ++ x :: l2) :
    ∃ a1 a a2, l = a1 ++ a :: a2 ∧ x = f a ∧ l1 = a1.map f := by
  obtain ⟨a1, t, h1, h2, h3⟩ := List.map_eq_append_iff.1 h
  obtain ⟨a, a2, h4, h5, _⟩ := List.map_eq_cons_iff.1 h3
  exact ⟨a1, a, a2, by rw [h1, h4], h5.symm, h2.symm⟩

theorem product_split {α β γ : Type} {f : α → β → γ} {s : List β} : ∀ {l : List α} {l1 l2 : List γ} {x : γ},
    (l.flatMap fun i => s.map (f i)) = l1 ++ x :: l2 → ∃ a1 a a2 b1 b b2, l = a1 ++ a :: a2 ∧ s = b1 ++ b :: b2 ∧ x = f a b ∧
      (∀ a' ∈ a1, ∀ b' ∈ s, f a' b' ∈ l1) ∧ ∀ b' ∈ b1, f a b' ∈ l1
  | [], l1, l2, x, h => by simp at h
  | i :: t, l1, l2, x, h => by
    rw [List.flatMap_cons] at h
    rcases List.append_eq_append_iff.1 h with ⟨r, h1, h2⟩ | ⟨r, h1, h2⟩
    · obtain ⟨a1, a, a2, b1, b, b2, e1, e2, e3, e4, e5⟩ := product_split h2
      refine ⟨i :: a1, a, a2, b1, b, b2, by rw [e1]; rfl, e2, e3, ?_, fun b' hb => by rw [h1]; simp [e5 b' hb]⟩
      intro a' ha b' hb
      rw [h1]
      rcases List.mem_cons.1 ha with rfl | ha
      · exact List.mem_append_left _ (List.mem_map_of_mem hb)
      · exact List.mem_append_right _ (e4 a' ha b' hb)
    · cases r with
      | nil =>
        obtain ⟨a1, a, a2, b1, b, b2, e1, e2, e3, e4, e5⟩ := product_split (l1 := []) (x := x) (l2 := l2) h2.symm
        rw [List.append_nil] at h1
        refine ⟨i :: a1, a, a2, b1, b, b2, by rw [e1]; rfl, e2, e3, ?_, fun b' hb => by cases e5 b' hb⟩
        intro a' ha b' hb
        rcases List.mem_cons.1 ha with rfl | ha
        · rw [← h1]; exact List.mem_map_of_mem hb
        · cases e4 a' ha b' hb
      | cons y r =>
        rw [List.cons_append] at h2
        injection h2 with h2 _
        subst h2
        obtain ⟨b1, b, b2, e1, e2, e3⟩ := map_split h1
        exact ⟨[], i, t, b1, b, b2, rfl, e1, e2, by simp, fun b' hb => by rw [e3]; exact List.mem_map_of_mem hb⟩

/-- C111: the two lines are the first good ones: no line of Signature-Input before `i` is good with any line of Signature, and no line of
Signature before `s` is good with `i`. -/
theorem C111_first (hw : WfHeaders m.headers) (hf : ∀ r, rf = some r → WfHeaders r.headers) (hk : LibraryKey k) {x : Msg} {n : Str}
    (h : Pick.receive now m k id rf = .ok (some (x, n))) :
    ∃ i1 i i2 s1 s s2, Wire.linesOf m.headers (c! "signature-input") = i1 ++ i :: i2 ∧ Wire.linesOf m.headers (c! "signature") = s1 ++ s :: s2 ∧
      x = Pick.only m i s ∧ (∃ sh, GoodPair now m rf k id i s n sh) ∧
      (∀ i' ∈ i1, ∀ s' n' sh, ¬ GoodPair now m rf k id i' s' n' sh) ∧ ∀ s' ∈ s1, ∀ n' sh, ¬ GoodPair now m rf k id i s' n' sh := by
  obtain ⟨l1, l2, h1, h2, h3⟩ := firstOf_before h
  obtain ⟨i1, i, i2, s1, s, s2, e1, e2, rfl, e4, e5⟩ := product_split h1
  have ei : Wire.linesOf m.headers (c! "signature-input") = i1 ++ i :: i2 := by rw [linesOf_eq, ← getAll_fieldLines hw]; exact e1
  have es : Wire.linesOf m.headers (c! "signature") = s1 ++ s :: s2 := by rw [linesOf_eq, ← getAll_fieldLines hw]; exact e2
  refine ⟨i1, i, i2, s1, s, s2, ei, es, rfl, (good_iff hw hf hk (by rw [ei]; simp) (by rw [es]; simp) n).1 h2, ?_, ?_⟩
  · intro i' hi s' n' sh hg
    have hs : s' ∈ m.headers.getAll hSignature := by
      have := hg.signature; rw [linesOf_eq, ← getAll_fieldLines hw] at this; exact this
    exact h3 _ (e4 i' hi s' hs) n' ((good_iff hw hf hk hg.input hg.signature n').2 ⟨sh, hg⟩)
  · intro s' hs n' sh hg
    exact h3 _ (e5 s' hs) n' ((good_iff hw hf hk hg.input hg.signature n').2 ⟨sh, hg⟩)

/-- C111: the message that it returns is the received one in everything but the two fields, of which it has one line each, lines of the
received message. -/
theorem C111_returned (hw : WfHeaders m.headers) {x : Msg} {n : Str}
    (h : Pick.receive now m k id rf = .ok (some (x, n))) :
    SameButHeaders m x ∧ (∀ f, Other f → Wire.linesOf x.headers f = Wire.linesOf m.headers f) ∧
    (∃ i ∈ Wire.linesOf m.headers (c! "signature-input"), Wire.linesOf x.headers (c! "signature-input") = [i]) ∧
    ∃ s ∈ Wire.linesOf m.headers (c! "signature"), Wire.linesOf x.headers (c! "signature") = [s] := by
  obtain ⟨h1, _⟩ := firstOf_some h
  obtain ⟨i, hi, s, hs, rfl⟩ := (mem_candidates hw x).1 h1
  refine ⟨?_, fun f hf => others_only i s hf, ⟨i, hi, (only_lines hw i s).1⟩, s, hs, (only_lines hw i s).2⟩
  cases m <;> simp [Pick.only, Msg.withHeaders, SameButHeaders]

/-- C111: what it accepts was signed, as `C101_bound` says it, for the message that it returns. And of components outside the two fields
the value is that of the received message. -/
theorem C111_bound (hm : WfMsg m) (hf : ∀ r, rf = some r → WfRequest r) (hk : LibraryKey k) {S : Signing → Prop} (hS : OnlySigned k S)
    (hc : ∀ y, S y → CarefulSigning y) {x : Msg} {n : Str} (h : Pick.receive now m k id rf = .ok (some (x, n))) :
    ∃ l sh, Wire.Carries x.headers l ∧ (n, sh) ∈ l ∧ ∃ y, S y ∧ y.p = sh.params ∧
      (∀ i ∈ sh.params.covered, ∃ v, Wire.HasValue x rf i v ∧ Wire.HasValue y.m y.rf i v) ∧
      (NotSelf sh.params → ∀ i ∈ sh.params.covered, ∃ v, Wire.HasValue m rf i v ∧ Wire.HasValue y.m y.rf i v) := by
  have hw : WfHeaders m.headers := by
    cases m with
    | req r => exact hm.headers
    | res s => exact hm
  obtain ⟨h1, h2⟩ := firstOf_some h
  obtain ⟨i0, hi0, s0, hs0, rfl⟩ := (mem_candidates hw x).1 h1
  have hmx : WfMsg (Pick.only m i0 s0) := by
    have := wf_only hw i0 s0
    cases m with
    | req r => exact { hm with headers := this }
    | res s => exact this
  have hb := C101_bound hmx hf h2
  cases hb with
  | cons hb _ =>
    obtain ⟨l, sh, h3, h4, y, h5, h6, h7⟩ := hb n rfl hk S hS hc
    have hv : ∀ i ∈ sh.params.covered, ∃ v, Wire.HasValue (Pick.only m i0 s0) rf i v ∧ Wire.HasValue y.m y.rf i v := by
      intro i hi
      obtain ⟨v, v1, v2⟩ := (h7 i hi).1
      exact ⟨v, wireHasValue_iff.2 v1, wireHasValue_iff.2 v2⟩
    refine ⟨l, sh, wireCarries_iff.2 h3, h4, y, h5, h6, hv, ?_⟩
    intro hn i hi
    obtain ⟨v, v1, v2⟩ := hv i hi
    refine ⟨v, ?_, v2⟩
    have := notSelf_same (m := m) (rf := rf) (h := (Pick.only m i0 s0).headers) (h' := m.headers) (fun f hf => others_only i0 s0 hf) hn i hi
    rw [withHeaders_same] at this
    have e : m.withHeaders (Pick.only m i0 s0).headers = Pick.only m i0 s0 := by cases m <;> rfl
    rw [e] at this
    exact (C80_value this v).1 v1

/-- C111: junk. Of a message that the careful sender made, somebody may change the two fields as they like, as long as the lines of the sender
are still among theirs: before, between and after there may be any lines, that cannot be read, that panic, with the labels of the sender.
The receiver accepts it with the key of each signer. -/
theorem C111_junk (hw : WfHeaders m.headers) (hf : ∀ r, rf = some r → WfHeaders r.headers) {l : List Signer} {h' : Headers}
    (h : Guard.send m l rf = (h', .ok ())) {x : Signer} (hx : x ∈ l) (hp : KeyPair x.2.1 k) (hk : LibraryKey k) (hn : NotSelf x.1)
    (ht : ∀ e, x.1.expires = some e → now ≤ e) (hid : id = none ∨ id = x.1.keyid)
    {g : Headers} (hg : WfHeaders g) (ho : ∀ f, Other f → Wire.linesOf g f = Wire.linesOf h' f)
    (hi : ∀ b ∈ Wire.linesOf h' (c! "signature-input"), b ∈ Wire.linesOf g (c! "signature-input"))
    (hs : ∀ b ∈ Wire.linesOf h' (c! "signature"), b ∈ Wire.linesOf g (c! "signature")) :
    ∃ y n, Pick.receive now (m.withHeaders g) k id rf = .ok (some (y, n)) := by
  have hw2 : WfHeaders (m.withHeaders g).headers := by rw [headers_withHeaders]; exact hg
  obtain ⟨hS, hh, h2, rfl⟩ := (C101_sends hw hf _ _).1 h
  obtain ⟨sh, hsh, hsb⟩ := forall₂_mem_left h2 x hx
  obtain ⟨t, ht1, ht2⟩ := hsb.signature
  -- the message without its signature fields
  have hoth : ∀ f, Other f → fieldLines m.headers f = fieldLines (Pick.others g) f := by
    intro f hf
    rw [lines_others hf]
    have := ho f hf
    rw [linesOf_eq, linesOf_eq] at this
    rw [this, fieldLines_append]
    have e : fieldLines (hh.flatMap sigLines) f = [] := fieldLines_sigLines_other hh hf.1 hf.2
    rw [e, List.append_nil]
  have hw0 : WfHeaders (m.withHeaders (Pick.others g)).headers := by rw [headers_withHeaders]; exact wf_others hg
  have hbase : BaseOf (m.withHeaders (Pick.others g)) rf x.1 t := by
    have := notSelf_same (m := m) (rf := rf) hoth hn
    rw [withHeaders_same] at this
    exact wireBaseOf_iff.1 ((C80_base this t).1 (wireBaseOf_iff.2 ht1))
  have hsb0 : SignedBy (m.withHeaders (Pick.others g)) rf x sh := ⟨hsb.name, hsb.params, t, hbase, ht2⟩
  have hsafe := hS.safe x hx
  have hset : setSignatures (m.withHeaders (Pick.others g)) [x] rf = (Pick.others g ++ [sh].flatMap sigLines, .ok ()) := by
    refine (setSignatures_ok hw0 hf _ _).2 ⟨[sh], .cons hsb0 .nil, fun y hy => ?_, by rw [headers_withHeaders]⟩
    rw [List.mem_singleton.1 hy, hvOfStr_printable (safe_input_printable (signed_safe h2 hS.safe sh hsh))]; rfl
  have e0 : fieldLines (m.withHeaders (Pick.others g)).headers (c! "signature-input") = [] := by
    rw [headers_withHeaders]; exact others_none hg (Or.inr rfl)
  have e0' : fieldLines (m.withHeaders (Pick.others g)).headers (c! "signature") = [] := by
    rw [headers_withHeaders]; exact others_none hg (Or.inl rfl)
  have hone : ∀ y ∈ [x], SafeParams y.1 ∧ LegalKey y.label ∧ NotSelf y.1 := by
    intro y hy; rw [List.mem_singleton.1 hy]; exact ⟨hsafe.1, hsafe.2, hn⟩
  obtain ⟨hs', g1, hw', hc, hb⟩ := signed_state hw0 hf e0 e0' (by simp) hone (by simp) hset
  have hfin : Guard.receive now (Pick.only (m.withHeaders g) (utf8 (sh.name ++ c! "=" ++ sh.params.disp))
      (utf8 (sh.name ++ c! "=:" ++ Base64.encode sh.signature ++ c! ":"))) [(k, id)] rf = .ok [.ok sh.name] := by
    have e : Pick.only (m.withHeaders g) (utf8 (sh.name ++ c! "=" ++ sh.params.disp))
        (utf8 (sh.name ++ c! "=:" ++ Base64.encode sh.signature ++ c! ":")) =
        (m.withHeaders (Pick.others g)).withHeaders (Pick.others g ++ [sh].flatMap sigLines) := by
      unfold Pick.only
      rw [withHeaders_twice, withHeaders_twice, headers_withHeaders]
      rfl
    rw [e]
    cases g1 with
    | cons g1 g2 =>
      rename_i sh' t'
      cases g2
      have hwP : WfHeaders ((m.withHeaders (Pick.others g)).withHeaders (Pick.others g ++ [sh].flatMap sigLines)).headers := by
        rw [headers_withHeaders]; exact hw'
      obtain ⟨t', hb1, hb2⟩ := g1.signature
      have htt : t' = t := base_unique hw0 hf hb1 hbase
      subst htt
      have hsig : sh'.signature = sh.signature := by
        rw [ht2] at hb2; injection hb2 with hb2; exact hb2.symm
      refine (receive_one hwP hf hk _).2 ⟨?_, [(sh'.name, sh')], ?_, [], sh', [], ?_, ?_, by simp, ?_⟩
      · rw [headers_withHeaders]
        refine C87_written hw0 hf (fun y hy => ⟨(hone y hy).1, (hone y hy).2.1⟩) ?_ hset
        intro ln hln
        rw [linesOf_eq, e0] at hln; cases hln
      · rw [headers_withHeaders]
        exact wireCarries_iff.2 hc
      · rw [g1.name, hsb.name]; rfl
      · refine ⟨t', ?_, ?_, ?_, ?_⟩
        · rw [g1.params]
          exact wireBaseOf_iff.2 ((hb x (by simp) t').2 hbase)
        · rw [Wire.ForKey, g1.params]; exact hid
        · intro e he
          rw [g1.params] at he
          exact ht e he
        · rw [hsig]; exact hp _ _ ht2
      · intro i hi
        rw [g1.params] at hi
        have h1 := hS.here x hx i hi
        rw [← withHeaders_same m] at h1
        have h2 := here_same hw (wf_others hg) hf hoth hn hi h1
        have := here_after (m := m.withHeaders (Pick.others g)) hw0 hf [sh] h2
        rw [headers_withHeaders] at this
        exact this
  have hmem : ∀ kv ∈ sigLines sh, kv ∈ m.headers ++ hh.flatMap sigLines := by
    intro kv hkv
    exact List.mem_append_right _ (List.mem_flatMap.2 ⟨sh, hsh, hkv⟩)
  have hin : ∀ (f : Str) (b : Bytes), (f, b) ∈ sigLines sh → b ∈ Wire.linesOf (m.headers ++ hh.flatMap sigLines) f := by
    intro f b hb
    rw [linesOf_eq]
    unfold fieldLines
    exact List.mem_map.2 ⟨(f, b), List.mem_filter.2 ⟨hmem _ hb, by simp⟩, rfl⟩
  have m1 := hi _ (hin (c! "signature-input") (utf8 (sh.name ++ c! "=" ++ sh.params.disp)) (by simp [sigLines]))
  have m2 := hs _ (hin (c! "signature") (utf8 (sh.name ++ c! "=:" ++ Base64.encode sh.signature ++ c! ":")) (by simp [sigLines]))
  refine firstOf_none hf hk (wf_candidates hw2) ((mem_candidates hw2 _).2 ⟨_, ?_, _, ?_, rfl⟩) hfin
  · rw [headers_withHeaders]; exact m1
  · rw [headers_withHeaders]; exact m2

/-- C111: the work. It asks the library once for each pair of lines at most. -/
theorem C111_work (hw : WfHeaders m.headers) : (Pick.candidates m).length =
    (Wire.linesOf m.headers (c! "signature-input")).length * (Wire.linesOf m.headers (c! "signature")).length := by
  unfold Pick.candidates
  rw [getAll_fieldLines hw, getAll_fieldLines hw, List.length_flatMap]
  simp only [List.length_map, List.map_const', List.sum_replicate, linesOf_eq, hSignature, hSignatureInput, smul_eq_mul]

end
/-! ### Cases -/

/-- The two lines of Signature-Input and of Signature that two careful signers with keys of different kinds made. -/
def c111Sent : Headers := (Guard.send (.req exReq) (c101Signers.map (·.1)) none).1

/-- Junk around them: text that is no dictionary, and a member with the label of the first signer that the library panics on. -/
def c111Junk : Headers :=
  [(c! "signature-input", utf8 (c! "?")), (c! "signature", utf8 (c! "a=:AA==:")), (c! "signature-input", utf8 (c! "a=(\"@x\")"))] ++ c111Sent ++
    [(c! "signature-input", utf8 (c! "b=(\"date\";created)")), (c! "signature", [200, 255])]

def c111Label : Res HyperErr (Option (Msg × Str)) → Option Str
  | .ok (some x) => some x.2
  | _ => none

def c111Key384 : VerifyingKey := (PublicKey.ecdsaP384Sha384 (P := toyPrims) [1]).verifying
def c111Key256 : VerifyingKey := (PublicKey.ecdsaP256Sha256 (P := toyPrims) [1]).verifying

set_option maxRecDepth 20000 in
-- the library fails on the junk, and panics on some of it; this receiver accepts with both keys
example : (verifySignature 0 (.req { exReq with headers := c111Junk }) c111Key384 none none).isOk = false ∧
    verifySignature 0 (.req { exReq with headers := c111Sent ++ [(c! "signature-input", utf8 (c! "a=(\"@x\")"))] }) c111Key384 none none = .panic ∧
    c111Label (Pick.receive 0 (.req { exReq with headers := c111Junk }) c111Key384 (some (c! "k")) none) = some (c! "a") ∧
    c111Label (Pick.receive 0 (.req { exReq with headers := c111Junk }) c111Key256 (some (c! "k")) none) = some (c! "b") := by
  decide +kernel

theorem c111Junk_wf : WfHeaders c111Junk := by
  have hs : WfHeaders c111Sent := by
    obtain ⟨_, hs, _, h⟩ := (C101_sends (m := .req exReq) (rf := none) exReq_wf (by simp) _ c111Sent).1 (Prod.ext rfl c101_sent)
    rw [h]; exact wf_sigLines exReq_wf hs
  have w1 : WfName (c! "signature-input") := ⟨by decide, by decide, by decide⟩
  have w2 : WfName (c! "signature") := ⟨by decide, by decide, by decide⟩
  intro kv hkv
  simp only [c111Junk, List.mem_append, List.mem_cons, List.not_mem_nil, or_false] at hkv
  rcases hkv with ((rfl | rfl | rfl) | h) | (rfl | rfl)
  · exact w1
  · exact w2
  · exact w1
  · exact hs kv h
  · exact w1
  · exact w2

theorem c111_other (f : Str) (hf : Other f) : Wire.linesOf c111Junk f = Wire.linesOf c111Sent f := by
  have none1 : ∀ h : Headers, (∀ kv ∈ h, kv.1 = c! "signature-input" ∨ kv.1 = c! "signature") → fieldLines h f = [] := by
    intro h hh
    unfold fieldLines
    rw [List.map_eq_nil_iff, List.filter_eq_nil_iff]
    intro kv hkv
    simp only [decide_eq_true_eq]
    intro e
    rcases hh kv hkv with h | h
    · rw [h] at e; exact hf.2 (e.symm.trans (by decide))
    · rw [h] at e; exact hf.1 (e.symm.trans (by decide))
  simp only [linesOf_eq, c111Junk, fieldLines_append]
  rw [none1 [_, _, _] (by simp), none1 [_, _] (by simp)]
  simp

-- the theorem applies: at any time up to the expiry
example (now : UInt64) (hn : now ≤ 100) (x : Signer × VerifyingKey) (hx : x ∈ c101Signers) :
    ∃ y n, Pick.receive now ((Msg.req exReq).withHeaders c111Junk) x.2 none none = .ok (some (y, n)) := by
  have hp : KeyPair x.1.2.1 x.2 ∧ LibraryKey x.2 ∧ NotSelf x.1.1 ∧ ∀ e, x.1.1.expires = some e → now ≤ e := by
    simp only [c101Signers, List.mem_cons, List.not_mem_nil, or_false] at hx
    rcases hx with rfl | rfl
    · exact ⟨toy_secret_pair (.ecdsaP384Sha384 [1]) [], .ofPublic _, wParams_notSelf _, by intro e he; injection he with he; subst he; exact hn⟩
    · exact ⟨toy_secret_pair (.ecdsaP256Sha256 [1]) [], .ofPublic _, wParams_notSelf _, by intro e he; injection he with he; subst he; exact hn⟩
  have sub : ∀ f, ∀ b ∈ Wire.linesOf c111Sent f, b ∈ Wire.linesOf c111Junk f := by
    intro f b hb
    simp only [linesOf_eq, c111Junk, fieldLines_append, List.mem_append]
    exact Or.inl (Or.inr hb)
  exact C111_junk (m := .req exReq) (l := c101Signers.map (·.1)) (x := x.1) (h' := c111Sent) exReq_wf (by simp) (Prod.ext rfl c101_sent) (List.mem_map_of_mem hx) hp.1 hp.2.1 hp.2.2.1
    hp.2.2.2 (Or.inl rfl) c111Junk_wf c111_other (sub _) (sub _)

/-- A copy of the signature of the first signer under another label, before it. -/
def c111Copy : Headers :=
  c111Sent.filterMap (fun kv => if kv.1 = c! "signature-input" ∨ kv.1 = c! "signature" then some (kv.1, utf8 (c! "evil") ++ kv.2.drop 1) else none) ++ c111Sent

set_option maxRecDepth 20000 in
-- the label is not signed: with the copy in front it is the other one
example : c111Label (Pick.receive 0 (.req { exReq with headers := c111Copy }) c111Key384 (some (c! "k")) none) = some (c! "evil") := by
  decide +kernel

/-- The lines of the sender combined with junk into one. -/
def c111Joined : Headers :=
  exReq.headers ++ [(c! "signature-input", List.intercalate [44, 32] (utf8 (c! "?") :: (c111Sent.getAll (c! "signature-input")))),
    (c! "signature", List.intercalate [44, 32] (c111Sent.getAll (c! "signature")))]

set_option maxRecDepth 20000 in
-- what is asked of the lines is needed: once somebody combines them with junk, this receiver accepts nothing either
example : (match Pick.receive 0 (.req { exReq with headers := c111Joined }) c111Key384 (some (c! "k")) none with
    | .ok none => true
    | _ => false) = true := by decide +kernel

theorem c111Label_some {r : Res HyperErr (Option (Msg × Str))} {n : Str} (h : c111Label r = some n) : ∃ x, r = .ok (some (x, n)) := by
  unfold c111Label at h
  split at h
  · rename_i x
    injection h with h; subst h
    exact ⟨x.1, rfl⟩
  · cases h

/-- The message of C101 with junk. -/
def c111Received : Request := c101Received ⟨none, none, c! "*", none⟩ [(c! "signature-input", utf8 (c! "sig=1")), (c! "accept", utf8 (c! "*"))]

set_option maxRecDepth 20000 in
-- `C111_bound` and `C111_accepts` apply to it
example : ∃ (x : Msg) (l : List (Str × SigHeaders)) (sh : SigHeaders), Wire.Carries x.headers l ∧ (c! "sig", sh) ∈ l ∧ c101Signing.p = sh.params ∧
    (NotSelf sh.params → ∀ i ∈ sh.params.covered, ∃ v, Wire.HasValue (.req c111Received) none i v ∧ Wire.HasValue c101Signing.m none i v) ∧
    (∃ i s, GoodPair 0 (.req c111Received) none c101Key none i s (c! "sig") sh) ∧
    -- `C111_first`: the pair before it, with the junk, is not good
    ∃ i1 i s s2, Wire.linesOf c111Received.headers (c! "signature-input") = [i1, i] ∧ Wire.linesOf c111Received.headers (c! "signature") = s :: s2 ∧
      x = Pick.only (.req c111Received) i s ∧ ∀ s' n' sh, ¬ GoodPair 0 (.req c111Received) none c101Key none i1 s' n' sh := by
  have hw : WfMsg (.req c111Received) := by
    refine ⟨?_, by decide, ⟨(by intro s h; cases h), (by intro s h; cases h), by decide, (by intro s h; cases h)⟩⟩
    intro kv hkv
    simp only [c111Received, c101Received, List.cons_append, List.nil_append, List.mem_cons, List.not_mem_nil, or_false] at hkv
    have w1 : WfName (c! "signature-input") := ⟨by decide, by decide, by decide⟩
    have w2 : WfName (c! "signature") := ⟨by decide, by decide, by decide⟩
    have w3 : WfName (c! "accept") := ⟨by decide, by decide, by decide⟩
    rcases hkv with rfl | rfl | rfl | rfl
    · exact w1
    · exact w3
    · exact w1
    · exact w2
  have hr : c111Label (Pick.receive 0 (.req c111Received) c101Key none none) = some (c! "sig") := by decide +kernel
  obtain ⟨x, hx⟩ := c111Label_some hr
  obtain ⟨l, sh, h1, h2, y, h3, h4, _, h5⟩ := C111_bound hw (by intro r h; cases h) (.ofPublic _) c101_only
    (by rintro y rfl; exact c101_careful) hx
  subst h3
  obtain ⟨i, s, sh', hg, rfl⟩ := (C111_accepts (m := .req c111Received) hw.headers (by intro r h; cases h) (.ofPublic _)).2 x _ hx
  have : sh' = sh := by
    obtain ⟨l', hc, l1, l2, e, _⟩ := hg.carried
    have hll := carries_unique (wf_only (m := .req c111Received) hw.headers i s) (wireCarries_iff.1 hc) (wireCarries_iff.1 h1)
    subst hll
    have := List.inj_on_of_nodup_map (carries_nodup (wireCarries_iff.1 h1)) h2 (show (c! "sig", sh') ∈ l' by rw [e]; simp) rfl
    injection this with _ this
    exact this.symm
  subst this
  refine ⟨_, l, sh', h1, h2, h4, h5, ⟨i, s, hg⟩, ?_⟩
  obtain ⟨i1, i', i2, s1, s', s2, ei, es, ex, ⟨sh2, hg2⟩, f1, _⟩ := C111_first (m := .req c111Received) hw.headers (by intro r h; cases h) (.ofPublic _) hx
  have e1 : Wire.linesOf c111Received.headers (c! "signature-input") = [utf8 (c! "sig=1"), (c111Received.headers.getAll hSignatureInput)[1]!] := by
    decide +kernel
  have e2 : Wire.linesOf c111Received.headers (c! "signature") = [(c111Received.headers.getAll hSignature)[0]!] := by decide +kernel
  have no : c111Label (Pick.firstOf 0 c101Key none none [Pick.only (.req c111Received) (utf8 (c! "sig=1")) (c111Received.headers.getAll hSignature)[0]!]) =
    none := by decide +kernel
  change Wire.linesOf c111Received.headers _ = _ at ei es
  rw [e1] at ei
  rw [e2] at es
  have hs : s' = (c111Received.headers.getAll hSignature)[0]! := by
    cases s1 with
    | nil => injection es with es _; exact es.symm
    | cons a t => injection es with _ es; cases t <;> cases es
  cases i1 with
  | nil =>
    injection ei with ei _
    have := (good_iff (m := .req c111Received) (k := c101Key) hw.headers (by intro r h; cases h) (.ofPublic _) hg2.input hg2.signature _).2 ⟨sh2, hg2⟩
    rw [← ei, hs] at this
    unfold Pick.firstOf at no
    rw [this] at no
    cases no
  | cons a t =>
    injection ei with e3 ei
    cases t with
    | nil =>
      injection ei with e4 _
      exact ⟨a, i', s', [], by rw [e1, e3, e4], by rw [e2, hs], ex, fun s'' n' sh => f1 a (by simp) s'' n' sh⟩
    | cons b t => injection ei with _ ei; cases t <;> cases ei

end Verif
