import Verif.Spec.Relabel
import Verif.Props.C90
import Verif.Props.C114
/-!
C115: labels of signatures are not protected. Somebody on the way may leave signatures out, repeat them and give them other labels; what
verification then says is determined by which signatures are left.
-/
namespace Verif
open Sfv Spec Ex

/-! ### It can be done to every message -/

theorem fieldLines_const {α : Type} (n f : Str) (g : α → Bytes) (x : List α) :
    fieldLines (x.map fun y => (n, g y)) f = if lower n = lower f then x.map g else [] := by
  unfold fieldLines
  by_cases h : lower n = lower f
  · rw [if_pos h, List.filter_eq_self.2 (by intro kv hkv; obtain ⟨y, _, rfl⟩ := List.mem_map.1 hkv; simpa using h), List.map_map]; rfl
  · rw [if_neg h, List.map_eq_nil_iff, List.filter_eq_nil_iff]
    intro kv hkv; obtain ⟨y, _, rfl⟩ := List.mem_map.1 hkv; simpa using h

/-- The lines of other fields. -/
def otherLines (h : Headers) : Headers := h.filter fun kv => decide (lower kv.1 ≠ c! "signature" ∧ lower kv.1 ≠ c! "signature-input")

theorem otherLines_sig (h : Headers) : fieldLines (otherLines h) (c! "signature") = [] ∧ fieldLines (otherLines h) (c! "signature-input") = [] := by
  unfold otherLines fieldLines
  refine ⟨?_, ?_⟩
  all_goals
    rw [List.map_eq_nil_iff, List.filter_eq_nil_iff]
    intro kv hkv
    have := (List.mem_filter.1 hkv).2
    simp only [ne_eq, decide_eq_true_eq] at this ⊢
    intro e
  · exact this.1 (e.trans (by decide))
  · exact this.2 (e.trans (by decide))

theorem otherLines_other (h : Headers) {f : Str} (h1 : lower f ≠ c! "signature") (h2 : lower f ≠ c! "signature-input") :
    fieldLines (otherLines h) f = fieldLines h f := by
  unfold otherLines fieldLines
  rw [List.filter_filter]
  congr 1
  apply List.filter_congr
  intro kv _
  by_cases e : lower kv.1 = lower f
  · simp [e, h1, h2]
  · simp [e]

/-- C115: from the signatures of a message somebody on the way can make every choice, with all labels. -/
theorem C115_possible {m : Msg} {l l' : List (Str × SigHeaders)} (hw : WfHeaders m.headers) (hl : Wire.Carries m.headers l) (hne : l' ≠ [])
    (ht : Wire.Taken l l') : ∃ h', WfHeaders h' ∧ Wire.SameElse m (m.withHeaders h') ∧ Wire.Carries h' l' := by
  obtain ⟨ts, us, a, b, h1, h2, h3, h4, h5, h6, hA⟩ := wireCarries_iff.1 hl
  obtain ⟨x, e1, e2⟩ := pairwise_list (ls := l') (P := fun (kv : Str × SigHeaders) (e : Entry) =>
      LegalEntry e ∧ (∃ il, e = .inner il) ∧ SigParams.ofEntry e = .ok kv.2.params) (by
    intro kv hkv
    obtain ⟨o, ho, hs⟩ := ht.taken kv hkv
    obtain ⟨_, _, e, he, hp⟩ := hA.pairing o ho
    exact ⟨e, ((parseDict_legal h6).2 _ he).2, hA.inner _ he, by rw [hs.2]; exact hp⟩)
  subst e1
  have hx : x ≠ [] := by rintro rfl; exact hne rfl
  have lin : ∀ y ∈ x, LegalKey y.1.1 := fun y hy => ht.legal y.1 (List.mem_map_of_mem hy)
  let fi : (Str × SigHeaders) × Entry → Str × Entry := fun y => (y.1.1, y.2)
  let fs : (Str × SigHeaders) × Entry → Str × Entry := fun y => (y.1.1, .item ⟨.bytes y.1.2.signature, []⟩)
  have legi : ∀ kv ∈ x.map fi, LegalKey kv.1 ∧ LegalEntry kv.2 := by
    intro kv hkv; obtain ⟨y, hy, rfl⟩ := List.mem_map.1 hkv; exact ⟨lin y hy, (e2 y hy).1⟩
  have legs : ∀ kv ∈ x.map fs, LegalKey kv.1 ∧ LegalEntry kv.2 := by
    intro kv hkv; obtain ⟨y, hy, rfl⟩ := List.mem_map.1 hkv; exact ⟨lin y hy, ⟨trivial, by simp [LegalParams]⟩⟩
  have nod : ∀ f : (Str × SigHeaders) × Entry → Str × Entry, (∀ y, (f y).1 = y.1.1) → ((x.map f).map Prod.fst).Nodup := by
    intro f hf
    have := ht.distinct
    rw [List.map_map] at this ⊢
    have e : (Prod.fst ∘ f) = (Prod.fst ∘ Prod.fst) := by funext y; exact hf y
    rw [e]; exact this
  let li : Headers := x.map fun y => (c! "signature-input", utf8 (serMember (fi y)))
  let ls : Headers := x.map fun y => (c! "signature", utf8 (serMember (fs y)))
  have fl1 : fieldLines (otherLines m.headers ++ li ++ ls) (c! "signature-input") = x.map fun y => utf8 (serMember (fi y)) := by
    rw [fieldLines_append, fieldLines_append, (otherLines_sig _).2, fieldLines_const, fieldLines_const, if_pos rfl, if_neg (by decide)]; simp
  have fl2 : fieldLines (otherLines m.headers ++ li ++ ls) (c! "signature") = x.map fun y => utf8 (serMember (fs y)) := by
    rw [fieldLines_append, fieldLines_append, (otherLines_sig _).1, fieldLines_const, fieldLines_const, if_pos rfl, if_neg (by decide)]; simp
  have texts : ∀ f : (Str × SigHeaders) × Entry → Str × Entry, (∀ kv ∈ x.map f, LegalKey kv.1 ∧ LegalEntry kv.2) →
      LineTexts (x.map fun y => utf8 (serMember (f y))) ((x.map f).map serMember) := by
    intro f hf
    unfold LineTexts
    rw [List.map_map, List.forall₂_map_left_iff, List.forall₂_map_right_iff, List.forall₂_same]
    intro y hy
    have := hf (f y) (List.mem_map_of_mem hy)
    exact hvToStr_utf8 (serMember_printable this.1 this.2)
  refine ⟨otherLines m.headers ++ li ++ ls, ?_, ⟨?_, ?_⟩, ?_⟩
  · intro kv hkv
    simp only [List.mem_append] at hkv
    rcases hkv with (h | h) | h
    · exact hw kv (List.mem_filter.1 h).1
    · obtain ⟨y, _, rfl⟩ := List.mem_map.1 h; exact (⟨by decide, by decide, by decide⟩ : WfName (c! "signature-input"))
    · obtain ⟨y, _, rfl⟩ := List.mem_map.1 h; exact (⟨by decide, by decide, by decide⟩ : WfName (c! "signature"))
  · cases m <;> simp [SameButHeaders, Msg.withHeaders]
  · intro n hn1 hn2
    have d1 : ¬ lower (c! "signature-input") = lower n := fun e => hn2 (e.symm.trans (by decide))
    have d2 : ¬ lower (c! "signature") = lower n := fun e => hn1 (e.symm.trans (by decide))
    rw [linesOf_eq, linesOf_eq, headers_withHeaders, fieldLines_append, fieldLines_append, otherLines_other _ hn1 hn2, fieldLines_const, fieldLines_const,
      if_neg d1, if_neg d2]
    simp
  · refine wireCarries_iff.2 ⟨(x.map fi).map serMember, (x.map fs).map serMember, x.map fs, x.map fi, ?_, ?_, by simp [hx], by simp [hx], ?_, ?_, ?_⟩
    · rw [fl1]; exact texts fi legi
    · rw [fl2]; exact texts fs legs
    · exact (parseDict_members legs).trans (by rw [imOfList_of_nodup (nod fs (fun _ => rfl))])
    · exact (parseDict_members legi).trans (by rw [imOfList_of_nodup (nod fi (fun _ => rfl))])
    · refine ⟨?_, ?_, ?_, ?_, ?_⟩
      · intro k; rw [List.map_map, List.map_map]; exact Iff.rfl
      · intro kv hkv; obtain ⟨y, _, rfl⟩ := List.mem_map.1 hkv; exact ⟨_, _, rfl⟩
      · intro kv hkv; obtain ⟨y, hy, rfl⟩ := List.mem_map.1 hkv; exact (e2 y hy).2.1
      · rw [List.map_map, List.map_map]; rfl
      · intro kh hk
        obtain ⟨y, hy, rfl⟩ := List.mem_map.1 hk
        exact ⟨ht.named y.1 hk, ⟨[], List.mem_map_of_mem (f := fs) hy⟩, y.2, List.mem_map_of_mem (f := fi) hy, (e2 y hy).2.2⟩

/-! ### What verification says then -/

theorem sameElse_for {m m' : Msg} {rf : Option Request} (h : Wire.SameElse m m') {p : SigParams} (hp : NotSelf p) :
    ∀ i ∈ p.covered, Wire.SameFor m m' rf rf i := by
  intro i hi
  by_cases hr : CParam.req ∈ i.params
  · have hs := h.rest
    cases m with
    | req r =>
      cases m' with
      | req r' => exact .never hr (by intro s r' h; cases h) (by intro s r' h; cases h)
      | res s => exact absurd hs (by simp [SameButHeaders])
    | res s =>
      cases m' with
      | req r' => exact absurd hs (by simp [SameButHeaders])
      | res s' =>
        cases rf with
        | none => exact .never hr (by simp) (by simp)
        | some r =>
          refine .there hr rfl rfl rfl rfl ?_
          unfold Wire.SamePart
          cases i.name with
          | field f => exact Or.inl rfl
          | derived d => cases d <;> first | rfl | exact ⟨rfl, rfl⟩
  · refine .here hr ?_
    have hn := hp i hi hr
    unfold Wire.SamePart
    cases hi : i.name with
    | field f => exact Or.inl (h.lines f (hn.2 f hi).1 (hn.2 f hi).2)
    | derived d =>
      have hs := h.rest
      have : d ≠ .signatureParams := fun e => hn.1 (by rw [hi, e])
      cases m <;> cases m' <;> simp only [SameButHeaders] at hs <;> cases d <;>
        first | exact absurd rfl this | exact hs.1.symm | exact ⟨hs.1.symm, hs.2.1.symm⟩

section
variable {now : UInt64} {m m' : Msg} {rf : Option Request} {l l' : List (Str × SigHeaders)} {k : VerifyingKey} {id : Option Str}

theorem same_accepts {a b : SigHeaders} (hs : Wire.SameSignature a b) (he : Wire.SameElse m m') (hn : NotSelf b.params) :
    (Accepts now m' rf k id a ↔ Accepts now m rf k id b) ∧ (Crashes now m' rf k id a ↔ Crashes now m rf k id b) ∧
    (Candidate m' rf id a ↔ Candidate m rf id b) := by
  have hb : ∀ t, BaseOf m rf b.params t ↔ BaseOf m' rf b.params t := by
    intro t; rw [← wireBaseOf_iff, ← wireBaseOf_iff]; exact C80_base (sameElse_for he hn) t
  unfold Accepts Crashes Candidate ForKey InTime
  simp only [hs.1, hs.2, hb]
  simp

theorem verify_carried (hw : WfHeaders m.headers) (hl : Wire.Carries m.headers l) :
    verifySignature now m k id rf = verifyOne now (l.filterMap (entryOf m rf)) k id := by
  rw [verifySignature_eq, (extractSignatureHeaders_ok hw l).2 (wireCarries_iff.1 hl)]; rfl

/-- C115: nobody on the way makes a message acceptable. If a choice from the signatures is accepted then one of them was before, unless the key
panics on the message as it was. -/
theorem C115_not_more (hw : WfHeaders m.headers) (hw' : WfHeaders m'.headers) (hf : ∀ r, rf = some r → WfHeaders r.headers)
    (hl : Wire.Carries m.headers l) (hl' : Wire.Carries m'.headers l') (ht : Wire.Taken l l') (he : Wire.SameElse m m')
    (hn : ∀ kv ∈ l, NotSelf kv.2.params) {n : Str} (h : verifySignature now m' k id rf = .ok n) :
    (∃ n', verifySignature now m k id rf = .ok n') ∨ verifySignature now m k id rf = .panic := by
  obtain ⟨a1, a2, a3, a4, a5⟩ := verifyOne_cases (now := now) (k := k) (id := id) hw hf l
  obtain ⟨b1, b2, b3, b4, b5⟩ := verifyOne_cases (now := now) (k := k) (id := id) hw' hf l'
  rw [verify_carried hw hl]
  rw [verify_carried hw' hl'] at h
  by_cases hc : ∃ kv ∈ l, Crashes now m rf k id kv.2
  · exact Or.inr (a1.2 hc)
  · obtain ⟨h1, l1, sh, l2, e, h2, h3⟩ := (b2 n).1 h
    obtain ⟨o, ho, hs⟩ := ht.taken (n, sh) (by rw [e]; simp)
    obtain ⟨n', hn'⟩ := first_of_mem ⟨o, ho, (same_accepts hs he (hn o ho)).1.1 h2⟩
    exact Or.inl ⟨n', (a2 n').2 ⟨fun kv hkv hx => hc ⟨kv, hkv, hx⟩, hn'⟩⟩

/-- C115: if no signature is left out, the outcome is the same up to the label that is found. -/
theorem C115_all_kept (hw : WfHeaders m.headers) (hw' : WfHeaders m'.headers) (hf : ∀ r, rf = some r → WfHeaders r.headers)
    (hl : Wire.Carries m.headers l) (hl' : Wire.Carries m'.headers l') (ht : Wire.Taken l l') (he : Wire.SameElse m m')
    (hn : ∀ kv ∈ l, NotSelf kv.2.params) (hall : ∀ o ∈ l, ∃ kv ∈ l', Wire.SameSignature kv.2 o.2) :
    ((∃ n, verifySignature now m k id rf = .ok n) ↔ ∃ n, verifySignature now m' k id rf = .ok n) ∧
    (∀ e, verifySignature now m k id rf = .err e ↔ verifySignature now m' k id rf = .err e) ∧
    (verifySignature now m k id rf = .panic ↔ verifySignature now m' k id rf = .panic) := by
  obtain ⟨a1, a2, a3, a4, a5⟩ := verifyOne_cases (now := now) (k := k) (id := id) hw hf l
  obtain ⟨b1, b2, b3, b4, b5⟩ := verifyOne_cases (now := now) (k := k) (id := id) hw' hf l'
  rw [← verify_carried hw hl] at a1 a2 a3 a4 a5
  rw [← verify_carried hw' hl'] at b1 b2 b3 b4 b5
  have hsome : ∀ {P Q : SigHeaders → Prop}, (∀ a b, Wire.SameSignature a b → NotSelf b.params → (P a ↔ Q b)) →
      ((∃ kv ∈ l', P kv.2) ↔ ∃ kv ∈ l, Q kv.2) := by
    intro P Q hPQ
    constructor
    · rintro ⟨kv, hkv, hp⟩
      obtain ⟨o, ho, hs⟩ := ht.taken kv hkv
      exact ⟨o, ho, (hPQ _ _ hs (hn o ho)).1 hp⟩
    · rintro ⟨o, ho, hq⟩
      obtain ⟨kv, hkv, hs⟩ := hall o ho
      exact ⟨kv, hkv, (hPQ _ _ hs (hn o ho)).2 hq⟩
  have hA := hsome (fun a b hs hb => (same_accepts (now := now) (rf := rf) (k := k) (id := id) hs he hb).1)
  have hC := hsome (fun a b hs hb => (same_accepts (now := now) (rf := rf) (k := k) (id := id) hs he hb).2.1)
  have hD := hsome (fun a b hs hb => (same_accepts (now := now) (rf := rf) (k := k) (id := id) hs he hb).2.2)
  have none_iff : ∀ {P Q : Str × SigHeaders → Prop}, ((∃ kv ∈ l', P kv) ↔ ∃ kv ∈ l, Q kv) → ((∀ kv ∈ l, ¬ Q kv) ↔ ∀ kv ∈ l', ¬ P kv) := by
    intro P Q h
    constructor
    · intro h' kv hkv hp; obtain ⟨o, ho, hq⟩ := h.1 ⟨kv, hkv, hp⟩; exact h' o ho hq
    · intro h' o ho hq; obtain ⟨kv, hkv, hp⟩ := h.2 ⟨o, ho, hq⟩; exact h' kv hkv hp
  have p : verifySignature now m k id rf = .panic ↔ verifySignature now m' k id rf = .panic := by rw [a1, b1, hC]
  have q : (∃ n, verifySignature now m k id rf = .ok n) ↔ ∃ n, verifySignature now m' k id rf = .ok n := by
    simp only [a2, b2, exists_and_left, none_iff hC, firstWith_exists, hA]
  refine ⟨q, ?_, p⟩
  have r3 : verifySignature now m k id rf = .err .noSignatureHeaders ↔ verifySignature now m' k id rf = .err .noSignatureHeaders := by
    rw [a3, b3, none_iff hD]
  have r4 : verifySignature now m k id rf = .err .invalidSignature ↔ verifySignature now m' k id rf = .err .invalidSignature := by
    rw [a4, b4, none_iff hC, none_iff hA, hD]
  intro e
  constructor
  · intro h; rcases a5 e h with rfl | rfl
    · exact r3.1 h
    · exact r4.1 h
  · intro h; rcases b5 e h with rfl | rfl
    · exact r3.2 h
    · exact r4.2 h

/-- The signatures with other labels. -/
def relabel (f : Str → Str) (l : List (Str × SigHeaders)) : List (Str × SigHeaders) := l.map fun kv => (f kv.1, { kv.2 with name := f kv.1 })

/-- C115: if the labels only are changed, verification finds the same signature, under its new label. -/
theorem C115_renamed (hw : WfHeaders m.headers) (hw' : WfHeaders m'.headers) (hf : ∀ r, rf = some r → WfHeaders r.headers) (f : Str → Str)
    (hl : Wire.Carries m.headers l) (hl' : Wire.Carries m'.headers (relabel f l)) (he : Wire.SameElse m m') (hn : ∀ kv ∈ l, NotSelf kv.2.params) :
    verifySignature now m' k id rf = verifySignature now m k id rf >>= fun n => .ok (f n) := by
  obtain ⟨a1, a2, a3, a4, a5⟩ := verifyOne_cases (now := now) (k := k) (id := id) hw hf l
  obtain ⟨b1, b2, b3, b4, b5⟩ := verifyOne_cases (now := now) (k := k) (id := id) hw' hf (relabel f l)
  rw [← verify_carried hw hl] at a1 a2 a3 a4 a5
  rw [← verify_carried hw' hl'] at b1 b2 b3 b4 b5
  have hs : ∀ kv ∈ l, _ := fun kv hkv =>
    same_accepts (now := now) (rf := rf) (k := k) (id := id) (a := { kv.2 with name := f kv.1 }) (b := kv.2) ⟨rfl, rfl⟩ he (hn kv hkv)
  have mem : ∀ {P : Str × SigHeaders → Prop}, (∀ kv ∈ relabel f l, P kv) ↔ ∀ kv ∈ l, P (f kv.1, { kv.2 with name := f kv.1 }) := by
    intro P; unfold relabel; exact List.forall_mem_map
  have mem' : ∀ {P : Str × SigHeaders → Prop}, (∃ kv ∈ relabel f l, P kv) ↔ ∃ kv ∈ l, P (f kv.1, { kv.2 with name := f kv.1 }) := by
    intro P; unfold relabel; simp
  cases h : verifySignature now m k id rf with
  | panic =>
    obtain ⟨kv, hkv, hx⟩ := a1.1 h
    exact b1.2 (mem'.2 ⟨kv, hkv, (hs kv hkv).2.1.2 hx⟩)
  | ok n =>
    obtain ⟨h1, l1, sh, l2, rfl, h2, h3⟩ := (a2 n).1 h
    refine (b2 (f n)).2 ⟨mem.2 (fun kv hkv hx => h1 kv hkv ((hs kv hkv).2.1.1 hx)), relabel f l1, { sh with name := f n }, relabel f l2, by simp [relabel],
      (hs (n, sh) (by simp)).1.2 h2, ?_⟩
    intro kv hkv
    obtain ⟨o, ho, rfl⟩ := List.mem_map.1 hkv
    exact fun hx => h3 o ho ((hs o (by simp [ho])).1.1 hx)
  | err e =>
    rcases a5 e h with rfl | rfl
    · exact b3.2 (mem.2 (fun kv hkv hx => a3.1 h kv hkv ((hs kv hkv).2.2.1 hx)))
    · obtain ⟨h1, ⟨kv, hkv, h2⟩, h3⟩ := a4.1 h
      exact b4.2 ⟨mem.2 (fun kv hkv hx => h1 kv hkv ((hs kv hkv).2.1.1 hx)), mem'.2 ⟨kv, hkv, (hs kv hkv).2.2.2 h2⟩,
        mem.2 (fun kv hkv hx => h3 kv hkv ((hs kv hkv).1.1 hx))⟩

/-- C115: the label that verification reports is what somebody on the way likes: an accepted message can be given any list of labels; all of
them are then labels of the accepted signature, and the first is reported. -/
theorem C115_any_labels (hw : WfHeaders m.headers) (hf : ∀ r, rf = some r → WfHeaders r.headers) (hl : Wire.Carries m.headers l)
    (hn : ∀ kv ∈ l, NotSelf kv.2.params) {n : Str} (h : verifySignature now m k id rf = .ok n) {x : Str} {xs : List Str}
    (hx : ∀ y ∈ x :: xs, LegalKey y) (hd : (x :: xs).Nodup) :
    ∃ h' p, WfHeaders h' ∧ Wire.SameElse m (m.withHeaders h') ∧ verifySignature now (m.withHeaders h') k id rf = .ok x ∧
      getSignatureParams (m.withHeaders h') = .ok ((x :: xs).map fun y => (y, p)) := by
  obtain ⟨l0, c1, h1, l1, sh, l2, e0, h2, h3⟩ := (C10_ok_iff hw hf n).1 h
  cases carries_unique hw c1 (wireCarries_iff.1 hl)
  have hmem : (n, sh) ∈ l := by rw [e0]; simp
  let g : Str → Str × SigHeaders := fun y => (y, { sh with name := y })
  have hfst : ((x :: xs).map g).map Prod.fst = x :: xs := by rw [List.map_map]; exact List.map_id _
  have ht : Wire.Taken l ((x :: xs).map g) := by
    refine ⟨by rw [hfst]; exact hd, ?_, ?_, ?_⟩
    · intro kv hkv; obtain ⟨y, hy, rfl⟩ := List.mem_map.1 hkv; exact hx y hy
    · intro kv hkv; obtain ⟨y, hy, rfl⟩ := List.mem_map.1 hkv; rfl
    · intro kv hkv; obtain ⟨y, hy, rfl⟩ := List.mem_map.1 hkv; exact ⟨(n, sh), hmem, rfl, rfl⟩
  obtain ⟨h', w', s', c'⟩ := C115_possible hw hl (by simp) ht
  rw [← headers_withHeaders m h'] at c'
  have w'' : WfHeaders (m.withHeaders h').headers := by rw [headers_withHeaders]; exact w'
  have hs : ∀ y, _ := fun y =>
    same_accepts (now := now) (rf := rf) (k := k) (id := id) (a := { sh with name := y }) (b := sh) ⟨rfl, rfl⟩ s' (hn _ hmem)
  refine ⟨h', sh.params, w', s', (C10_ok_iff w'' hf x).2 ⟨_, wireCarries_iff.1 c', ?_, [], { sh with name := x }, xs.map g, rfl, (hs x).1.2 h2, by simp⟩, ?_⟩
  · intro kv hkv
    obtain ⟨y, hy, rfl⟩ := List.mem_map.1 hkv
    exact fun hc => h1 (n, sh) hmem ((hs y).2.1.1 hc)
  · refine (C49_params w'' _).2 ⟨_, wireCarries_iff.1 c', ?_⟩
    rw [List.map_map]; rfl

/-- C115: a signature that covers the signature or the parameters of a label, however, fixes what is under that label: the base is another
when there is nothing under the label any more, or another signature, or other parameters. -/
theorem C115_covered (hm : WfMsg m) (hm' : WfMsg m') (hf : ∀ r, rf = some r → WfRequest r) (hl : HasSignatures m.headers l)
    (hl' : HasSignatures m'.headers l') {p : SigParams} (hp : SafeParams p) {a : Str} {sh : SigHeaders} (ha : (a, sh) ∈ l)
    (hc : (signatureOf a ∈ p.covered ∧ ∀ x, (a, x) ∈ l' → x.signature ≠ sh.signature) ∨
      (inputOf a ∈ p.covered ∧ ∀ x, (a, x) ∈ l' → x.params ≠ sh.params)) {t t' : Str}
    (ht : BaseOf m rf p t) (ht' : BaseOf m' rf p t') : t ≠ t' := by
  have hf' : ∀ r, rf = some r → WfHeaders r.headers := fun r hr => (hf r hr).headers
  rintro rfl
  obtain ⟨b, b1, b2⟩ := (buildBase_spec (wf_headers hm) hf' t).2 ht
  obtain ⟨b', b1', b2'⟩ := (buildBase_spec (wf_headers hm') hf' t).2 ht'
  have e : b.bytes = b'.bytes := by unfold SigBase.bytes; rw [b2, b2']
  have hv := (C08_unambiguous_safe hm hm' hf hf hp hp b1 b1' e).2
  have hval : ∀ i ∈ p.covered, ∃ v, HasValue m rf i v := by
    obtain ⟨vs, k1, _⟩ := ht
    intro i hi
    obtain ⟨v, _, hv⟩ := forall₂_mem_left k1 i hi
    exact ⟨v, hv⟩
  rcases hc with ⟨hc, hx⟩ | ⟨hc, hx⟩
  · obtain ⟨v, hv1⟩ := hval _ hc
    obtain ⟨w, hw1, hw2⟩ := (C79_binds_signature hl hl' hv1 ((hv _ hc v).1 hv1) sh.signature).1 ⟨sh, ha, rfl⟩
    exact hx w hw1 hw2
  · obtain ⟨v, hv1⟩ := hval _ hc
    obtain ⟨w, hw1, hw2⟩ := (C79_binds_params hl hl' hv1 ((hv _ hc v).1 hv1) sh.params).1 ⟨sh, ha, rfl⟩
    exact hx w hw1 hw2
end

/-! ### Examples -/

theorem vSigs_notSelf : ∀ kv ∈ vSigs, NotSelf kv.2.params := by
  intro kv hkv i hi _
  simp only [vSigs, List.mem_cons, List.not_mem_nil, or_false] at hkv
  rcases hkv with rfl | rfl | rfl <;> simp only [List.mem_cons, List.not_mem_nil, or_false] at hi
  · rcases hi with rfl | rfl
    · exact ⟨by simp, by intro f h; injection h with h; subst h; decide⟩
    · exact ⟨by simp, by intro f h; cases h⟩
  · subst hi; exact ⟨by simp, by intro f h; cases h⟩
  · subst hi; exact ⟨by simp, by intro f h; injection h with h; subst h; decide⟩

/-- Three labels for one signature; it was `b` before. -/
example : ∃ h' p, Wire.SameElse (.req vReq) (.req { vReq with headers := h' }) ∧
    verifySignature 50 (.req vReq) vKey none none = .ok (c! "b") ∧
    verifySignature 50 (.req { vReq with headers := h' }) vKey none none = .ok (c! "trusted") ∧
    getSignatureParams (.req { vReq with headers := h' }) = .ok [(c! "trusted", p), (c! "x", p), (c! "*y", p)] := by
  have h : verifySignature 50 (.req vReq) vKey none none = .ok (c! "b") := by decide +kernel
  obtain ⟨h', p, _, h2, h3, h4⟩ := C115_any_labels (x := c! "trusted") (xs := [c! "x", c! "*y"]) (m := .req vReq) (rf := none) vReq_wf (by simp)
    (wireCarries_iff.2 vReq_carries) vSigs_notSelf h (by decide) (by decide)
  exact ⟨h', p, h2, h, h3, h4⟩

/-- Labels exchanged. -/
def c115Swap (s : Str) : Str := if s = c! "b" then c! "c" else if s = c! "c" then c! "b" else s

theorem c115_taken : Wire.Taken vSigs (relabel c115Swap vSigs) := by
  refine ⟨by decide, by decide, by decide, ?_⟩
  intro kv hkv
  obtain ⟨o, ho, rfl⟩ := List.mem_map.1 hkv
  exact ⟨o, ho, rfl, rfl⟩

example : ∃ h', WfHeaders h' ∧ Wire.SameElse (.req vReq) (.req { vReq with headers := h' }) ∧
    verifySignature 50 (.req { vReq with headers := h' }) vKey (some (c! "k2")) none = .ok (c! "c") ∧
    verifySignature 50 (.req { vReq with headers := h' }) vKey (some (c! "k1")) none = .ok (c! "b") ∧
    verifySignature 50 (.req { vReq with headers := h' }) vKey (some (c! "k3")) none = .err .noSignatureHeaders := by
  obtain ⟨h', h1, h2, h3⟩ := C115_possible (m := .req vReq) vReq_wf (wireCarries_iff.2 vReq_carries) (by decide) c115_taken
  have h (id : Option Str) : verifySignature 50 (.req { vReq with headers := h' }) vKey id none =
      verifySignature 50 (.req vReq) vKey id none >>= fun n => .ok (c115Swap n) :=
    C115_renamed (m := .req vReq) (m' := .req { vReq with headers := h' }) (rf := none) vReq_wf h1 (by simp) c115Swap
      (wireCarries_iff.2 vReq_carries) h3 h2 vSigs_notSelf
  refine ⟨h', h1, h2, ?_, ?_, ?_⟩
  · rw [h]; decide +kernel
  · rw [h]; decide +kernel
  · rw [h]; decide +kernel

/-- Only the first signature is left: nothing new is accepted. -/
example : ∃ h', WfHeaders h' ∧ Wire.SameElse (.req vReq) (.req { vReq with headers := h' }) ∧
    ∀ id n, verifySignature 50 (.req { vReq with headers := h' }) vKey id none = .ok n →
      (∃ n', verifySignature 50 (.req vReq) vKey id none = .ok n') ∨ verifySignature 50 (.req vReq) vKey id none = .panic := by
  have ht : Wire.Taken vSigs (vSigs.take 1) := ⟨by decide, by decide, by decide, fun kv hkv => ⟨kv, List.take_subset _ _ hkv, rfl, rfl⟩⟩
  obtain ⟨h', h1, h2, h3⟩ := C115_possible (m := .req vReq) vReq_wf (wireCarries_iff.2 vReq_carries) (by decide) ht
  exact ⟨h', h1, h2, fun id n h => C115_not_more (m := .req vReq) (m' := .req { vReq with headers := h' }) (rf := none) vReq_wf h1 (by simp)
    (wireCarries_iff.2 vReq_carries) h3 ht h2 vSigs_notSelf h⟩

/-- `z` in place of `a` as first letter of the lines of the two fields. -/
def c115Rename (kv : Str × Bytes) : Str × Bytes :=
  if (kv.1 = c! "signature" ∨ kv.1 = c! "signature-input") ∧ kv.2.head? = some 97 then (kv.1, 122 :: kv.2.tail) else kv

theorem c115Rename_else (m : Msg) : Wire.SameElse m (m.withHeaders (m.headers.map c115Rename)) := by
  refine ⟨by cases m <;> simp [SameButHeaders, Msg.withHeaders], ?_⟩
  intro n h1 h2
  rw [linesOf_eq, linesOf_eq, headers_withHeaders]
  generalize m.headers = h
  induction h with
  | nil => rfl
  | cons kv t ih =>
    rw [List.map_cons, ← List.singleton_append, fieldLines_append, ← List.singleton_append (l := t.map c115Rename), fieldLines_append, ih]
    congr 1
    unfold c115Rename
    split
    · rename_i hc
      have : ¬ lower kv.1 = lower n := by
        rcases hc.1 with h | h
        · rw [h]; exact fun e => h1 (e.symm.trans (by decide))
        · rw [h]; exact fun e => h2 (e.symm.trans (by decide))
      simp [fieldLines, this]
    · rfl

set_option maxRecDepth 20000 in
/-- C115: a signature over a signature is worth nothing any more when the label of the inner one is changed. -/
theorem C115_chain : ∃ (r : Request) (h h' : Headers) (k : VerifyingKey), WfRequest r ∧ signEach (.req r) none c79Signers = (h, .ok ()) ∧
    verifySignature 100 (.req { r with headers := h }) k (some (c! "k2")) none = .ok (c! "b") ∧
    Wire.SameElse (.req { r with headers := h }) (.req { r with headers := h' }) ∧
    verifySignature 100 (.req { r with headers := h' }) k (some (c! "k2")) none = .err .invalidSignature := by
  exact ⟨exReq, (signEach (.req exReq) none c79Signers).1, (signEach (.req exReq) none c79Signers).1.map c115Rename, toyVerify 9, exReq_wfReq,
    Prod.ext rfl c79_ok, by decide +kernel, c115Rename_else (.req { exReq with headers := (signEach (.req exReq) none c79Signers).1 }), by decide +kernel⟩

end Verif
