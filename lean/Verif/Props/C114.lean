import Verif.Props.C79
import Verif.Props.C75
import Verif.Props.C72
import Verif.Props.C89
/-!
C114: signing with a list of keys at once (`set_message_signatures`) and with one key after the other (`set_message_signature`).
-/
namespace Verif
open Spec Ex

section
variable {m : Msg} {rf : Option Request}

/-- The base and the signature of one signer. -/
def contribution (m : Msg) (rf : Option Request) (x : Signer) : Res HyperErr SigHeaders := do
  let b ← buildBase m x.1 rf
  (b.headers x.2.1 x.2.2).mapErr .httpSig

theorem alone_eq (x : Signer) : setSignature m x.1 x.2.1 x.2.2 rf =
    match contribution m rf x with
    | .ok sh => if (hvOfStr sh.inputValue).isSome then (m.headers ++ sigLines sh, .ok ()) else (m.headers, .err .invalidHeaderValue)
    | .err e => (m.headers, .err e)
    | .panic => (m.headers, .panic) := by
  unfold setSignature setSignatures contribution signBases
  cases hb : buildBase m x.1 rf with
  | err e => simp [Res.collect, hb]
  | panic => simp [Res.collect, hb]
  | ok b =>
    cases hh : b.headers x.2.1 x.2.2 with
    | err e => simp [Res.collect, hb, signAll, gather, hh]
    | panic => simp [Res.collect, hb, signAll, gather, hh]
    | ok sh =>
      simp only [Res.collect, hb, signAll, gather, hh, Res.bind_ok, List.map_cons, List.map_nil, Res.mapErr_ok]
      unfold appendAll
      rw [appendOne_eq]
      by_cases hi : (hvOfStr sh.inputValue).isSome
      · rw [if_pos hi]; simp [appendAll]
      · rw [if_neg hi]

theorem contribution_ok (hw : WfHeaders m.headers) (hf : ∀ r, rf = some r → WfHeaders r.headers) (x : Signer) (sh : SigHeaders) :
    contribution m rf x = .ok sh ↔ SignedBy m rf x sh := by
  have h := sign_stage hw hf [x] [sh]
  have e : List.Forall₂ (SignedBy m rf) [x] [sh] ↔ SignedBy m rf x sh := by simp
  rw [← e, ← h]
  unfold contribution signBases
  cases hb : buildBase m x.1 rf with
  | err e => simp [Res.collect, hb]
  | panic => simp [Res.collect, hb]
  | ok b =>
    cases hh : b.headers x.2.1 x.2.2 with
    | err e => simp [Res.collect, hb, signAll, gather, hh]
    | panic => simp [Res.collect, hb, signAll, gather, hh]
    | ok sh' => simp [Res.collect, hb, signAll, gather, hh]

/-- C114: what one signer does alone: it adds its two lines and succeeds, or it adds nothing. -/
theorem C114_alone (hw : WfHeaders m.headers) (hf : ∀ r, rf = some r → WfHeaders r.headers) (x : Signer) :
    (∃ sh, SignedBy m rf x sh ∧ setSignature m x.1 x.2.1 x.2.2 rf = (m.headers ++ sigLines sh, .ok ())) ∨
    ((setSignature m x.1 x.2.1 x.2.2 rf).1 = m.headers ∧ (setSignature m x.1 x.2.1 x.2.2 rf).2 ≠ .ok ()) := by
  rw [alone_eq]
  cases hc : contribution m rf x with
  | err e => exact Or.inr ⟨rfl, by simp⟩
  | panic => exact Or.inr ⟨rfl, by simp⟩
  | ok sh =>
    simp only
    by_cases hi : (hvOfStr sh.inputValue).isSome
    · rw [if_pos hi]; exact Or.inl ⟨sh, (contribution_ok hw hf x sh).1 hc, rfl⟩
    · rw [if_neg hi]; exact Or.inr ⟨rfl, by simp⟩

theorem alone_ok (hw : WfHeaders m.headers) (hf : ∀ r, rf = some r → WfHeaders r.headers) {x : Signer} {h' : Headers} :
    setSignature m x.1 x.2.1 x.2.2 rf = (h', .ok ()) ↔
      ∃ sh, SignedBy m rf x sh ∧ (hvOfStr sh.inputValue).isSome ∧ h' = m.headers ++ sigLines sh := by
  rw [alone_eq]
  cases hc : contribution m rf x with
  | err e => simp only [Prod.mk.injEq, reduceCtorEq, and_false, false_iff]; rintro ⟨sh, h, _⟩; rw [(contribution_ok hw hf x sh).2 h] at hc; cases hc
  | panic => simp only [Prod.mk.injEq, reduceCtorEq, and_false, false_iff]; rintro ⟨sh, h, _⟩; rw [(contribution_ok hw hf x sh).2 h] at hc; cases hc
  | ok sh =>
    simp only
    constructor
    · intro h
      by_cases hi : (hvOfStr sh.inputValue).isSome
      · rw [if_pos hi] at h; injection h with h _
        exact ⟨sh, (contribution_ok hw hf x sh).1 hc, hi, h.symm⟩
      · rw [if_neg hi] at h; injection h with _ h; cases h
    · rintro ⟨sh', h1, h2, rfl⟩
      rw [(contribution_ok hw hf x sh').2 h1] at hc; injection hc with hc; subst hc
      rw [if_pos h2]

/-- C114: a list of signers succeeds at once exactly if each of them succeeds alone on the message as it is. -/
theorem C114_at_once (hw : WfHeaders m.headers) (hf : ∀ r, rf = some r → WfHeaders r.headers) (l : List Signer) :
    (setSignatures m l rf).2 = .ok () ↔ ∀ x ∈ l, (setSignature m x.1 x.2.1 x.2.2 rf).2 = .ok () := by
  constructor
  · intro h x hx
    obtain ⟨hs, h1, h2, _⟩ := (setSignatures_ok hw hf l (setSignatures m l rf).1).1 (Prod.ext rfl h)
    obtain ⟨sh, hsh, hb⟩ := forall₂_mem_left h1 x hx
    exact congrArg Prod.snd ((alone_ok hw hf).2 ⟨sh, hb, h2 sh hsh, rfl⟩)
  · intro h
    have : ∃ hs, List.Forall₂ (SignedBy m rf) l hs ∧ ∀ sh ∈ hs, (hvOfStr sh.inputValue).isSome := by
      induction l with
      | nil => exact ⟨[], .nil, by simp⟩
      | cons x t ih =>
        obtain ⟨hs, h1, h2⟩ := ih (fun y hy => h y (by simp [hy]))
        obtain ⟨sh, h3, h4, _⟩ := (alone_ok (h' := (setSignature m x.1 x.2.1 x.2.2 rf).1) hw hf).1 (Prod.ext rfl (h x (by simp)))
        refine ⟨sh :: hs, .cons h3 h1, ?_⟩
        intro z hz
        rcases List.mem_cons.1 hz with rfl | hz
        · exact h4
        · exact h2 z hz
    obtain ⟨hs, h1, h2⟩ := this
    exact congrArg Prod.snd ((setSignatures_ok hw hf l _).2 ⟨hs, h1, h2, rfl⟩)

theorem buildBase_after {p : SigParams} (hn : NotSelf p) (hw : WfHeaders m.headers) (hf : ∀ r, rf = some r → WfHeaders r.headers)
    (hs : List SigHeaders) : buildBase (m.withHeaders (m.headers ++ hs.flatMap sigLines)) p rf = buildBase m p rf := by
  have e : (m.withHeaders (m.headers ++ hs.flatMap sigLines)).headers = m.headers ++ hs.flatMap sigLines := by cases m <;> rfl
  have hw' : WfHeaders (m.withHeaders (m.headers ++ hs.flatMap sigLines)).headers := by rw [e]; exact wf_sigLines hw hs
  refine buildBase_congr hw' hw (by cases m <;> rfl) rfl hf hf ?_ ?_
  · intro i hi hr
    obtain ⟨n1, n2⟩ := hn i hi hr
    cases hn : i.name with
    | field f =>
      show fieldLines (m.withHeaders (m.headers ++ hs.flatMap sigLines)).headers f = fieldLines m.headers f
      rw [e, fieldLines_append, fieldLines_sigLines_other hs (n2 f hn).1 (n2 f hn).2, List.append_nil]
    | derived d =>
      cases d with
      | signatureParams => exact absurd hn n1
      | requestTarget => cases m <;> exact ⟨rfl, rfl⟩
      | _ => cases m <;> rfl
  · intro i hi hr r r' h h'
    rw [h] at h'; injection h' with h'; subst h'
    cases hn : i.name with
    | field f => rfl
    | derived d => cases d <;> first | rfl | exact ⟨rfl, rfl⟩

theorem contribution_after {x : Signer} (hn : NotSelf x.1) (hw : WfHeaders m.headers) (hf : ∀ r, rf = some r → WfHeaders r.headers)
    (hs : List SigHeaders) : contribution (m.withHeaders (m.headers ++ hs.flatMap sigLines)) rf x = contribution m rf x := by
  unfold contribution; rw [buildBase_after hn hw hf]

theorem each_fails (hw : WfHeaders m.headers) (hf : ∀ r, rf = some r → WfHeaders r.headers) {x : Signer} (hx : NotSelf x.1)
    (hb : (setSignature m x.1 x.2.1 x.2.2 rf).2 ≠ .ok ()) (post : List Signer) :
    ∀ (pre : List Signer) (hs : List SigHeaders), (∀ y ∈ pre, NotSelf y.1) → List.Forall₂ (SignedBy m rf) pre hs →
      (∀ sh ∈ hs, (hvOfStr sh.inputValue).isSome) → ∀ acc,
      signEach (m.withHeaders (m.headers ++ acc.flatMap sigLines)) rf (pre ++ x :: post) =
        (m.headers ++ (acc ++ hs).flatMap sigLines, (setSignature m x.1 x.2.1 x.2.2 rf).2) := by
  intro pre hs hn h1 h2 acc
  induction h1 generalizing acc with
  | nil =>
    rw [List.nil_append, List.append_nil]
    unfold signEach
    have e := alone_eq (m := m.withHeaders (m.headers ++ acc.flatMap sigLines)) (rf := rf) x
    rw [contribution_after hx hw hf, headers_withHeaders] at e
    have e' := alone_eq (m := m) (rf := rf) x
    cases hc : contribution m rf x with
    | err e1 => rw [hc] at e e'; rw [e, e']
    | panic => rw [hc] at e e'; rw [e, e']
    | ok sh =>
      rw [hc] at e e'; simp only at e e'
      by_cases hi : (hvOfStr sh.inputValue).isSome
      · rw [if_pos hi] at e'; rw [e'] at hb; exact absurd rfl hb
      · rw [if_neg hi] at e e'; rw [e, e']
  | @cons y sh pre hs hy _ ih =>
    rw [List.cons_append]
    unfold signEach
    have e := alone_eq (m := m.withHeaders (m.headers ++ acc.flatMap sigLines)) (rf := rf) y
    rw [contribution_after (hn y (by simp)) hw hf, headers_withHeaders, (contribution_ok hw hf y sh).2 hy] at e
    simp only at e
    rw [if_pos (h2 sh (by simp))] at e
    rw [e]
    simp only
    have := ih (fun z hz => hn z (by simp [hz])) (fun z hz => h2 z (by simp [hz])) (acc ++ [sh])
    rw [withHeaders_twice]
    simpa using this

/-- C114: one after the other, signing stops at the first signer that fails alone. Its error is the result, and the signatures of the earlier ones
stay on the message. -/
theorem C114_each_fails (hw : WfHeaders m.headers) (hf : ∀ r, rf = some r → WfHeaders r.headers) {pre post : List Signer} {x : Signer}
    (hn : ∀ y ∈ pre ++ [x], NotSelf y.1) (hp : ∀ y ∈ pre, (setSignature m y.1 y.2.1 y.2.2 rf).2 = .ok ())
    (hb : (setSignature m x.1 x.2.1 x.2.2 rf).2 ≠ .ok ()) :
    ∃ h1, setSignatures m pre rf = (h1, .ok ()) ∧ signEach m rf (pre ++ x :: post) = (h1, (setSignature m x.1 x.2.1 x.2.2 rf).2) := by
  have h := (C114_at_once hw hf pre).2 hp
  obtain ⟨hs, h1, h2, h3⟩ := (setSignatures_ok hw hf pre (setSignatures m pre rf).1).1 (Prod.ext rfl h)
  refine ⟨m.headers ++ hs.flatMap sigLines, by rw [← h3]; exact Prod.ext rfl h, ?_⟩
  have := each_fails hw hf (hn x (by simp)) hb post pre hs (fun y hy => hn y (by simp [hy])) h1 h2 []
  simpa [withHeaders_same] using this

/-- C114: in both ways signing succeeds for the same lists of signers, with the same message in the end. -/
theorem C114_same (hw : WfHeaders m.headers) (hf : ∀ r, rf = some r → WfHeaders r.headers) {l : List Signer} (hn : ∀ x ∈ l, NotSelf x.1) :
    ((signEach m rf l).2 = .ok () ↔ (setSignatures m l rf).2 = .ok ()) ∧
    ((setSignatures m l rf).2 = .ok () → signEach m rf l = setSignatures m l rf) := by
  refine ⟨⟨fun h => ?_, fun h => ?_⟩, fun h => ?_⟩
  · exact congrArg Prod.snd ((C72_one_by_one hw hf hn (signEach m rf l).1).1 (Prod.ext rfl h))
  · exact congrArg Prod.snd ((C72_one_by_one hw hf hn (setSignatures m l rf).1).2 (Prod.ext rfl h))
  · rw [(C72_one_by_one hw hf hn (setSignatures m l rf).1).2 (Prod.ext rfl h)]
    exact Prod.ext rfl h.symm

theorem collect_first {ε α β : Type} {f : α → Res ε β} {pre post : List α} {x : α} (hp : ∀ y ∈ pre, ∃ b, f y = .ok b) :
    (∀ e, f x = .err e → Res.collect f (pre ++ x :: post) = .err e) ∧ (f x = .panic → Res.collect f (pre ++ x :: post) = .panic) := by
  induction pre with
  | nil => exact ⟨fun e h => by simp [Res.collect, h], fun h => by simp [Res.collect, h]⟩
  | cons y t ih =>
    obtain ⟨b, hb⟩ := hp y (by simp)
    have := ih (fun z hz => hp z (by simp [hz]))
    exact ⟨fun e h => by simp [Res.collect, hb, this.1 e h], fun h => by simp [Res.collect, hb, this.2 h]⟩

theorem gather_pre_panic {ε ε' α : Type} {pre post : List (Res ε α)} (hp : ∀ y ∈ pre, ∃ b, y = .ok b) :
    (gather (pre ++ .panic :: post) : Res ε' _) = .panic := by
  induction pre with
  | nil => rfl
  | cons y t ih =>
    obtain ⟨b, rfl⟩ := hp y (by simp)
    simp [gather, ih (fun z hz => hp z (by simp [hz]))]

theorem contribution_parts {x : Signer} {sh : SigHeaders} (h : contribution m rf x = .ok sh) :
    ∃ b, buildBase m x.1 rf = .ok b ∧ b.headers x.2.1 x.2.2 = .ok sh := by
  unfold contribution at h
  obtain ⟨b, h1, h2⟩ := Res.bind_eq_ok.1 h
  refine ⟨b, h1, ?_⟩
  cases hh : b.headers x.2.1 x.2.2 with
  | ok s => rw [hh] at h2; injection h2 with h2; rw [h2]
  | err e => rw [hh] at h2; cases h2
  | panic => rw [hh] at h2; cases h2

/-- C114: if one signer has no signature to add and all others succeed alone, its error is the result of the list and nothing is written. -/
theorem C114_culprit (hw : WfHeaders m.headers) (hf : ∀ r, rf = some r → WfHeaders r.headers) {pre post : List Signer} {x : Signer}
    (hp : ∀ y ∈ pre ++ post, (setSignature m y.1 y.2.1 y.2.2 rf).2 = .ok ()) (hx : ¬ ∃ sh, SignedBy m rf x sh) :
    setSignatures m (pre ++ x :: post) rf = (m.headers, (setSignature m x.1 x.2.1 x.2.2 rf).2) := by
  have parts : ∀ y ∈ pre ++ post, ∃ b sh, buildBase m y.1 rf = .ok b ∧ b.headers y.2.1 y.2.2 = .ok sh := by
    intro y hy
    obtain ⟨sh, h1, _⟩ := (alone_ok (h' := (setSignature m y.1 y.2.1 y.2.2 rf).1) hw hf).1 (Prod.ext rfl (hp y hy))
    obtain ⟨b, h2, h3⟩ := contribution_parts ((contribution_ok hw hf y sh).2 h1)
    exact ⟨b, sh, h2, h3⟩
  have bases : ∀ k : List Signer, (∀ y ∈ k, y ∈ pre ++ post) → ∃ bs, signBases m k rf = .ok bs ∧
      ∃ hs, List.Forall₂ (fun b sh => b.1.headers b.2.1 b.2.2 = .ok sh) bs hs := by
    intro k
    induction k with
    | nil => intro _; exact ⟨[], rfl, [], .nil⟩
    | cons y t ih =>
      intro hk
      obtain ⟨bs, h1, hs, h2⟩ := ih (fun z hz => hk z (by simp [hz]))
      obtain ⟨b, sh, h3, h4⟩ := parts y (hk y (by simp))
      exact ⟨(b, y.2) :: bs, signBases_ok.2 (.cons ⟨h3, rfl⟩ (signBases_ok.1 h1)), sh :: hs, .cons h4 h2⟩
  rw [alone_eq]
  have hfirst := collect_first (f := fun pkn : Signer => do let b ← buildBase m pkn.1 rf; Res.ok (b, pkn.2)) (pre := pre) (post := post) (x := x)
    (fun y hy => by obtain ⟨b, _, h, _⟩ := parts y (by simp [hy]); exact ⟨(b, y.2), by simp [h]⟩)
  cases hb : buildBase m x.1 rf with
  | err e =>
    have : signBases m (pre ++ x :: post) rf = .err e := hfirst.1 e (by simp [hb])
    unfold setSignatures contribution
    simp [this, hb]
  | panic =>
    have : signBases m (pre ++ x :: post) rf = .panic := hfirst.2 (by simp [hb])
    unfold setSignatures contribution
    simp [this, hb]
  | ok b =>
    obtain ⟨bs1, h1, hs1, g1⟩ := bases pre (fun y hy => by simp [hy])
    obtain ⟨bs2, h2, hs2, g2⟩ := bases post (fun y hy => by simp [hy])
    have hB : signBases m (pre ++ x :: post) rf = .ok (bs1 ++ (b, x.2) :: bs2) := by
      rw [signBases_ok] at *
      exact List.rel_append h1 (.cons ⟨hb, rfl⟩ h2)
    have m1 : ∀ {bs : List (SigBase × SigningKey × Option Str)} {hs : List SigHeaders},
        List.Forall₂ (fun b sh => b.1.headers b.2.1 b.2.2 = .ok sh) bs hs →
        bs.map (fun bkn => bkn.1.headers bkn.2.1 bkn.2.2) = hs.map .ok := by
      intro bs hs h
      induction h with
      | nil => rfl
      | cons h _ ih => rw [List.map_cons, List.map_cons, h, ih]
    unfold setSignatures contribution
    simp only [hB, Res.bind_ok, hb]
    cases hh : b.headers x.2.1 x.2.2 with
    | ok sh =>
      refine absurd ⟨sh, (contribution_ok hw hf x sh).1 ?_⟩ hx
      unfold contribution; simp [hb, hh]
    | panic =>
      have : signAll (bs1 ++ (b, x.2) :: bs2) = .panic := by
        unfold signAll
        rw [List.map_append, List.map_cons, m1 g1, hh, gather_pre_panic]
        · rfl
        · intro y hy; obtain ⟨z, _, rfl⟩ := List.mem_map.1 hy; exact ⟨z, rfl⟩
      simp [this]
    | err e =>
      have : signAll (bs1 ++ (b, x.2) :: bs2) = .err (.httpSig e) := by
        unfold signAll
        have hg : (gather ((bs1 ++ (b, x.2) :: bs2).map (fun bkn => bkn.1.headers bkn.2.1 bkn.2.2)) : Res HyperErr _) =
            .ok (hs1.map .ok ++ .error e :: hs2.map .ok) := by
          rw [gather_ok, List.map_append, List.map_cons, m1 g1, m1 g2, hh]
          simp [List.map_map, Function.comp_def, ofExcept]
        rw [hg, Res.bind_ok]
        refine (collect_first ?_).1 _ rfl
        intro y hy; obtain ⟨z, _, rfl⟩ := List.mem_map.1 hy; exact ⟨z, rfl⟩
      simp [this]

/-- C114: if one signer has a signature whose parameters are no header value and all others succeed alone, the result is that error, and the
signatures of the signers before it are on the message, as they are when signing one after the other. -/
theorem C114_not_a_value (hw : WfHeaders m.headers) (hf : ∀ r, rf = some r → WfHeaders r.headers) {pre post : List Signer} {x : Signer}
    (hp : ∀ y ∈ pre ++ post, (setSignature m y.1 y.2.1 y.2.2 rf).2 = .ok ()) {sh : SigHeaders} (hx : SignedBy m rf x sh)
    (hb : (setSignature m x.1 x.2.1 x.2.2 rf).2 ≠ .ok ()) :
    ∃ h1, setSignatures m pre rf = (h1, .ok ()) ∧ setSignatures m (pre ++ x :: post) rf = (h1, .err .invalidHeaderValue) ∧
      (setSignature m x.1 x.2.1 x.2.2 rf).2 = .err .invalidHeaderValue := by
  have h := (C114_at_once hw hf pre).2 (fun y hy => hp y (by simp [hy]))
  obtain ⟨hs, h1, h2, h3⟩ := (setSignatures_ok hw hf pre (setSignatures m pre rf).1).1 (Prod.ext rfl h)
  have h' := (C114_at_once hw hf post).2 (fun y hy => hp y (by simp [hy]))
  obtain ⟨hs', h1', h2', _⟩ := (setSignatures_ok hw hf post (setSignatures m post rf).1).1 (Prod.ext rfl h')
  have hbad : ¬ (hvOfStr sh.inputValue).isSome := fun hi => hb (congrArg Prod.snd ((alone_ok hw hf).2 ⟨sh, hx, hi, rfl⟩))
  refine ⟨m.headers ++ hs.flatMap sigLines, by rw [← h3]; exact Prod.ext rfl h, ?_, ?_⟩
  · have hst := (sign_stage hw hf (pre ++ x :: post) (hs ++ sh :: hs')).2 (List.rel_append h1 (.cons hx h1'))
    unfold setSignatures
    simp only [hst]
    rcases appendAll_eq m.headers (hs ++ sh :: hs') with ⟨h4, _⟩ | ⟨l1, z, l2, h4, h5, h6, h7⟩
    · exact absurd (h4 sh (by simp)) hbad
    · rw [h7]
      have : l1 = hs := by
        rcases List.append_eq_append_iff.1 h4 with ⟨a, ha, hc⟩ | ⟨a, ha, hc⟩
        · cases a with
          | nil => simpa using ha
          | cons c a =>
            simp only [List.cons_append, List.cons.injEq] at hc
            exact absurd (h5 sh (by rw [ha, hc.1]; simp)) hbad
        · cases a with
          | nil => simpa using ha.symm
          | cons c a =>
            simp only [List.cons_append, List.cons.injEq] at hc
            have := h2 z (by rw [ha, hc.1]; simp)
            rw [h6] at this; cases this
      rw [this]
  · rw [alone_eq, (contribution_ok hw hf x sh).2 hx]
    simp only
    rw [if_neg hbad]

/-- C114: a list can be cut into two calls. -/
theorem C114_split (hw : WfHeaders m.headers) (hf : ∀ r, rf = some r → WfHeaders r.headers) {l1 l2 : List Signer} (hn : ∀ x ∈ l2, NotSelf x.1)
    (h' : Headers) : setSignatures m (l1 ++ l2) rf = (h', .ok ()) ↔
      ∃ h1, setSignatures m l1 rf = (h1, .ok ()) ∧ setSignatures (m.withHeaders h1) l2 rf = (h', .ok ()) := by
  have same : ∀ (hs : List SigHeaders) (k : List Signer), (∀ x ∈ k, NotSelf x.1) → ∀ zs,
      List.Forall₂ (SignedBy (m.withHeaders (m.headers ++ hs.flatMap sigLines)) rf) k zs ↔ List.Forall₂ (SignedBy m rf) k zs := by
    intro hs k hk
    have one : ∀ x ∈ k, ∀ sh, SignedBy (m.withHeaders (m.headers ++ hs.flatMap sigLines)) rf x sh ↔ SignedBy m rf x sh := by
      intro x hx sh
      rw [← contribution_ok (by rw [headers_withHeaders]; exact wf_sigLines hw hs) hf, contribution_after (hk x hx) hw hf, contribution_ok hw hf]
    intro zs
    induction k generalizing zs with
    | nil => simp
    | cons x k ih =>
      cases zs with
      | nil => simp
      | cons z zs =>
        rw [List.forall₂_cons, List.forall₂_cons, one x (by simp), ih (fun y hy => hk y (by simp [hy])) (fun y hy => one y (by simp [hy]))]
  constructor
  · intro h
    obtain ⟨hs, h1, h2, rfl⟩ := (setSignatures_ok hw hf _ _).1 h
    obtain ⟨a, b, ha, hb, rfl⟩ := forall₂_split h1
    refine ⟨m.headers ++ a.flatMap sigLines, (setSignatures_ok hw hf _ _).2 ⟨a, ha, fun z hz => h2 z (by simp [hz]), rfl⟩, ?_⟩
    refine (setSignatures_ok (by rw [headers_withHeaders]; exact wf_sigLines hw a) hf _ _).2
      ⟨b, (same a l2 hn b).2 hb, fun z hz => h2 z (by simp [hz]), ?_⟩
    rw [headers_withHeaders]; simp
  · rintro ⟨h1, g1, g2⟩
    obtain ⟨a, ha, ha', rfl⟩ := (setSignatures_ok hw hf _ _).1 g1
    obtain ⟨b, hb, hb', rfl⟩ := (setSignatures_ok (by rw [headers_withHeaders]; exact wf_sigLines hw a) hf _ _).1 g2
    refine (setSignatures_ok hw hf _ _).2 ⟨a ++ b, List.rel_append ha ((same a l2 hn b).1 hb), ?_, ?_⟩
    · intro z hz
      rcases List.mem_append.1 hz with hz | hz
      · exact ha' z hz
      · exact hb' z hz
    · rw [headers_withHeaders]; simp

/-- C114: the order of the signers decides only the order of the pairs of lines. -/
theorem C114_order (hw : WfHeaders m.headers) (hf : ∀ r, rf = some r → WfHeaders r.headers) {l l' : List Signer} (hp : l.Perm l')
    {h1 : Headers} (h : setSignatures m l rf = (h1, .ok ())) :
    ∃ hs hs' : List SigHeaders, hs.Perm hs' ∧ h1 = m.headers ++ hs.flatMap sigLines ∧ setSignatures m l' rf = (m.headers ++ hs'.flatMap sigLines, .ok ()) := by
  obtain ⟨hs, g1, g2, g3⟩ := (setSignatures_ok hw hf _ _).1 h
  obtain ⟨hs', k1, k2⟩ := List.perm_comp_forall₂ hp.symm g1
  exact ⟨hs, hs', k2.symm, g3, (setSignatures_ok hw hf _ _).2 ⟨hs', k1, fun z hz => g2 z (k2.mem_iff.1 hz), rfl⟩⟩

/-! ### Signatures that cover signatures of the same list -/

theorem putIn_mem (l : List (Str × SigHeaders)) (sh : SigHeaders) : (sh.name, sh) ∈ putIn l sh := by
  unfold putIn
  split
  · rename_i h
    obtain ⟨kv, h1, h2⟩ := List.mem_map.1 h
    exact List.mem_map.2 ⟨kv, h1, by rw [if_pos h2]⟩
  · simp

theorem putIn_keeps {l : List (Str × SigHeaders)} {sh : SigHeaders} {a : Str} (h : ∃ y, (a, y) ∈ l) : ∃ y, (a, y) ∈ putIn l sh := by
  obtain ⟨y, hy⟩ := h
  unfold putIn
  split
  · by_cases e : a = sh.name
    · exact ⟨sh, List.mem_map.2 ⟨(a, y), hy, by simp [e]⟩⟩
    · exact ⟨y, List.mem_map.2 ⟨(a, y), hy, by simp [e]⟩⟩
  · exact ⟨y, by simp [hy]⟩

theorem putAll_mem {hs : List SigHeaders} {a : Str} : ∀ {l : List (Str × SigHeaders)}, ((∃ y, (a, y) ∈ l) ∨ ∃ sh ∈ hs, sh.name = a) →
    ∃ y, (a, y) ∈ hs.foldl putIn l := by
  induction hs with
  | nil =>
    rintro l (h | ⟨_, h, _⟩)
    · exact h
    · cases h
  | cons z t ih =>
    rintro l (h | ⟨sh, h, e⟩)
    · exact ih (Or.inl (putIn_keeps h))
    · rcases List.mem_cons.1 h with rfl | h
      · exact ih (Or.inl ⟨sh, by rw [← e]; exact putIn_mem l sh⟩)
      · exact ih (Or.inr ⟨sh, h, e⟩)

/-- C114: in a list, a signer that covers the signature or the parameters of a label that the same list adds signs a text that is not the
signature base of the resulting message. (One after the other this works, see C79.) -/
theorem C114_blind (hm : WfMsg m) (hf : ∀ r, rf = some r → WfRequest r) {l0 : List (Str × SigHeaders)} (h0 : HasSignatures m.headers l0)
    {l : List Signer} (hsafe : ∀ x ∈ l, SafeParams x.1 ∧ LegalKey x.label) {h' : Headers} (h : setSignatures m l rf = (h', .ok ()))
    {x : Signer} (hx : x ∈ l) {a : Str} (ha : a ∈ l.map Signer.label) (hna : a ∉ l0.map Prod.fst)
    (hc : signatureOf a ∈ x.1.covered ∨ inputOf a ∈ x.1.covered) {t t' : Str}
    (ht : BaseOf m rf x.1 t) (ht' : BaseOf (m.withHeaders h') rf x.1 t') : t ≠ t' := by
  have hw : WfHeaders m.headers := wf_headers hm
  have hf' : ∀ r, rf = some r → WfHeaders r.headers := fun r hr => (hf r hr).headers
  obtain ⟨hs, h1, h2, rfl⟩ := (setSignatures_ok hw hf' l h').1 h
  have hS := hasSignatures_putAll h0 (signed_safe h1 hsafe)
  obtain ⟨y, hy, rfl⟩ := List.mem_map.1 ha
  obtain ⟨sh, hsh, hb⟩ := forall₂_mem_left h1 y hy
  obtain ⟨z, hz⟩ := putAll_mem (l := l0) (Or.inr ⟨sh, hsh, hb.name⟩)
  have hw' : WfHeaders (m.withHeaders (m.headers ++ hs.flatMap sigLines)).headers := by rw [headers_withHeaders]; exact wf_sigLines hw hs
  have hm' : WfMsg (m.withHeaders (m.headers ++ hs.flatMap sigLines)) := by
    cases m with
    | req r => exact { hm with headers := wf_sigLines hw hs }
    | res s => exact wf_sigLines hw hs
  rintro rfl
  obtain ⟨b, b1, b2⟩ := (buildBase_spec hw hf' t).2 ht
  obtain ⟨b', b1', b2'⟩ := (buildBase_spec hw' hf' t).2 ht'
  have e : b.bytes = b'.bytes := by unfold SigBase.bytes; rw [b2, b2']
  have hv := (C08_unambiguous_safe hm hm' hf hf (hsafe x hx).1 (hsafe x hx).1 b1 b1' e).2
  have hval : ∀ i ∈ x.1.covered, ∃ v, HasValue m rf i v := by
    obtain ⟨vs, k1, _⟩ := ht
    intro i hi
    obtain ⟨v, _, hv⟩ := forall₂_mem_left k1 i hi
    exact ⟨v, hv⟩
  rw [← headers_withHeaders m (m.headers ++ hs.flatMap sigLines)] at hS
  rcases hc with hc | hc
  · obtain ⟨v, hv1⟩ := hval _ hc
    obtain ⟨w, hw1, _⟩ := (C79_binds_signature h0 hS hv1 ((hv _ hc v).1 hv1) z.signature).2 ⟨z, hz, rfl⟩
    exact hna (List.mem_map_of_mem (f := Prod.fst) hw1)
  · obtain ⟨v, hv1⟩ := hval _ hc
    obtain ⟨w, hw1, _⟩ := (C79_binds_params h0 hS hv1 ((hv _ hc v).1 hv1) z.params).2 ⟨z, hz, rfl⟩
    exact hna (List.mem_map_of_mem (f := Prod.fst) hw1)

end

/-! ### Examples -/

set_option maxRecDepth 20000 in
/-- C114: a signer that covers a signature of the same list: signing says `Ok`, and verification with the right key fails. With two calls
in the same order it succeeds. -/
theorem C114_lost : ∃ (r : Request) (l : List Signer) (k : VerifyingKey) (a b : Headers), WfRequest r ∧ l.length = 2 ∧
    (∀ x ∈ l, SafeParams x.1 ∧ LegalKey x.label) ∧ (∃ x ∈ l, KeyPair x.2.1 k ∧ x.1.keyid = some (c! "k2")) ∧
    setSignatures (.req r) l none = (a, .ok ()) ∧
    verifySignature 100 (.req { r with headers := a }) k (some (c! "k2")) none = .err .invalidSignature ∧
    signEach (.req r) none l = (b, .ok ()) ∧
    verifySignature 100 (.req { r with headers := b }) k (some (c! "k2")) none = .ok (c! "b") := by
  have h1 : (setSignatures (.req exReq) c79Signers none).2 = .ok () := by decide +kernel
  refine ⟨exReq, c79Signers, toyVerify 9, (setSignatures (.req exReq) c79Signers none).1, (signEach (.req exReq) none c79Signers).1,
    exReq_wfReq, rfl, c79_safe, ⟨_, List.mem_cons_of_mem _ (List.mem_cons_self ..), toy_pair 9, rfl⟩, Prod.ext rfl h1, by decide +kernel,
    Prod.ext rfl c79_ok, by decide +kernel⟩

set_option maxRecDepth 20000 in
/-- The theorem about such lists, on this one. -/
example (t t' : Str) (h : BaseOf (.req exReq) none c79Second t)
    (h' : BaseOf (Msg.withHeaders (.req exReq) (setSignatures (.req exReq) c79Signers none).1) none c79Second t') : t ≠ t' :=
  C114_blind (m := .req exReq) (rf := none) (l0 := []) exReq_wfReq (by simp) (Or.inl ⟨by decide, by decide, rfl⟩) c79_safe
    (x := (c79Second, toySign 9, some (c! "b"))) (a := c! "a")
    (Prod.ext rfl (by decide +kernel)) (by simp [c79Signers]) (by simp [c79Signers, Signer.label]) (by simp)
    (Or.inl (by simp [c79Second, signatureOf, wParams])) h h'

/-- Parameters that are no header value, and parameters without a base. -/
def c114Break : SigParams := { wParams (c! "k1") [⟨.field (c! "date"), []⟩] with nonce := some (c! "\n") }
def c114None : SigParams := wParams (c! "k1") [⟨.derived .status, []⟩]

/-- C114: with two signers that fail, the two ways of signing may report different errors: the list reports the base that cannot be built,
wherever it is in the list. -/
theorem C114_errors_differ : ∃ (r : Request) (x y : Signer), WfHeaders r.headers ∧ NotSelf x.1 ∧ NotSelf y.1 ∧
    setSignatures (.req r) [x, y] none = (r.headers, .err .invalidComponentName) ∧
    signEach (.req r) none [x, y] = (r.headers, .err .invalidHeaderValue) := by
  refine ⟨exReq, (c114Break, toySign 7, some (c! "a")), (c114None, toySign 9, some (c! "b")), exReq_wf, ?_, ?_, by decide +kernel, by decide +kernel⟩
  · intro i hi _
    simp only [c114Break, wParams, List.mem_cons, List.not_mem_nil, or_false] at hi
    subst hi
    exact ⟨by simp, by intro f h; injection h with h; subst h; decide⟩
  · intro i hi _
    simp only [c114None, wParams, List.mem_cons, List.not_mem_nil, or_false] at hi
    subst hi
    exact ⟨by simp, by intro f h; cases h⟩

/-- Two good signers and one without a base between them: a list writes nothing, single calls leave the first signature. -/
def c114List (p : SigParams) : List Signer :=
  [(c79First, toySign 7, some (c! "a")), (p, toySign 9, some (c! "b")), (c79First, toySign 8, some (c! "c"))]

example : setSignatures (.req exReq) (c114List c114None) none = (exReq.headers, .err .invalidComponentName) := by
  have h := C114_culprit (m := .req exReq) (rf := none) exReq_wf (by simp) (pre := [(c79First, toySign 7, some (c! "a"))])
    (post := [(c79First, toySign 8, some (c! "c"))]) (x := (c114None, toySign 9, some (c! "b")))
    (by intro y hy; simp only [List.cons_append, List.nil_append, List.mem_cons, List.not_mem_nil, or_false] at hy
        rcases hy with rfl | rfl <;> decide +kernel)
    (by
      rintro ⟨sh, h⟩
      have := (contribution_ok (m := .req exReq) (rf := none) exReq_wf (by simp) _ sh).2 h
      rw [show contribution (.req exReq) none (c114None, toySign 9, some (c! "b")) = .err .invalidComponentName from rfl] at this
      cases this)
  exact h.trans (Prod.ext rfl (by decide +kernel))

example : ∃ h1, setSignatures (.req exReq) [(c79First, toySign 7, some (c! "a"))] none = (h1, .ok ()) ∧ h1.length = exReq.headers.length + 2 ∧
    signEach (.req exReq) none (c114List c114None) = (h1, .err .invalidComponentName) := by
  obtain ⟨h1, e1, e2⟩ := C114_each_fails (m := .req exReq) (rf := none) exReq_wf (by simp) (pre := [(c79First, toySign 7, some (c! "a"))])
    (post := [(c79First, toySign 8, some (c! "c"))]) (x := (c114None, toySign 9, some (c! "b")))
    (by
      intro y hy i hi _
      simp only [List.cons_append, List.nil_append, List.mem_cons, List.not_mem_nil, or_false] at hy
      rcases hy with rfl | rfl
      · simp only [c79First, wParams, List.mem_cons, List.not_mem_nil, or_false] at hi
        rcases hi with rfl | rfl
        · exact ⟨by simp, by intro f h; injection h with h; subst h; decide⟩
        · exact ⟨by simp, by intro f h; cases h⟩
      · simp only [c114None, wParams, List.mem_cons, List.not_mem_nil, or_false] at hi
        subst hi
        exact ⟨by simp, by intro f h; cases h⟩)
    (by intro y hy; simp only [List.mem_cons, List.not_mem_nil, or_false] at hy; subst hy; decide +kernel) (by decide +kernel)
  refine ⟨h1, e1, ?_, e2.trans (Prod.ext rfl (by show (setSignature (.req exReq) c114None (toySign 9) (some (c! "b")) none).2 = _; dsimp only; decide +kernel))⟩
  have : h1 = (setSignatures (.req exReq) [(c79First, toySign 7, some (c! "a"))] none).1 := by rw [e1]
  rw [this]; decide +kernel

/-- Parameters that are no header value in the middle: both ways leave the first signature and report that. -/
example : (setSignatures (.req exReq) (c114List c114Break) none).2 = .err .invalidHeaderValue ∧
    (setSignatures (.req exReq) (c114List c114Break) none).1.length = exReq.headers.length + 2 ∧
    signEach (.req exReq) none (c114List c114Break) = setSignatures (.req exReq) (c114List c114Break) none := by
  refine ⟨by decide +kernel, by decide +kernel, by decide +kernel⟩

/-- Three signers that succeed: at once, in two calls, in another order. -/
example : (setSignatures (.req exReq) (c114List (wParams (c! "k2") [⟨.derived .path, []⟩])) none).2 = .ok () ∧
    (setSignatures (.req exReq) (c114List (wParams (c! "k2") [⟨.derived .path, []⟩])) none).1.length = exReq.headers.length + 6 ∧
    (setSignatures (.req exReq) (c114List (wParams (c! "k2") [⟨.derived .path, []⟩])).reverse none).1 ≠
      (setSignatures (.req exReq) (c114List (wParams (c! "k2") [⟨.derived .path, []⟩])) none).1 := by
  refine ⟨by decide +kernel, by decide +kernel, by decide +kernel⟩

example : ∃ hs hs' : List SigHeaders, hs.Perm hs' ∧
    setSignatures (.req exReq) (c114List (wParams (c! "k2") [⟨.derived .path, []⟩])).reverse none = (exReq.headers ++ hs'.flatMap sigLines, .ok ()) := by
  obtain ⟨hs, hs', hp, -, h⟩ := C114_order (m := .req exReq) (rf := none) exReq_wf (by simp)
    (l := c114List (wParams (c! "k2") [⟨.derived .path, []⟩])) (List.reverse_perm _).symm (Prod.ext rfl (by decide +kernel))
  exact ⟨hs, hs', hp, h⟩

end Verif
