import Verif.Spec.Quorum
import Verif.Props.C101
import Verif.Props.C91
import Verif.Props.C88
import Verif.Props.C40
import Verif.Proofs.Tests
/-!
C107: a receiver that wants the signatures of at least `k` members of a group.
-/
namespace Verif
open Spec Sfv Quorum

/-! ### Counting -/

theorem atLeast_iff {α : Type} {P : α → Prop} [DecidablePred P] (k : Nat) (g : List α) : AtLeast k P g ↔ k ≤ g.countP (fun x => decide (P x)) := by
  constructor
  · rintro ⟨s, h1, rfl, h2⟩
    rw [← List.countP_eq_length (p := fun x => decide (P x)) |>.2 (by simpa using h2)]
    exact h1.countP_le
  · intro h
    refine ⟨(g.filter fun x => decide (P x)).take k, (List.take_sublist _ _).trans List.filter_sublist, ?_, ?_⟩
    · rw [List.length_take, ← List.countP_eq_length_filter]; omega
    · intro x hx
      have := List.mem_of_mem_take hx
      simpa using (List.mem_filter.1 this).2

theorem count_atLeast {α β : Type} {P : α → Prop} {q : β → Bool} {g : List α} {rs : List β} (h : List.Forall₂ (fun a b => q b = true ↔ P a) g rs)
    (k : Nat) : k ≤ rs.countP q ↔ AtLeast k P g := by
  classical
  rw [atLeast_iff]
  have : rs.countP q = g.countP (fun x => decide (P x)) := by
    induction h with
    | nil => rfl
    | @cons a b g rs h _ ih =>
      rw [List.countP_cons, List.countP_cons, ih]
      congr 1
      by_cases hb : q b = true
      · rw [if_pos hb, if_pos (by simpa using h.1 hb)]
      · rw [if_neg hb, if_neg (by simpa using fun x => hb (h.2 x))]
  rw [this]

section
variable {now : UInt64} {m : Msg} {rf : Option Request} {g : Group} {k : Nat}

/-! ### The receiver -/

/-- C107: the receiver decides exactly whether at least `k` members signed, and it needs that no key panics. -/
theorem C107_exact (hw : WfHeaders m.headers) (hf : ∀ r, rf = some r → WfHeaders r.headers) (k : Nat) (g : Group) :
    passes now k m g rf = true ↔ ∃ l, Wire.Carries m.headers l ∧ (∀ ki ∈ g, ∀ kv ∈ l, ¬ Wire.Checked now m rf ki.1 ki.2 kv.2 .panic) ∧
      AtLeast k (Voted now m rf l) g := by
  simp only [wireCarries_iff]
  unfold passes
  cases he : extractSignatureHeaders m with
  | err e =>
    rw [verifySignatures_eq, he]
    constructor
    · intro h; cases h
    · rintro ⟨l, hl, _⟩
      rw [(extractSignatureHeaders_ok hw l).2 hl] at he; cases he
  | panic =>
    rw [verifySignatures_eq, he]
    constructor
    · intro h; cases h
    · rintro ⟨l, hl, _⟩
      rw [(extractSignatureHeaders_ok hw l).2 hl] at he; cases he
  | ok l =>
    have hl := (extractSignatureHeaders_ok hw l).1 he
    obtain ⟨c1, c2⟩ := verifySignatures_cases (now := now) hw hf hl g
    constructor
    · intro h
      have hn : ∀ ki ∈ g, ∀ kv ∈ l, ¬ Crashes now m rf ki.1 ki.2 kv.2 := by
        intro ki h1 kv h2 h3
        rw [c1.2 ⟨ki, h1, kv, h2, h3⟩] at h; cases h
      obtain ⟨rs, h1, h2⟩ := c2 hn
      rw [h1] at h
      refine ⟨l, hl, fun ki a kv b c => hn ki a kv b (wireCrashes_iff.1 c), ?_⟩
      refine (count_atLeast (q := success) (h2.imp ?_) k).1 (by simpa using h)
      intro ki r h3
      exact ⟨fun h => by
        cases r with
        | error e => cases h
        | ok n =>
          obtain ⟨kv, a, b⟩ := firstWith_exists.1 ⟨n, (h3 n).1 rfl⟩
          exact ⟨kv, a, wireAccepts_iff.2 b⟩, fun ⟨kv, a, b⟩ => by
          obtain ⟨n, hn⟩ := firstWith_exists.2 ⟨kv, a, wireAccepts_iff.1 b⟩
          rw [(h3 n).2 hn]; rfl⟩
    · rintro ⟨l', hl', hn, ha⟩
      have := carries_unique hw hl hl'; subst this
      obtain ⟨rs, h1, h2⟩ := c2 fun ki a kv b c => hn ki a kv b (wireCrashes_iff.2 c)
      rw [h1]
      simp only [decide_eq_true_eq]
      refine (count_atLeast (q := success) (h2.imp ?_) k).2 ha
      intro ki r h3
      exact ⟨fun h => by
        cases r with
        | error e => cases h
        | ok n =>
          obtain ⟨kv, a, b⟩ := firstWith_exists.1 ⟨n, (h3 n).1 rfl⟩
          exact ⟨kv, a, wireAccepts_iff.2 b⟩, fun ⟨kv, a, b⟩ => by
          obtain ⟨n, hn⟩ := firstWith_exists.2 ⟨kv, a, wireAccepts_iff.1 b⟩
          rw [(h3 n).2 hn]; rfl⟩

/-- C107: a group of one is `verify_message_signature`. -/
theorem C107_single (hw : WfHeaders m.headers) (hf : ∀ r, rf = some r → WfHeaders r.headers) (vk : VerifyingKey) (id : Option Str) :
    passes now 1 m [(vk, id)] rf = true ↔ ∃ n, verifySignature now m vk id rf = .ok n := by
  rw [C107_exact hw hf]
  simp only [C10_ok_iff hw hf]
  constructor
  · rintro ⟨l, h1, h2, s, h3, h4, h5⟩
    obtain ⟨y, rfl⟩ := List.length_eq_one_iff.1 h4
    have hy : y = (vk, id) := by simpa using h3.subset (List.mem_singleton.2 rfl)
    subst hy
    obtain ⟨kv, a, b⟩ := h5 _ (List.mem_singleton.2 rfl)
    obtain ⟨n, hn⟩ := firstWith_exists.2 ⟨kv, a, wireAccepts_iff.1 b⟩
    exact ⟨n, l, wireCarries_iff.1 h1, fun kv hkv hc => h2 _ (List.mem_singleton.2 rfl) kv hkv (wireCrashes_iff.2 hc), hn⟩
  · rintro ⟨n, l, h1, h2, h3⟩
    obtain ⟨kv, a, b⟩ := firstWith_exists.1 ⟨n, h3⟩
    refine ⟨l, wireCarries_iff.2 h1, ?_, _, List.Sublist.refl _, rfl, ?_⟩
    · intro ki hki kv hkv hc
      rw [List.mem_singleton.1 hki] at hc
      exact h2 kv hkv (wireCrashes_iff.1 hc)
    · intro ki hki
      rw [List.mem_singleton.1 hki]
      exact ⟨kv, a, wireAccepts_iff.2 b⟩

/-- C107: the order of the members does not matter. -/
theorem C107_order (hw : WfHeaders m.headers) (hf : ∀ r, rf = some r → WfHeaders r.headers) {g g' : Group} (h : g.Perm g') (k : Nat) :
    passes now k m g rf = passes now k m g' rf := by
  classical
  rw [Bool.eq_iff_iff, C107_exact hw hf, C107_exact hw hf]
  refine exists_congr fun l => and_congr_right fun _ => ?_
  simp only [atLeast_iff, h.countP_eq]
  exact and_congr_left fun _ => forall_congr' fun ki => by rw [h.mem_iff]

/-- C107: a larger group and a smaller number are easier, as long as the further keys do not panic. -/
theorem C107_more (hw : WfHeaders m.headers) (hf : ∀ r, rf = some r → WfHeaders r.headers) {g g' : Group} (h : g.Sublist g') {j k : Nat} (hj : j ≤ k)
    (hk : ∀ ki ∈ g', ∀ d s, ki.1.verify d s ≠ .panic) (hp : passes now k m g rf = true) : passes now j m g' rf = true := by
  classical
  rw [C107_exact hw hf] at hp ⊢
  obtain ⟨l, h1, _, h2⟩ := hp
  refine ⟨l, h1, fun ki a kv _ ⟨t, _, _, _, c⟩ => hk ki a _ _ c, ?_⟩
  rw [atLeast_iff] at h2 ⊢
  exact hj.trans (h2.trans h.countP_le)

/-- C107: if every member has its own key id, `k` members means `k` signatures with different labels, each with the key id of its member. -/
theorem C107_labels (hw : WfHeaders m.headers) (hf : ∀ r, rf = some r → WfHeaders r.headers) (ho : OwnNames g) (h : passes now k m g rf = true) :
    ∃ l s vs, Wire.Carries m.headers l ∧ s.Sublist g ∧ s.length = k ∧
      List.Forall₂ (fun ki kv => kv ∈ l ∧ kv.2.params.keyid = ki.2 ∧ Wire.Checked now m rf ki.1 ki.2 kv.2 (.ok ())) s vs ∧ (vs.map Prod.fst).Nodup := by
  obtain ⟨l, hl, _, s, h1, h2, h3⟩ := (C107_exact hw hf k g).1 h
  obtain ⟨vs, hv⟩ := forall₂_of_all (R := fun ki (kv : Str × SigHeaders) => kv ∈ l ∧ kv.2.params.keyid = ki.2 ∧
    Wire.Checked now m rf ki.1 ki.2 kv.2 (.ok ())) (l := s) (by
      intro ki hki
      obtain ⟨kv, a, b⟩ := h3 ki hki
      refine ⟨kv, a, ?_, b⟩
      obtain ⟨_, _, c, _⟩ := b
      rcases c with c | c
      · exact absurd c (ho.1 ki (h1.subset hki))
      · exact c.symm)
  refine ⟨l, s, vs, hl, h1, h2, hv, ?_⟩
  have n1 : (s.map Prod.snd).Nodup := ho.2.sublist (h1.map _)
  have e : s.map Prod.snd = vs.map fun kv => kv.2.params.keyid := by
    clear n1 h1 h2 h3
    induction hv with
    | nil => rfl
    | cons a _ ih => rw [List.map_cons, List.map_cons, ih, a.2.1]
  rw [e] at n1
  unfold List.Nodup at n1 ⊢
  rw [List.pairwise_map] at n1 ⊢
  refine n1.imp_of_mem ?_
  intro a b ha hb hn e
  apply hn
  obtain ⟨_, _, a1, _⟩ := forall₂_mem_right hv a ha
  obtain ⟨_, _, b1, _⟩ := forall₂_mem_right hv b hb
  have x := imGet_of_mem (carries_nodup (wireCarries_iff.1 hl)) a1
  rw [e, imGet_of_mem (carries_nodup (wireCarries_iff.1 hl)) b1] at x
  injection x with x
  rw [x]

/-! ### What others add -/

/-- C107: readable signatures with new labels, whoever adds them, take no quorum away. -/
theorem C107_added {e : Headers} {l l' : List (Str × SigHeaders)} (hw : WfHeaders m.headers) (he : WfHeaders e)
    (hf : ∀ r, rf = some r → WfHeaders r.headers) (hl : Wire.Carries m.headers l) (hl' : Wire.Carries e l') (hne : l ≠ []) (hne' : l' ≠ [])
    (hd : ∀ k ∈ l'.map Prod.fst, k ∉ l.map Prod.fst)
    (hc : ∀ kv ∈ l, ∀ i ∈ kv.2.params.covered, Wire.SameFor m (m.withHeaders (m.headers ++ e)) rf rf i)
    (hk : ∀ ki ∈ g, ∀ kv ∈ l', ∀ d, ki.1.verify d kv.2.signature ≠ .panic) (h : passes now k m g rf = true) :
    passes now k (m.withHeaders (m.headers ++ e)) g rf = true := by
  have hw' : WfHeaders (m.withHeaders (m.headers ++ e)).headers := by
    rw [headers_withHeaders]
    intro kv hkv
    rcases List.mem_append.1 hkv with h | h
    · exact hw kv h
    · exact he kv h
  obtain ⟨l0, h1, h2, s, h3, h4, h5⟩ := (C107_exact hw hf k g).1 h
  have := carries_unique hw (wireCarries_iff.1 h1) (wireCarries_iff.1 hl); subst this
  have same : ∀ kv ∈ l0, ∀ (ki : VerifyingKey × Option Str) o, Wire.Checked now (m.withHeaders (m.headers ++ e)) rf ki.1 ki.2 kv.2 o ↔
      Wire.Checked now m rf ki.1 ki.2 kv.2 o := by
    intro kv hkv ki o
    unfold Wire.Checked
    simp only [C80_base (hc kv hkv)]
  refine (C107_exact hw' hf k g).2 ⟨l0 ++ l', by rw [headers_withHeaders]; exact C88_append hl hl' hne hne' hd, ?_, s, h3, h4, ?_⟩
  · intro ki hki kv hkv hx
    rcases List.mem_append.1 hkv with a | a
    · exact h2 ki hki kv a ((same kv a ki _).1 hx)
    · obtain ⟨t, _, _, _, hx⟩ := hx
      exact hk ki hki kv a _ hx
  · intro ki hki
    obtain ⟨kv, a, b⟩ := h5 ki hki
    exact ⟨kv, List.mem_append_left _ a, (same kv a ki _).2 b⟩

/-! ### One secret -/

/-- Groups of HMAC keys that differ in the number of zero octets at the end, asked for without key ids. -/
def padded (s : Bytes) (n : Nat) : Group := (List.range (n + 1)).map fun i => ((SharedKey.hmacSha256 (s ++ List.replicate i 0)).verifying, none)

theorem padded_verify (s : Bytes) {i : Nat} (h : s.length + i ≤ 64) (d t : Bytes) :
    (SharedKey.hmacSha256 (s ++ List.replicate i 0)).verify d t = (SharedKey.hmacSha256 s).verify d t := by
  have := C54_zero_padding s i h d
  simp only [SharedKey.sign, Res.ok.injEq] at this
  simp only [SharedKey.verify, this]

/-- C107: without key ids the number of keys says nothing about the number of signatures, and even with different keys nothing about the number of
secrets: one signature is enough for all the keys of `padded`, and whoever holds `s` can sign for every one of them. -/
theorem C107_one_secret (hw : WfHeaders m.headers) (hf : ∀ r, rf = some r → WfHeaders r.headers) (s : Bytes) (n : Nat) (hn : s.length + n ≤ 64) :
    ((List.range (n + 1)).map fun i => s ++ List.replicate i (0 : UInt8)).Nodup ∧
    (∀ i ≤ n, KeyPair (SharedKey.hmacSha256 s).signing (SharedKey.hmacSha256 (s ++ List.replicate i 0)).verifying) ∧
    (passes now 1 m [((SharedKey.hmacSha256 s).verifying, none)] rf = true → passes now (n + 1) m (padded s n) rf = true) := by
  refine ⟨?_, ?_, ?_⟩
  · refine List.nodup_range.map ?_
    intro a b h
    have := congrArg List.length h
    simpa using this
  · intro i hi d t hd
    show (SharedKey.hmacSha256 _).verify d t = .ok ()
    rw [padded_verify s (by omega)]
    have hd : (SharedKey.hmacSha256 s).sign d = .ok t := hd
    simp only [SharedKey.sign, Res.ok.injEq] at hd
    simp [SharedKey.verify, hd]
  · intro h
    obtain ⟨l, h1, h2, x, h3, h4, h5⟩ := (C107_exact hw hf _ _).1 h
    obtain ⟨y, rfl⟩ := List.length_eq_one_iff.1 h4
    have hy : y = ((SharedKey.hmacSha256 s).verifying, none) := by simpa using h3.subset (List.mem_singleton.2 rfl)
    subst hy
    obtain ⟨kv, a, t, b1, b2, b3, b4⟩ := h5 _ (List.mem_singleton.2 rfl)
    refine (C107_exact hw hf _ _).2 ⟨l, h1, ?_, padded s n, List.Sublist.refl _, by simp [padded], ?_⟩
    · intro ki hki kv hkv hx
      obtain ⟨i, hi, rfl⟩ := List.mem_map.1 hki
      obtain ⟨t, c1, c2, c3, c4⟩ := hx
      refine h2 _ (List.mem_singleton.2 rfl) kv hkv ⟨t, c1, c2, c3, ?_⟩
      exact (padded_verify s (by have := List.mem_range.1 hi; omega) _ _).symm.trans c4
    · intro ki hki
      obtain ⟨i, hi, rfl⟩ := List.mem_map.1 hki
      exact ⟨kv, a, t, b1, b2, b3, (padded_verify s (by have := List.mem_range.1 hi; omega) _ _).trans b4⟩

/-! ### What was signed -/

theorem count_taken {α β : Type} {R : α → β → Prop} {q : β → Bool} {g : List α} {rs : List β} (h : List.Forall₂ R g rs) {k : Nat} (hk : k ≤ rs.countP q) :
    AtLeast k (fun a => ∃ b, q b = true ∧ R a b) g := by
  induction h generalizing k with
  | nil => exact ⟨[], .slnil, by simp at hk; simp [hk], by simp⟩
  | @cons a b g rs hab _ ih =>
    rw [List.countP_cons] at hk
    by_cases hb : q b = true
    · rw [if_pos hb] at hk
      cases k with
      | zero => exact ⟨[], List.nil_sublist _, rfl, by simp⟩
      | succ k =>
        obtain ⟨s, h1, h2, h3⟩ := ih (k := k) (by omega)
        refine ⟨a :: s, h1.cons_cons a, by simp [h2], ?_⟩
        intro x hx
        rcases List.mem_cons.1 hx with rfl | hx
        · exact ⟨b, hb, hab⟩
        · exact h3 x hx
    · rw [if_neg hb] at hk
      obtain ⟨s, h1, h2, h3⟩ := ih (k := k) (by omega)
      exact ⟨s, h1.cons a, h2, h3⟩

theorem forall₂_both {α β : Type} {R S : α → β → Prop} {g : List α} {rs : List β} (h : List.Forall₂ R g rs) (h' : List.Forall₂ S g rs) :
    List.Forall₂ (fun a b => R a b ∧ S a b) g rs := by
  induction h with
  | nil => exact .nil
  | cons a _ ih => cases h' with | cons b c => exact .cons ⟨a, b⟩ (ih c)

theorem covers_ok {need : List CId} {ps : List (Str × SigParams)} {q : Except (Option HyperErr) Str} (h : covers need ps q = true) :
    ∃ n p, q = .ok n ∧ (n, p) ∈ ps ∧ ∀ i ∈ need, i ∈ p.covered := by
  cases q with
  | error e => cases h
  | ok n =>
    unfold covers at h
    simp only at h
    split at h
    · rename_i kv hkv
      have h1 := List.find?_some hkv
      rw [beq_iff_eq] at h1
      refine ⟨n, kv.2, rfl, by rw [← h1]; exact List.mem_of_find?_eq_some hkv, by simpa using h⟩
    · cases h

/-- The signature that a result names is for the key id that was asked for, and not expired. -/
theorem receive_for {rs : List (Except (Option HyperErr) Str)} (hw : WfHeaders m.headers) (hf : ∀ r, rf = some r → WfHeaders r.headers)
    (h : Guard.receive now m g rf = .ok rs) : List.Forall₂ (fun ki r => ∀ n, r = .ok n → ∃ l sh, Carries m.headers l ∧ (n, sh) ∈ l ∧
      ForKey ki.2 sh ∧ InTime now sh) g rs := by
  obtain ⟨_, _, _, qs, hq, rfl⟩ := (receive_ok hw).1 h
  rw [List.forall₂_map_right_iff]
  refine (verifyAll_ok hq).imp ?_
  intro ki q hv n hn
  obtain ⟨rfl, _⟩ := accept_ok hn
  obtain ⟨l, h1, _, l1, sh, l2, rfl, ⟨t, _, a, b, _⟩, _⟩ := (C10_ok_iff hw hf n).1 hv
  exact ⟨_, sh, h1, by simp, a, b⟩

/-- What `k` successes mean, if every success means a signing. -/
theorem quorum_signings (hm : WfMsg m) (hf : ∀ r, rf = some r → WfRequest r) {who : VerifyingKey × Option Str → Signing → Prop}
    {need : List CId} (h : careful now k need m g rf = true)
    (hb : ∀ rs, Guard.receive now m g rf = .ok rs → List.Forall₂ (fun ki r => ∀ n, r = .ok n → ki ∈ g →
      ∃ l sh, Carries m.headers l ∧ (n, sh) ∈ l ∧ ∃ x, who ki x ∧ x.p = sh.params ∧ ∀ i ∈ sh.params.covered, ∃ v, HasValue m rf i v ∧ HasValue x.m x.rf i v) g rs) :
    ∃ s xs, s.Sublist g ∧ s.length = k ∧ List.Forall₂ (fun ki x => who ki x ∧ (∀ i, ki.2 = some i → x.p.keyid = some i) ∧
        (∀ e, x.p.expires = some e → now ≤ e) ∧ (∀ i ∈ need, i ∈ x.p.covered) ∧ ∀ i ∈ x.p.covered, ∃ v, HasValue m rf i v ∧ HasValue x.m x.rf i v) s xs ∧
      (OwnNames g → xs.Nodup) := by
  have hw := WfMsg.wfHeaders hm
  have hfw : ∀ r, rf = some r → WfHeaders r.headers := fun r h => (hf r h).headers
  unfold careful at h
  split at h
  · rename_i rs hrs
    split at h
    · rename_i ps hps
      have hk : k ≤ rs.countP (covers need ps) := by simpa using h
      obtain ⟨l, hl, rfl⟩ := (C49_params hw ps).1 hps
      obtain ⟨s, h1, h2, h3⟩ := count_taken (forall₂_both (hb rs hrs) (receive_for hw hfw hrs)) hk
      obtain ⟨xs, hx⟩ := forall₂_of_all (R := fun ki (x : Signing) => who ki x ∧ (∀ i, ki.2 = some i → x.p.keyid = some i) ∧
        (∀ e, x.p.expires = some e → now ≤ e) ∧ (∀ i ∈ need, i ∈ x.p.covered) ∧ ∀ i ∈ x.p.covered, ∃ v, HasValue m rf i v ∧ HasValue x.m x.rf i v)
        (l := s) (by
          intro ki hki
          have hg := h1.subset hki
          obtain ⟨r, a1, a2, a3⟩ := h3 ki hki
          obtain ⟨n, p, rfl, b1, b2⟩ := covers_ok a1
          obtain ⟨l1, sh, c1, c2, x, c3, c4, c5⟩ := a2 n rfl hg
          obtain ⟨l2, sh', d1, d2, d3, d4⟩ := a3 n rfl
          have := carries_unique hw hl c1; subst this
          have := carries_unique hw hl d1; subst this
          have get : ∀ {n : Str} {sh : SigHeaders}, (n, sh) ∈ l → imGet l n = some sh := fun h => imGet_of_mem (carries_nodup hl) h
          have e1 : sh = sh' := by
            have a := get c2
            rw [get d2] at a; injection a with a; exact a.symm
          subst e1
          obtain ⟨⟨n', sh2⟩, e2, e3⟩ := List.mem_map.1 b1
          injection e3 with e3 e4
          simp only at e3 e4; subst e3; subst e4
          have e1 : sh2 = sh := by
            have a := get e2
            rw [get c2] at a; injection a with a; exact a.symm
          subst e1
          rw [← c4] at b2 c5
          exact ⟨x, c3, by rw [c4]; exact d3, by rw [c4]; exact d4, b2, c5⟩)
      refine ⟨s, xs, h1, h2, hx, ?_⟩
      intro ho
      have n1 : (s.map Prod.snd).Nodup := ho.2.sublist (h1.map _)
      have e : s.map Prod.snd = xs.map fun x => x.p.keyid := by
        have hs : ∀ ki ∈ s, ki.2 ≠ none := fun ki h => ho.1 ki (h1.subset h)
        clear n1 h1 h2 h3
        induction hx with
        | nil => rfl
        | @cons ki x _ _ a _ ih =>
          rw [List.map_cons, List.map_cons, ih fun ki h => hs ki (List.mem_cons_of_mem _ h)]
          obtain ⟨i, hi⟩ := Option.ne_none_iff_exists'.1 (hs ki (List.mem_cons_self ..))
          rw [hi, a.2.1 i hi]
      rw [e] at n1
      exact List.Nodup.of_map _ n1
    · cases h
  · cases h

/-- C107: if every key of the group accepts only what its careful holder signed, then at least `k` holders signed: each signed, under the key id
of the group and not yet expired, all the components of the list, with the values that they have in the message. With key ids of their own the
`k` signings are different. -/
theorem C107_bound (hm : WfMsg m) (hf : ∀ r, rf = some r → WfRequest r) (hlk : ∀ ki ∈ g, LibraryKey ki.1)
    {who : VerifyingKey × Option Str → Signing → Prop} (hwho : ∀ ki ∈ g, OnlySigned ki.1 (who ki)) (hc : ∀ ki ∈ g, ∀ x, who ki x → CarefulSigning x)
    {need : List CId} (h : careful now k need m g rf = true) :
    ∃ s xs, s.Sublist g ∧ s.length = k ∧ List.Forall₂ (fun ki x => who ki x ∧ (∀ i, ki.2 = some i → x.p.keyid = some i) ∧
        (∀ e, x.p.expires = some e → now ≤ e) ∧ (∀ i ∈ need, i ∈ x.p.covered) ∧ ∀ i ∈ x.p.covered, ∃ v, HasValue m rf i v ∧ HasValue x.m x.rf i v) s xs ∧
      (OwnNames g → xs.Nodup) := by
  refine quorum_signings hm hf h fun rs hrs => (C101_bound hm hf hrs).imp ?_
  intro ki r hb n hn hg
  obtain ⟨l, sh, h1, h2, x, h3, h4, h5⟩ := hb n hn (hlk ki hg) (who ki) (hwho ki hg) (hc ki hg)
  exact ⟨l, sh, h1, h2, x, h3, h4, fun i hi => (h5 i hi).1⟩

/-- C107: what the careful sender of C101 signs with the keys of all members, over all components of the list, reaches every number up to that of the
members. -/
theorem C107_signed (hw : WfHeaders m.headers) (hf : ∀ r, rf = some r → WfHeaders r.headers)
    (h0 : fieldLines m.headers (c! "signature-input") = []) (h0' : fieldLines m.headers (c! "signature") = [])
    (l : List (Signer × VerifyingKey)) (hl : l ≠ []) (hk : ∀ x ∈ l, KeyPair x.1.2.1 x.2) (hlk : ∀ x ∈ l, LibraryKey x.2)
    (hself : ∀ x ∈ l, NotSelf x.1.1) (ht : ∀ x ∈ l, ∀ e, x.1.1.expires = some e → now ≤ e) {need : List CId}
    (hneed : ∀ x ∈ l, ∀ i ∈ need, i ∈ x.1.1.covered) {h' : Headers} (h : Guard.send m (l.map (·.1)) rf = (h', .ok ())) {k : Nat} (hkl : k ≤ l.length) :
    careful now k need (m.withHeaders h') (l.map fun x => (x.2, x.1.1.keyid)) rf = true := by
  obtain ⟨ns, h1, h2⟩ := C101_round_trip (now := now) hw hf h0 h0' l hl hk hlk hself ht h
  obtain ⟨hS, hs, g1, rfl⟩ := (C101_sends hw hf _ _).1 h
  have hset : setSignatures m (l.map (·.1)) rf = (m.headers ++ hs.flatMap sigLines, .ok ()) := by
    refine (setSignatures_ok hw hf _ _).2 ⟨hs, g1, fun sh hsh => ?_, rfl⟩
    rw [hvOfStr_printable (safe_input_printable (signed_safe g1 hS.safe sh hsh))]; rfl
  obtain ⟨hs', g2, hw', hc, _⟩ := signed_state hw hf h0 h0' (by simpa using hl) (by
    intro x hx
    obtain ⟨z, hz, rfl⟩ := List.mem_map.1 hx
    exact ⟨(hS.safe _ hx).1, (hS.safe _ hx).2, hself z hz⟩) hS.labels hset
  have hps : getSignatureParams (m.withHeaders (m.headers ++ hs.flatMap sigLines)) =
      .ok ((hs'.map fun sh => (sh.name, sh)).map fun kv => (kv.1, kv.2.params)) :=
    (C49_params (by rw [headers_withHeaders]; exact hw') _).2 ⟨_, by rw [headers_withHeaders]; exact hc, rfl⟩
  unfold careful
  rw [h1]
  simp only
  rw [hps]
  simp only [decide_eq_true_eq]
  have hall : ∀ r ∈ ns.map (Except.ok (ε := Option HyperErr)), covers need ((hs'.map fun sh => (sh.name, sh)).map fun kv => (kv.1, kv.2.params)) r = true := by
    intro r hr
    obtain ⟨n, hn, rfl⟩ := List.mem_map.1 hr
    obtain ⟨x, _, y, hy, rfl, _⟩ := forall₂_mem_right h2 n hn
    obtain ⟨sh, hsh, hsb⟩ := forall₂_mem_left g2 y.1 (List.mem_map_of_mem hy)
    unfold covers
    simp only
    split
    · rename_i kv hkv
      have e := List.find?_some hkv
      rw [beq_iff_eq] at e
      obtain ⟨⟨n', sh'⟩, b1, rfl⟩ := List.mem_map.1 (List.mem_of_find?_eq_some hkv)
      obtain ⟨sh2, b2, b3⟩ := List.mem_map.1 b1
      injection b3 with b3 b4
      subst b4
      obtain ⟨z, hz, hzb⟩ := forall₂_mem_right g2 sh2 b2
      obtain ⟨w, hw2, rfl⟩ := List.mem_map.1 hz
      simp only [List.all_eq_true, decide_eq_true_eq]
      intro i hi
      rw [hzb.params]
      exact hneed w hw2 i hi
    · rename_i hno
      rw [List.find?_eq_none] at hno
      refine absurd ?_ (hno (sh.name, sh.params) ?_)
      · rw [beq_iff_eq]; exact hsb.name
      · simp only [List.map_map, List.mem_map, Function.comp_apply]; exact ⟨sh, hsh, rfl⟩
  rw [List.countP_eq_length.2 hall, List.length_map, ← h2.length_eq]
  exact hkl
end

/-! ### Cases -/

/-- A group of three with their key ids, and the signatures of two of them over different components. -/
def trio : List (Signer × VerifyingKey) :=
  [((wParams (c! "k1") [⟨.derived .method, []⟩], (SecretKey.ed25519 (P := toyPrims) [1]).signing [], some (c! "a")), (PublicKey.ed25519 (P := toyPrims) [1]).verifying),
   ((wParams (c! "k2") [⟨.derived .path, []⟩], (SecretKey.ed25519 (P := toyPrims) [2]).signing [], some (c! "b")), (PublicKey.ed25519 (P := toyPrims) [2]).verifying)]

def trioGroup : Group := trio.map (fun x => (x.2, x.1.1.keyid)) ++ [((PublicKey.ed25519 (P := toyPrims) [3]).verifying, some (c! "k3"))]

def trioReq : Request := { exReq with headers := (Guard.send (.req exReq) (trio.map (·.1)) none).1 }

theorem trioReq_wf : WfHeaders trioReq.headers := by
  have h : Guard.send (.req exReq) (trio.map (·.1)) none = (trioReq.headers, .ok ()) := Prod.ext rfl (by decide +kernel)
  obtain ⟨_, hs, _, e⟩ := (C101_sends (m := .req exReq) exReq_wf (by simp) _ _).1 h
  rw [e]; exact wf_sigLines exReq_wf _

set_option maxRecDepth 20000 in
/-- C107: `k` right signatures need not be about the same thing. Two of three members signed, one the method and the other the path; there is no
signature over both, and the receiver that asks for both refuses. -/
theorem C107_no_common : OwnNames trioGroup ∧ passes 0 2 (.req trioReq) trioGroup none = true ∧ passes 0 3 (.req trioReq) trioGroup none = false ∧
    (∀ l, Wire.Carries trioReq.headers l → ∀ kv ∈ l, ¬ (⟨.derived .method, []⟩ ∈ kv.2.params.covered ∧ ⟨.derived .path, []⟩ ∈ kv.2.params.covered)) ∧
    careful 0 2 [] (.req trioReq) trioGroup none = true ∧ careful 0 1 [⟨.derived .method, []⟩, ⟨.derived .path, []⟩] (.req trioReq) trioGroup none = false ∧
    careful 0 1 [⟨.derived .method, []⟩] (.req trioReq) trioGroup none = true := by
  refine ⟨⟨by decide +kernel, by decide +kernel⟩, by decide +kernel, by decide +kernel, ?_, by decide +kernel, by decide +kernel, by decide +kernel⟩
  intro l hl
  have h := (extractSignatureHeaders_ok (m := .req trioReq) trioReq_wf l).2 (wireCarries_iff.1 hl)
  have e : ∃ l0, extractSignatureHeaders (.req trioReq) = .ok l0 ∧ ∀ kv ∈ l0, ¬ (⟨.derived .method, []⟩ ∈ kv.2.params.covered ∧ ⟨.derived .path, []⟩ ∈ kv.2.params.covered) :=
    ⟨_, rfl, by decide +kernel⟩
  obtain ⟨l0, e1, e2⟩ := e
  rw [e1] at h; injection h with h; subst h
  exact e2

set_option maxRecDepth 20000 in
-- the two signatures of the group have their own labels and the key ids of their members
example : ∃ l s vs, Wire.Carries trioReq.headers l ∧ s.Sublist trioGroup ∧ s.length = 2 ∧
    List.Forall₂ (fun ki kv => kv ∈ l ∧ kv.2.params.keyid = ki.2 ∧ Wire.Checked 0 (.req trioReq) none ki.1 ki.2 kv.2 (.ok ())) s vs ∧ (vs.map Prod.fst).Nodup :=
  C107_labels (m := .req trioReq) trioReq_wf (by simp) C107_no_common.1 C107_no_common.2.1

-- a key of Ed25519 never panics, so a fourth member and another order change nothing
example : passes 0 1 (.req trioReq) (((PublicKey.ed25519 (P := toyPrims) [4]).verifying, none) :: trioGroup) none = true := by
  refine C107_more (m := .req trioReq) trioReq_wf (by simp) (List.Sublist.cons _ (List.Sublist.refl _)) (show 1 ≤ 2 by decide) ?_ C107_no_common.2.1
  intro ki hki d t h
  simp only [trioGroup, trio, List.map_cons, List.map_nil, List.cons_append, List.nil_append, List.mem_cons, List.not_mem_nil, or_false] at hki
  rcases hki with rfl | rfl | rfl | rfl <;>
    exact absurd ((C100_key (.ofPublic _) d t).2 h) (by simp [Guard.lengthFine, PublicKey.verifying, PublicKey.alg])
example : passes 0 2 (.req trioReq) trioGroup.reverse none = true :=
  (C107_order (m := .req trioReq) trioReq_wf (by simp) (List.reverse_perm trioGroup) 2).trans C107_no_common.2.1

-- signatures that others add: with `vKey`, which two of the three signatures of `vReq` satisfy
set_option maxRecDepth 10000 in
example : passes 100 1 (.req { vReq with headers := vReq.headers ++ moreLines }) [(vKey, none), (vKey, some (c! "k9"))] none = true := by
  refine C107_added (m := .req vReq) (rf := none) vReq_wf moreLines_wf (by simp)
    (wireCarries_iff.2 vReq_carries) moreLines_carries (by simp [vSigs]) (by simp [moreSigs]) (by decide)
    (fun kv hkv => C88_untouched (by
      simp only [vSigs, List.mem_cons, List.not_mem_nil, or_false] at hkv
      rcases hkv with rfl | rfl | rfl <;> intro i hi _ <;> simp only [List.mem_cons, List.not_mem_nil, or_false] at hi
      · rcases hi with rfl | rfl
        · exact ⟨by simp, by intro f hf; injection hf with hf; subst hf; decide⟩
        · exact ⟨by simp, by intro f hf; cases hf⟩
      · subst hi; exact ⟨by simp, by intro f hf; cases hf⟩
      · subst hi; exact ⟨by simp, by intro f hf; injection hf with hf; subst hf; decide⟩)
      (by decide)) ?_ (by decide +kernel)
  intro ki hki kv hkv b
  have h : kv.2.signature ≠ [] := by revert kv; decide
  have e : ki.1 = vKey := by
    simp only [List.mem_cons, List.not_mem_nil, or_false] at hki
    rcases hki with rfl | rfl <;> rfl
  rw [e]
  unfold vKey
  simp only [h, if_false]
  split <;> simp

set_option maxRecDepth 20000 in
-- one HMAC secret, one signature, 63 different keys
example : ∃ m : Msg, passes 0 63 m (padded [7, 7] 62) none = true := by
  have hp : SafeParams (wParams (c! "k") []) := (C101_params _).1 (by decide +kernel)
  have hself : NotSelf (wParams (c! "k") []) := by intro i hi; cases hi
  obtain ⟨m', sh, h1, _, h⟩ := sign_once (m := .req exReq) (rf := none) (p := wParams (c! "k") []) (label := none) (k := (SharedKey.hmacSha256 [7, 7]).signing)
    exReq_wf (by simp) (by decide) (by decide) hp hself (by decide) (fun d => ⟨_, rfl⟩) (by intro i hi; cases hi)
  refine ⟨m', (C107_one_secret (m := m') h.wf (by simp) [7, 7] 62 (by decide)).2.2 ((C107_single h.wf (by simp) _ none).2 ⟨c! "sig", ?_⟩)⟩
  rw [h.message]
  exact sign_then_verify (m := .req exReq) (name := none) exReq_wf (by simp) (by decide) (by decide) hp hself (by decide) (shared_pair _) h1
    (by intro e he; injection he with he; subst he; decide) (Or.inl rfl)

set_option maxRecDepth 20000 in
-- what a group signs is accepted; here all components of the list are covered by both
example (now : UInt64) (hn : now ≤ 100) : careful now 2 wIds ((Msg.req exReq).withHeaders (Guard.send (.req exReq) (c101Signers.map (·.1)) none).1)
    (c101Signers.map fun x => (x.2, x.1.1.keyid)) none = true := by
  refine C107_signed (m := .req exReq) (rf := none) exReq_wf (by simp) (by decide) (by decide) c101Signers (by simp [c101Signers])
    ?_ ?_ ?_ ?_ ?_ (Prod.ext rfl c101_sent) (by decide)
  all_goals
    intro x hx
    simp only [c101Signers, List.mem_cons, List.not_mem_nil, or_false] at hx
  · rcases hx with rfl | rfl
    · exact toy_secret_pair (.ecdsaP384Sha384 [1]) []
    · exact toy_secret_pair (.ecdsaP256Sha256 [1]) []
  · rcases hx with rfl | rfl
    · exact .ofPublic _
    · exact .ofPublic _
  · rcases hx with rfl | rfl <;> exact wParams_notSelf _
  · intro e he
    rcases hx with rfl | rfl <;> (injection he with he; subst he; exact hn)
  · intro i hi
    rcases hx with rfl | rfl <;> exact hi

set_option maxRecDepth 20000 in
-- `C107_bound` applies to a group with a key that accepts only what its holder signed
example : ∃ x, x = c101Signing ∧ ⟨.field (c! "accept"), []⟩ ∈ x.p.covered := by
  have hw : WfMsg (.req (c101Received ⟨none, none, c! "*", none⟩ [(c! "accept", utf8 (c! "*"))])) := by
    refine ⟨?_, by decide, ⟨(by intro s h; cases h), (by intro s h; cases h), by decide, (by intro s h; cases h)⟩⟩
    intro kv hkv
    simp only [c101Received, List.cons_append, List.nil_append, List.mem_cons, List.not_mem_nil, or_false] at hkv
    rcases hkv with rfl | rfl | rfl <;> exact ⟨by decide, by decide, by decide⟩
  obtain ⟨s, xs, _, h2, h3, _⟩ := C107_bound (now := 0) (rf := none) (k := 1) hw (by simp) (g := [(c101Key, none)]) (by simpa using .ofPublic _)
    (who := fun _ => (· = c101Signing)) (by simpa using c101_only) (by simpa using c101_careful) (need := [⟨.field (c! "accept"), []⟩]) (by decide +kernel)
  cases h3 with
  | nil => cases h2
  | @cons _ x _ _ a _ => exact ⟨x, a.1, a.2.2.2.1 _ (by simp)⟩

end Verif
