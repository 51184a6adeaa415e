import Verif.Spec.Replay
import Verif.Props.C101
import Verif.Props.C66
/-!
C102 Messages that are sent again: what the library does, and a receiver that takes every signed message at most once.
-/
namespace Verif
open Sfv Spec

section
variable {look : Replay.Arrival → Option (Str × SigParams)}

/-! ### The memory -/

theorem remember_some {s s' : Replay.Memory} {now : UInt64} {p : SigParams} (h : Replay.remember s now p = some s') :
    ∃ c e, p.nonce = some c ∧ p.expires = some e ∧ (∀ x ∈ s, x.1 ≠ c) ∧ s' = (c, e) :: s.filter (fun x => decide (now ≤ x.2)) := by
  unfold Replay.remember at h
  split at h
  · rename_i c e h1 h2
    split at h
    · cases h
    · rename_i hn
      injection h with h
      refine ⟨c, e, h1, h2, fun x hx hc => hn ?_, h.symm⟩
      rw [List.any_eq_true]
      exact ⟨x, hx, by rw [hc]; exact beq_self_eq_true c⟩
  · cases h

theorem remember_new {s : Replay.Memory} {now : UInt64} {p : SigParams} {c : Str} {e : UInt64} (h1 : p.nonce = some c) (h2 : p.expires = some e)
    (h3 : ∀ x ∈ s, x.1 ≠ c) : Replay.remember s now p = some ((c, e) :: s.filter (fun x => decide (now ≤ x.2))) := by
  unfold Replay.remember
  rw [h1, h2]
  simp only
  rw [if_neg]
  rw [List.any_eq_true]
  rintro ⟨x, hx, hc⟩
  exact h3 x hx (beq_iff_eq.1 hc)

theorem step_cases (s : Replay.Memory) (a : Replay.Arrival) :
    (∃ x c e, look a = some x ∧ x.2.nonce = some c ∧ x.2.expires = some e ∧ (∀ y ∈ s, y.1 ≠ c) ∧
      Replay.step look s a = ((c, e) :: s.filter (fun y => decide (a.now ≤ y.2)), some x)) ∨
    Replay.step look s a = (s, none) := by
  unfold Replay.step
  cases h : look a with
  | none => exact Or.inr rfl
  | some x =>
    simp only
    cases h' : Replay.remember s a.now x.2 with
    | none => exact Or.inr rfl
    | some s' =>
      obtain ⟨c, e, h1, h2, h3, rfl⟩ := remember_some h'
      exact Or.inl ⟨x, c, e, rfl, h1, h2, h3, rfl⟩

/-- Nothing that is taken later has a nonce and an expiry that are remembered. -/
theorem taken_fresh : ∀ (as : List Replay.Arrival) (s : Replay.Memory) (c : Str) (e : UInt64), Replay.Timely look as →
    Replay.Ordered as → ((c, e) ∈ s ∨ ∀ a ∈ as, e < a.now) → ∀ y ∈ Replay.taken look s as, ¬ (y.2.2.nonce = some c ∧ y.2.2.expires = some e) := by
  intro as
  induction as with
  | nil => intro s c e _ _ _ y hy; cases hy
  | cons a t ih =>
    intro s c e hl ho hs y hy
    obtain ⟨ho1, ho2⟩ := List.pairwise_cons.1 ho
    rcases step_cases (look := look) s a with ⟨x, c', e', hx, h1, h2, h3, hst⟩ | hst
    · unfold Replay.taken at hy
      rw [hst] at hy
      simp only at hy
      rcases List.mem_cons.1 hy with rfl | hy
      · rintro ⟨g1, g2⟩
        simp only at g1 g2
        rw [h1] at g1; rw [h2] at g2
        injection g1 with g1; injection g2 with g2
        subst g1; subst g2
        rcases hs with hs | hs
        · exact h3 _ hs rfl
        · exact absurd (hl a (by simp) x hx _ h2) (UInt64.not_le.2 (hs a (by simp)))
      · refine ih _ c e (fun b hb => hl b (by simp [hb])) ho2 ?_ y hy
        rcases hs with hs | hs
        · by_cases hne : a.now ≤ e
          · exact Or.inl (List.mem_cons_of_mem _ (List.mem_filter.2 ⟨hs, by simpa using hne⟩))
          · exact Or.inr fun b hb => UInt64.lt_of_lt_of_le (UInt64.not_le.1 hne) (ho1 b hb)
        · exact Or.inr fun b hb => hs b (by simp [hb])
    · unfold Replay.taken at hy
      rw [hst] at hy
      exact ih _ c e (fun b hb => hl b (by simp [hb])) ho2 (hs.imp_right fun h b hb => h b (by simp [hb])) y hy

/-- C102: if the clock does not go back, no two messages that are taken have the same nonce and the same expiry. This does not depend on keys
or on how messages are made. -/
theorem C102_once (as : List Replay.Arrival) (hl : Replay.Timely look as) (ho : Replay.Ordered as) (s : Replay.Memory) :
    (Replay.taken look s as).Pairwise (fun x y => ¬ (x.2.2.nonce = y.2.2.nonce ∧ x.2.2.expires = y.2.2.expires)) := by
  induction as generalizing s with
  | nil => exact List.Pairwise.nil
  | cons a t ih =>
    obtain ⟨ho1, ho2⟩ := List.pairwise_cons.1 ho
    unfold Replay.taken
    rcases step_cases (look := look) s a with ⟨x, c, e, hx, h1, h2, h3, hst⟩ | hst
    · rw [hst]
      refine List.pairwise_cons.2 ⟨fun y hy => ?_, ih (fun b hb => hl b (by simp [hb])) ho2 _⟩
      rintro ⟨g1, g2⟩
      exact taken_fresh t _ c e (fun b hb => hl b (by simp [hb])) ho2 (Or.inl (by simp)) y hy ⟨by rw [← g1]; exact h1, by rw [← g2]; exact h2⟩
    · rw [hst]; exact ih (fun b hb => hl b (by simp [hb])) ho2 _

theorem taken_mem {as : List Replay.Arrival} {s : Replay.Memory} {y : Replay.Arrival × Str × SigParams} (h : y ∈ Replay.taken look s as) :
    y.1 ∈ as ∧ look y.1 = some y.2 := by
  induction as generalizing s with
  | nil => cases h
  | cons a t ih =>
    unfold Replay.taken at h
    rcases step_cases (look := look) s a with ⟨x, c, e, hx, _, _, _, hst⟩ | hst
    · rw [hst] at h
      rcases List.mem_cons.1 h with rfl | h
      · exact ⟨by simp, hx⟩
      · exact ⟨List.mem_cons_of_mem _ (ih h).1, (ih h).2⟩
    · rw [hst] at h
      exact ⟨List.mem_cons_of_mem _ (ih h).1, (ih h).2⟩

/-- C102: what is remembered belongs to messages that were taken and, at the time when the last one was taken, had not expired. So the memory
needs no more room than the signatures that are valid at the same time. -/
theorem C102_memory (as : List Replay.Arrival) (hl : Replay.Timely look as) :
    (∀ c e, (c, e) ∈ Replay.memory look [] as → (∃ y ∈ Replay.taken look [] as, y.2.2.nonce = some c ∧ y.2.2.expires = some e) ∧
      ∀ y, (Replay.taken look [] as).getLast? = some y → y.1.now ≤ e) ∧
    ((Replay.memory look [] as).map Prod.fst).Nodup := by
  have gen : ∀ (as : List Replay.Arrival) (s : Replay.Memory) (T : List (Replay.Arrival × Str × SigParams)), Replay.Timely look as →
      (∀ c e, (c, e) ∈ s → (∃ y ∈ T, y.2.2.nonce = some c ∧ y.2.2.expires = some e) ∧ ∀ y, T.getLast? = some y → y.1.now ≤ e) →
      (s.map Prod.fst).Nodup →
      (∀ c e, (c, e) ∈ Replay.memory look s as → (∃ y ∈ T ++ Replay.taken look s as, y.2.2.nonce = some c ∧ y.2.2.expires = some e) ∧
        ∀ y, (T ++ Replay.taken look s as).getLast? = some y → y.1.now ≤ e) ∧ ((Replay.memory look s as).map Prod.fst).Nodup := by
    intro as
    induction as with
    | nil => 
      intro s T _ h1 h2
      rw [Replay.memory, Replay.taken, List.append_nil]
      exact ⟨h1, h2⟩
    | cons a t ih =>
      intro s T hl h1 h2
      unfold Replay.memory Replay.taken
      rcases step_cases (look := look) s a with ⟨x, c, e, hx, g1, g2, g3, hst⟩ | hst
      · rw [hst]
        simp only
        have := ih ((c, e) :: s.filter (fun y => decide (a.now ≤ y.2))) (T ++ [(a, x)]) (fun b hb => hl b (by simp [hb])) ?_ ?_
        · rw [List.append_assoc] at this; exact this
        · intro c' e' hm
          rcases List.mem_cons.1 hm with hm | hm
          · injection hm with m1 m2; subst m1; subst m2
            refine ⟨⟨(a, x), by simp, g1, g2⟩, ?_⟩
            intro y hy
            rw [List.getLast?_append_of_ne_nil _ (by simp)] at hy
            cases hy
            exact hl a (by simp) x hx _ g2
          · obtain ⟨hm, hn⟩ := List.mem_filter.1 hm
            obtain ⟨⟨y, hy, y1⟩, _⟩ := h1 c' e' hm
            refine ⟨⟨y, by simp [hy], y1⟩, ?_⟩
            intro y hy
            rw [List.getLast?_append_of_ne_nil _ (by simp)] at hy
            cases hy
            simpa using hn
        · rw [List.map_cons, List.nodup_cons]
          refine ⟨?_, (List.filter_sublist.map _).nodup h2⟩
          intro hm
          obtain ⟨y, hy, hc⟩ := List.mem_map.1 hm
          exact g3 y (List.mem_filter.1 hy).1 hc
      · rw [hst]; exact ih s T (fun b hb => hl b (by simp [hb])) h1 h2
  exact gen as [] [] hl (by simp) (by simp)

/-- C102: nothing else is refused. A message with a nonce and an expiry that passes verification is taken, unless its nonce is that of a message
that was taken before. -/
theorem C102_taken (pre post : List Replay.Arrival) (a : Replay.Arrival) {x : Str × SigParams} {c : Str} {e : UInt64} (hx : look a = some x)
    (h1 : x.2.nonce = some c) (h2 : x.2.expires = some e) (h3 : ∀ y ∈ Replay.taken look [] pre, y.2.2.nonce ≠ some c) :
    ∃ rest, Replay.taken look [] (pre ++ a :: post) = Replay.taken look [] pre ++ (a, x) :: rest := by
  have gen : ∀ (pre : List Replay.Arrival) (s : Replay.Memory), (∀ y ∈ s, y.1 ≠ c) → (∀ y ∈ Replay.taken look s pre, y.2.2.nonce ≠ some c) →
      ∃ rest, Replay.taken look s (pre ++ a :: post) = Replay.taken look s pre ++ (a, x) :: rest := by
    intro pre
    induction pre with
    | nil =>
      intro s hs _
      refine ⟨Replay.taken look ((c, e) :: s.filter (fun y => decide (a.now ≤ y.2))) post, ?_⟩
      have : Replay.step look s a = ((c, e) :: s.filter (fun y => decide (a.now ≤ y.2)), some x) := by
        unfold Replay.step
        rw [hx]
        simp only [remember_new h1 h2 hs]
      have e0 : Replay.taken look s [] = [] := by rw [Replay.taken]
      rw [List.nil_append, e0, List.nil_append]
      conv_lhs => rw [Replay.taken.eq_def]
      simp only [this]
    | cons b t ih =>
      intro s hs ht
      rw [List.cons_append]
      unfold Replay.taken at ht ⊢
      rcases step_cases (look := look) s b with ⟨z, c', e', hz, g1, g2, g3, hst⟩ | hst
      · rw [hst] at ht ⊢
        simp only at ht ⊢
        obtain ⟨rest, hr⟩ := ih ((c', e') :: s.filter (fun y => decide (b.now ≤ y.2)))
          (by
            intro y hy
            rcases List.mem_cons.1 hy with rfl | hy
            · intro hc
              simp only at hc
              subst hc
              exact ht (b, z) (by simp) g1
            · exact hs y (List.mem_filter.1 hy).1)
          (fun y hy => ht y (by simp [hy]))
        exact ⟨rest, by rw [hr]; rfl⟩
      · rw [hst] at ht ⊢
        exact ih s hs ht
  exact gen pre [] (by simp) h3

end

/-! ### Verification -/

theorem report_iff {m : Msg} (hw : WfHeaders m.headers) {n : Str} {x : Str × SigParams} :
    Replay.report m n = some x ↔ ∃ l sh, Carries m.headers l ∧ (n, sh) ∈ l ∧ x = (n, sh.params) := by
  unfold Replay.report
  constructor
  · intro h
    split at h
    · rename_i ps hps
      obtain ⟨l, hl, rfl⟩ := (C49_params hw ps).1 hps
      have h1 := List.find?_some h
      rw [beq_iff_eq] at h1
      obtain ⟨kv, hkv, e⟩ := List.mem_map.1 (List.mem_of_find?_eq_some h)
      subst h1
      rw [← e]
      exact ⟨l, kv.2, hl, hkv, rfl⟩
    · cases h
  · rintro ⟨l, sh, hl, hm, rfl⟩
    rw [(C49_params hw _).2 ⟨l, hl, rfl⟩]
    simp only
    have hn := carries_nodup hl
    clear hl
    induction l with
    | nil => cases hm
    | cons kv t ih =>
      rw [List.map_cons, List.find?_cons]
      rw [List.map_cons, List.nodup_cons] at hn
      rcases List.mem_cons.1 hm with rfl | hm
      · simp
      · have : (kv.1 == n) = false := by
          rw [beq_eq_false_iff_ne]
          rintro rfl
          exact hn.1 (List.mem_map.2 ⟨_, hm, rfl⟩)
        simp only [this]
        exact ih hm hn.2

/-- The headers of a message that arrives, and of its request, are such as crate http makes them. -/
def FineArrival (a : Replay.Arrival) : Prop := WfMsg a.m ∧ ∀ r, a.rf = some r → WfRequest r

theorem fine_headers {a : Replay.Arrival} (h : FineArrival a) : WfHeaders a.m.headers ∧ ∀ r, a.rf = some r → WfHeaders r.headers :=
  ⟨h.1.wfHeaders, fun r hr => (h.2 r hr).headers⟩

theorem plain_iff {k : VerifyingKey} {id : Option Str} {a : Replay.Arrival} (hw : WfHeaders a.m.headers) {x : Str × SigParams} :
    Replay.plain k id a = some x ↔ verifySignature a.now a.m k id a.rf = .ok x.1 ∧ ∃ l sh, Carries a.m.headers l ∧ (x.1, sh) ∈ l ∧ x.2 = sh.params := by
  unfold Replay.plain
  constructor
  · intro h
    split at h
    · rename_i n hn
      obtain ⟨l, sh, h1, h2, rfl⟩ := (report_iff hw).1 h
      exact ⟨hn, l, sh, h1, h2, rfl⟩
    · cases h
  · rintro ⟨h, l, sh, h1, h2, h3⟩
    rw [h]
    exact (report_iff hw).2 ⟨l, sh, h1, h2, Prod.ext rfl h3⟩

theorem careful_plain {k : VerifyingKey} {id : Option Str} {a : Replay.Arrival} (hw : WfHeaders a.m.headers) {x : Str × SigParams}
    (h : Replay.careful k id a = some x) :
    Guard.receive a.now a.m [(k, id)] a.rf = .ok [.ok x.1] ∧ Replay.plain (Guard.key k) id a = some x := by
  unfold Replay.careful at h
  split at h
  · rename_i n hn
    obtain ⟨l, sh, h1, h2, rfl⟩ := (report_iff hw).1 h
    refine ⟨hn, (plain_iff hw).2 ⟨?_, l, sh, h1, h2, rfl⟩⟩
    obtain ⟨_, l', _, qs, hq, e⟩ := (receive_ok hw).1 hn
    have := verifyAll_ok hq
    cases this with
    | @cons _ q _ _ q1 q2 =>
      cases q2
      rw [List.map_cons, List.map_nil] at e
      injection e with e _
      obtain ⟨rfl, _⟩ := accept_ok e.symm
      exact q1
  · cases h

theorem plain_timely {k : VerifyingKey} {id : Option Str} {a : Replay.Arrival} (hw : WfHeaders a.m.headers)
    (hf : ∀ r, a.rf = some r → WfHeaders r.headers) {x : Str × SigParams} (h : Replay.plain k id a = some x) {e : UInt64}
    (he : x.2.expires = some e) : a.now ≤ e := by
  obtain ⟨h1, l, sh, h2, h3, h4⟩ := (plain_iff hw).1 h
  obtain ⟨l', g1, _, l1, sh', l2, g2, ⟨_, _, _, g3, _⟩, _⟩ := (C10_ok_iff hw hf x.1).1 h1
  cases carries_unique hw h2 g1
  have : (x.1, sh) = (x.1, sh') := List.inj_on_of_nodup_map (carries_nodup h2) h3 (by rw [g2]; simp) rfl
  injection this with _ this
  subst this
  exact g3 e (by rw [← h4]; exact he)

/-- C102: verification by the library and by the careful receiver lets nothing pass that has expired. -/
theorem C102_timely (k : VerifyingKey) (id : Option Str) {as : List Replay.Arrival} (hw : ∀ a ∈ as, FineArrival a) :
    Replay.Timely (Replay.plain k id) as ∧ Replay.Timely (Replay.careful k id) as :=
  ⟨fun a ha _ h _ he => plain_timely (fine_headers (hw a ha)).1 (fine_headers (hw a ha)).2 h he,
   fun a ha _ h _ he => plain_timely (fine_headers (hw a ha)).1 (fine_headers (hw a ha)).2 (careful_plain (fine_headers (hw a ha)).1 h).2 he⟩

/-- To a message that is taken there belongs a signing. -/
theorem taken_signed {k : VerifyingKey} (hk : LibraryKey k) {S : Signing → Prop} (hS : OnlySigned k S) (hc : ∀ x, S x → CarefulSigning x)
    (id : Option Str) {as : List Replay.Arrival} (hw : ∀ a ∈ as, FineArrival a) :
    ∀ z ∈ Replay.taken (Replay.careful k id) [] as, ∃ y, S y ∧ y.p = z.2.2 ∧
      ∀ i ∈ y.p.covered, ∃ v, HasValue z.1.m z.1.rf i v ∧ HasValue y.m y.rf i v := by
  intro z hz
  obtain ⟨hz, hl⟩ := taken_mem hz
  obtain ⟨hm, hf⟩ := hw _ hz
  obtain ⟨h1, h2⟩ := careful_plain hm.wfHeaders hl
  obtain ⟨_, l, sh, c1, c2, c3⟩ := (plain_iff hm.wfHeaders).1 h2
  have hb := C101_bound hm hf h1
  cases hb with
  | cons hb _ =>
    obtain ⟨l', sh', c1', c2', y, hy, hp, hv⟩ := hb _ rfl hk S hS hc
    cases carries_unique hm.wfHeaders c1 c1'
    have : (z.2.1, sh) = (z.2.1, sh') := List.inj_on_of_nodup_map (carries_nodup c1) c2 c2' rfl
    injection this with _ this
    subst this
    exact ⟨y, hy, by rw [hp, c3], fun i hi => (hv i (by rw [← hp]; exact hi)).1⟩

/-- C102: every signing is taken at most once. If the key accepts only what a careful holder signed and the clock does not go back, then to the
messages that are taken there belong, in order, signings that are all different: each with exactly the parameters of the message, and the same
values of the covered components. -/
theorem C102_injective {k : VerifyingKey} (hk : LibraryKey k) {S : Signing → Prop} (hS : OnlySigned k S) (hc : ∀ x, S x → CarefulSigning x)
    (id : Option Str) {as : List Replay.Arrival} (hw : ∀ a ∈ as, FineArrival a) (ho : Replay.Ordered as) :
    ∃ ys : List Signing, ys.Nodup ∧ List.Forall₂ (fun (z : Replay.Arrival × Str × SigParams) y => S y ∧ y.p = z.2.2 ∧
      ∀ i ∈ y.p.covered, ∃ v, HasValue z.1.m z.1.rf i v ∧ HasValue y.m y.rf i v) (Replay.taken (Replay.careful k id) [] as) ys := by
  have key := taken_signed hk hS hc id hw
  have once := C102_once as (C102_timely k id hw).2 ho []
  revert key once
  generalize Replay.taken (Replay.careful k id) [] as = T
  intro key once
  induction T with
  | nil => exact ⟨[], List.nodup_nil, .nil⟩
  | cons z t ih =>
    obtain ⟨h1, h2⟩ := List.pairwise_cons.1 once
    obtain ⟨ys, g1, g2⟩ := ih (fun z hz => key z (by simp [hz])) h2
    obtain ⟨y, hy⟩ := key z (by simp)
    refine ⟨y :: ys, List.nodup_cons.2 ⟨fun hm => ?_, g1⟩, .cons hy g2⟩
    obtain ⟨z', hz', hy'⟩ := forall₂_mem_right g2 y hm
    exact h1 z' hz' (by rw [← hy.2.1, ← hy'.2.1]; exact ⟨rfl, rfl⟩)

/-- C102: the library takes the same message again and again, until the signature expires, and for ever if it does not. -/
theorem C102_again {k : VerifyingKey} {id : Option Str} {now now' : UInt64} {m : Msg} {rf : Option Request} (hw : WfHeaders m.headers)
    (hf : ∀ r, rf = some r → WfHeaders r.headers) {n : Str} (h : verifySignature now m k id rf = .ok n) (hl : now ≤ now')
    (he : ∀ l sh, Carries m.headers l → (n, sh) ∈ l → ∀ e, sh.params.expires = some e → now' ≤ e) :
    verifySignature now' m k id rf = .ok n := by
  obtain ⟨l, h1, h2, l1, sh, l2, h3, ⟨t, a1, a2, a3, a4⟩, h5⟩ := (C10_ok_iff hw hf n).1 h
  refine (C10_ok_iff hw hf n).2 ⟨l, h1, ?_, l1, sh, l2, h3, ⟨t, a1, a2, he l sh h1 (by rw [h3]; simp), a4⟩, ?_⟩
  · rintro kv hkv ⟨t, b1, b2, b3, b4⟩
    exact h2 kv hkv ⟨t, b1, b2, fun e he => UInt64.le_trans hl (b3 e he), b4⟩
  · rintro kv hkv ⟨t, b1, b2, b3, b4⟩
    exact h5 kv hkv ⟨t, b1, b2, fun e he => UInt64.le_trans hl (b3 e he), b4⟩

/-- C102: what a careful sender signs with a nonce and an expiry passes the verification of the receiver, with these parameters. With
`C102_taken` it is taken if the nonce is new. -/
theorem C102_honest {sk : SigningKey} {vk : VerifyingKey} (hk : KeyPair sk vk) (hlk : LibraryKey vk) {m : Msg} {rf : Option Request}
    (hw : WfHeaders m.headers) (hf : ∀ r, rf = some r → WfHeaders r.headers)
    (h0 : fieldLines m.headers (c! "signature-input") = []) (h0' : fieldLines m.headers (c! "signature") = []) {p : SigParams} (hself : NotSelf p)
    {now : UInt64} (ht : ∀ e, p.expires = some e → now ≤ e) {name : Option Str} {h' : Headers} (h : Guard.send m [(p, sk, name)] rf = (h', .ok ())) :
    Replay.careful vk p.keyid ⟨now, m.withHeaders h', rf⟩ = some (name.getD (c! "sig"), p) := by
  obtain ⟨ns, h1, h2⟩ := C101_round_trip (now := now) hw hf h0 h0' [((p, sk, name), vk)] (by simp) (by simpa using hk) (by simpa using hlk)
    (by simpa using hself) (by simpa using ht) (by simpa using h)
  cases h2 with
  | @cons _ n _ _ g1 g2 =>
    cases g2
    obtain ⟨y, hy, hn, _⟩ := g1
    rw [List.mem_singleton] at hy
    subst hy
    subst hn
    obtain ⟨hS, hs, h3, rfl⟩ := (C101_sends hw hf _ h').1 h
    have hcar := C04_signed hw hf (Or.inl ⟨h0, h0', rfl⟩) (l := [(p, sk, name)]) (by simp) hS.safe
      ((setSignatures_ok hw hf _ _).2 ⟨hs, h3, (fun sh hsh => by
        rw [hvOfStr_printable (safe_input_printable (signed_safe h3 hS.safe sh hsh))]; rfl), rfl⟩)
    obtain ⟨hs', h4, hc⟩ := hcar
    cases h4 with
    | @cons _ sh _ _ s1 s2 =>
      cases s2
      have e : (m.withHeaders (m.headers ++ hs.flatMap sigLines)).headers = m.headers ++ hs.flatMap sigLines := by cases m <;> rfl
      unfold Replay.careful
      simp only [List.map_cons, List.map_nil] at h1
      rw [h1]
      simp only
      refine (report_iff (by rw [e]; exact wf_sigLines hw hs)).2 ⟨_, sh, by rw [e]; exact hc, ?_, ?_⟩
      · simp only [List.foldl_cons, List.foldl_nil]
        have hn : sh.name = Signer.label (p, sk, name) := s1.name
        simp [putIn, hn]
      · rw [s1.params]; rfl

/-! ### What does not work -/

/-- A key that accepts a second signature for what it accepts: beside every signed message there is another one, which differs only in the
octets of the signature and is accepted too. -/
theorem second_message {sk : SigningKey} {vk : VerifyingKey} (hk : KeyPair sk vk)
    (h2 : ∀ d s, vk.verify d s = .ok () → ∃ s', s' ≠ s ∧ vk.verify d s' = .ok ()) {m : Msg} {rf : Option Request}
    (hw : WfHeaders m.headers) (hf : ∀ r, rf = some r → WfHeaders r.headers)
    (h0 : fieldLines m.headers (c! "signature-input") = []) (h0' : fieldLines m.headers (c! "signature") = []) {p : SigParams} (hp : SafeParams p)
    (hself : NotSelf p) {name : Option Str} (hn : LegalKey (name.getD (c! "sig"))) {now : UInt64} (ht : ∀ e, p.expires = some e → now ≤ e)
    {h' : Headers} (h : setSignature m p sk name rf = (h', .ok ())) :
    ∃ s s' h'', s' ≠ s ∧ Carries h' [(name.getD (c! "sig"), ⟨name.getD (c! "sig"), s, p⟩)] ∧
      Carries h'' [(name.getD (c! "sig"), ⟨name.getD (c! "sig"), s', p⟩)] ∧
      (∀ f, lower f ≠ c! "signature" → fieldLines h'' f = fieldLines h' f) ∧
      verifySignature now (m.withHeaders h') vk p.keyid rf = .ok (name.getD (c! "sig")) ∧
      verifySignature now (m.withHeaders h'') vk p.keyid rf = .ok (name.getD (c! "sig")) := by
  obtain ⟨hs, h1, _, rfl⟩ := (setSignatures_ok hw hf [(p, sk, name)] h').1 h
  cases h1 with
  | @cons _ sh _ _ s1 s2 =>
    cases s2
    obtain ⟨n', s, p'⟩ := sh
    obtain ⟨e1, e2, t, b1, b2⟩ := s1
    simp only at e1 e2 b1 b2
    subst e2
    change n' = name.getD (c! "sig") at e1
    subst e1
    have hv := hk _ _ b2
    obtain ⟨s', hne, hv'⟩ := h2 _ _ hv
    have carries : ∀ u, Carries (m.headers ++ [(⟨name.getD (c! "sig"), u, p'⟩ : SigHeaders)].flatMap sigLines)
        [(name.getD (c! "sig"), ⟨name.getD (c! "sig"), u, p'⟩)] := by
      intro u
      have := hasSignatures_putAll (h := m.headers) (l := []) (hs := [⟨name.getD (c! "sig"), u, p'⟩]) (Or.inl ⟨h0, h0', rfl⟩) (by
        intro sh hsh; rw [List.mem_singleton] at hsh; subst hsh; exact ⟨hn, hp⟩)
      rcases this with ⟨h2, _, _⟩ | ⟨h2, _⟩
      · rw [fieldLines_append, fieldLines_sigLines_input] at h2
        simp at h2
      · simpa [putIn] using h2
    have accepted : ∀ u, vk.verify (utf8 t) u = .ok () →
        verifySignature now (m.withHeaders (m.headers ++ [(⟨name.getD (c! "sig"), u, p'⟩ : SigHeaders)].flatMap sigLines)) vk p'.keyid rf =
          .ok (name.getD (c! "sig")) := by
      intro u hu
      have e : ∀ hd, (m.withHeaders hd).headers = hd := by intro hd; cases m <;> rfl
      have base : ∀ x, BaseOf (m.withHeaders (m.headers ++ [(⟨name.getD (c! "sig"), u, p'⟩ : SigHeaders)].flatMap sigLines)) rf p' x ↔ BaseOf m rf p' x :=
        base_after hself hw hf _
      refine (C10_ok_iff (by rw [e]; exact wf_sigLines hw _) hf _).2 ⟨[(name.getD (c! "sig"), ⟨name.getD (c! "sig"), u, p'⟩)],
        by rw [e]; exact carries u, ?_, [], ⟨name.getD (c! "sig"), u, p'⟩, [], rfl, ⟨t, (base t).2 b1, fun i hi => hi, ht, hu⟩, by simp⟩
      intro kv hkv
      rw [List.mem_singleton] at hkv
      subst hkv
      rintro ⟨t', c1, _, _, c2⟩
      simp only at c1 c2
      have : t' = t := by
        obtain ⟨b, hb, rfl⟩ := (buildBase_spec hw hf t').2 ((base t').1 c1)
        obtain ⟨b', hb', rfl⟩ := (buildBase_spec hw hf t).2 b1
        rw [hb] at hb'; injection hb' with hb'; rw [hb']
      subst this
      rw [hu] at c2; cases c2
    refine ⟨s, s', m.headers ++ [(⟨name.getD (c! "sig"), s', p'⟩ : SigHeaders)].flatMap sigLines, hne, carries s, carries s', ?_, accepted s hv, accepted s' hv'⟩
    intro f hf
    rw [fieldLines_append, fieldLines_append]
    congr 1
    by_cases h3 : lower f = c! "signature-input"
    · have e : ∀ hd : Headers, fieldLines hd f = fieldLines hd (c! "signature-input") := by
        intro hd; unfold fieldLines; rw [h3]; rfl
      rw [e, e, fieldLines_sigLines_input, fieldLines_sigLines_input]; rfl
    · rw [fieldLines_sigLines_other _ hf h3, fieldLines_sigLines_other _ hf h3]

/-- C102: remembering the octets of signatures instead of nonces is of no use with ECDSA. Beside every message that is signed for such a key there
is another one that differs only in these octets and is accepted too. -/
theorem C102_signature_octets (L : Libs) (rsa : Bool) {alg : Alg} (ha : alg = .ecdsaP256Sha256 ∨ alg = .ecdsaP384Sha384) {b : Bytes}
    {pk : PublicKey L.prims} (hpk : PublicKey.fromBytes rsa alg b = .ok pk) {sk : SigningKey} (hk : KeyPair sk pk.verifying)
    {m : Msg} {rf : Option Request} (hw : WfHeaders m.headers) (hf : ∀ r, rf = some r → WfHeaders r.headers)
    (h0 : fieldLines m.headers (c! "signature-input") = []) (h0' : fieldLines m.headers (c! "signature") = []) {p : SigParams} (hp : SafeParams p)
    (hself : NotSelf p) {name : Option Str} (hn : LegalKey (name.getD (c! "sig"))) {now : UInt64} (ht : ∀ e, p.expires = some e → now ≤ e)
    {h' : Headers} (h : setSignature m p sk name rf = (h', .ok ())) :
    ∃ s s' h'', s' ≠ s ∧ Carries h' [(name.getD (c! "sig"), ⟨name.getD (c! "sig"), s, p⟩)] ∧
      Carries h'' [(name.getD (c! "sig"), ⟨name.getD (c! "sig"), s', p⟩)] ∧
      (∀ f, lower f ≠ c! "signature" → fieldLines h'' f = fieldLines h' f) ∧
      verifySignature now (m.withHeaders h') pk.verifying p.keyid rf = .ok (name.getD (c! "sig")) ∧
      verifySignature now (m.withHeaders h'') pk.verifying p.keyid rf = .ok (name.getD (c! "sig")) := by
  refine second_message hk ?_ hw hf h0 h0' hp hself hn ht h
  intro d s hs
  rcases ha with rfl | rfl
  · obtain ⟨s', h1, _, _, h2⟩ := C66_p256_second_signature L rsa hpk hs
    exact ⟨s', h1, h2⟩
  · obtain ⟨s', h1, _, _, h2⟩ := C66_p384_second_signature L rsa hpk hs
    exact ⟨s', h1, h2⟩

/-- What a holder signed once. -/
def c102Signing : Signing where
  m := .req exReq
  rf := none
  p := { expires := some 100, nonce := some (c! "a"), alg := some (c! "b"), keyid := some (c! "k"), covered := [⟨.derived .method, []⟩] }

def c102Text : Str := c! "\"@method\": POST\n\"@signature-params\": (\"@method\");expires=100;nonce=\"a\";alg=\"b\";keyid=\"k\""

/-- A key of the library, over a scheme that accepts nothing but this base. -/
def c102Key : VerifyingKey :=
  PublicKey.verifying (P := { toyPrims with p256 := { toyScheme 64 with verify := fun _ d _ => d == utf8 c102Text } }) (.ecdsaP256Sha256 ([1] : Bytes))

/-- A message with this text after the components in Signature-Input. -/
def c102Arrival (now : UInt64) (params : Str) : Replay.Arrival where
  now := now
  m := .req { exReq with headers := [(c! "signature-input", utf8 (c! "sig=(\"@method\")" ++ params)),
    (c! "signature", utf8 (c! "sig=:" ++ Base64.encode (List.replicate 64 1) ++ [':']))] }

theorem c102_fine (now : UInt64) (params : Str) : FineArrival (c102Arrival now params) := by
  refine ⟨exWf _ ?_, by intro r h; cases h⟩
  intro kv hkv
  simp only [List.mem_cons, List.not_mem_nil, or_false] at hkv
  rcases hkv with rfl | rfl
  · exact (⟨by decide, by decide, by decide⟩ : WfName (c! "signature-input"))
  · exact (⟨by decide, by decide, by decide⟩ : WfName (c! "signature"))

theorem c102_careful : CarefulSigning c102Signing where
  msg := exWf _ exReq_wf
  req := by intro r h; cases h
  safe := (C101_params _).1 (by decide +kernel)
  here := by decide +kernel

theorem c102_only : OnlySigned c102Key (· = c102Signing) := by
  intro d s h
  refine ⟨_, rfl, c102Text, ?_, ?_⟩
  · exact (buildBase_spec (m := c102Signing.m) exReq_wf (by intro r h; cases h) c102Text).1
      ⟨⟨[⟨⟨.derived .method, []⟩, .plain (c! "POST")⟩], c102Signing.p⟩, by decide, by decide +kernel⟩
  · unfold c102Key at h
    simp only [PublicKey.verifying, PublicKey.verify] at h
    split at h
    · cases h
    · simp only [verifyRes, toyScheme] at h
      split at h
      · rename_i e
        exact beq_iff_eq.1 e
      · cases h

/-- The message as it was sent. -/
def c102Sent (now : UInt64) : Replay.Arrival := c102Arrival now (c! ";expires=100;nonce=\"a\";alg=\"b\";keyid=\"k\"")

/-- The same with the text of `alg` moved into the nonce by means of backslashes. The signature base is the same text. -/
def c102Forged (now : UInt64) : Replay.Arrival := c102Arrival now (c! ";expires=100;nonce=\"a\\\";alg=\\\"b\";keyid=\"k\"")

set_option maxRecDepth 20000 in
/-- C102: nonces are of no use with the library alone, without the check for backslashes. A careful holder signed once, with a nonce, an expiry
and a key id, and both messages are taken, with different nonces; the careful receiver takes the first only. -/
theorem C102_escapes : ∃ (vk : VerifyingKey) (x : Signing) (a b : Replay.Arrival), LibraryKey vk ∧ OnlySigned vk (· = x) ∧ CarefulSigning x ∧
    FineArrival a ∧ FineArrival b ∧ Replay.Ordered [a, b] ∧
    (Replay.taken (Replay.plain vk x.p.keyid) [] [a, b]).map (fun z => z.2.2.nonce) = [some (c! "a"), some (c! "a\";alg=\"b")] ∧
    (Replay.taken (Replay.careful vk x.p.keyid) [] [a, b]).map (fun z => z.2.2.nonce) = [some (c! "a")] :=
  ⟨c102Key, c102Signing, c102Sent 50, c102Forged 60, .ofPublic _, c102_only, c102_careful, c102_fine _ _, c102_fine _ _,
    List.pairwise_pair.2 (by decide), by decide +kernel, by decide +kernel⟩

/-- A key that accepts everything. -/
def c102Any : VerifyingKey := ⟨fun _ _ => .ok (), c! "k", .ed25519⟩

set_option maxRecDepth 20000 in
/-- C102: the clock must not go back. Otherwise a message is taken again after it was forgotten. -/
theorem C102_clock : ∃ (vk : VerifyingKey) (as : List Replay.Arrival), (∀ a ∈ as, FineArrival a) ∧
    (Replay.taken (Replay.careful vk none) [] as).map (fun z => (z.2.2.nonce, z.2.2.expires)) =
      [(some (c! "a"), some 100), (some (c! "z"), some 300), (some (c! "a"), some 100)] :=
  ⟨c102Any, [c102Sent 50, c102Arrival 200 (c! ";expires=300;nonce=\"z\""), c102Sent 60],
    by intro a ha; simp only [List.mem_cons, List.not_mem_nil, or_false] at ha; rcases ha with rfl | rfl | rfl <;> exact c102_fine _ _,
    by decide +kernel⟩

/-! ### Cases -/

set_option maxRecDepth 20000 in
-- a message that is sent three times is taken once; after its expiry, when it was forgotten, it is refused as expired
example : (Replay.taken (Replay.careful c102Any none) [] [c102Sent 50, c102Sent 51, c102Arrival 200 (c! ";expires=300;nonce=\"z\""), c102Sent 201]).map
    (fun z => (z.1.now, z.2.2.nonce)) = [(50, some (c! "a")), (200, some (c! "z"))] := by decide +kernel
set_option maxRecDepth 20000 in
example : Replay.memory (Replay.careful c102Any none) [] [c102Sent 50, c102Sent 51, c102Arrival 200 (c! ";expires=300;nonce=\"z\""), c102Sent 201] =
    [(c! "z", 300)] := by decide +kernel
set_option maxRecDepth 20000 in
-- without a nonce or without an expiry nothing is taken
example : (Replay.taken (Replay.careful c102Any none) [] [c102Arrival 0 (c! ";expires=300"), c102Arrival 0 (c! ";nonce=\"z\"")]).length = 0 := by
  decide +kernel

set_option maxRecDepth 20000 in
-- the library alone takes it every time
example (now : UInt64) (h : 50 ≤ now) (h' : now ≤ 100) : verifySignature now (c102Sent 50).m c102Any none none = .ok (c! "sig") := by
  refine C102_again (now := 50) (c102_fine 50 _).1.wfHeaders (by intro r h; cases h) (by decide +kernel) h ?_
  intro l sh hl hm e he
  have h1 := (extractSignatureHeaders_ok (m := (c102Sent 50).m) (c102_fine 50 _).1.wfHeaders l).2 hl
  have h2 : extractSignatureHeaders (c102Sent 50).m = .ok [(c! "sig", ⟨c! "sig", List.replicate 64 1, c102Signing.p⟩)] := by decide +kernel
  rw [h2] at h1
  injection h1 with h1
  subst h1
  rw [List.mem_singleton] at hm
  injection hm with _ hm
  subst hm
  injection he with he
  subst he
  exact h'

-- the theorem on signings, for the message and the forged one
example : ∃ ys : List Signing, ys.Nodup ∧ (∀ y ∈ ys, y = c102Signing) ∧
    (Replay.taken (Replay.careful c102Key (some (c! "k"))) [] [c102Sent 50, c102Forged 60, c102Sent 70]).length = ys.length := by
  obtain ⟨ys, h1, h2⟩ := C102_injective (.ofPublic _ : LibraryKey c102Key) c102_only (by rintro x rfl; exact c102_careful) (some (c! "k"))
    (as := [c102Sent 50, c102Forged 60, c102Sent 70])
    (by intro a ha; simp only [List.mem_cons, List.not_mem_nil, or_false] at ha; rcases ha with rfl | rfl | rfl <;> exact c102_fine _ _)
    (by
      simp only [Replay.Ordered, List.pairwise_cons, List.mem_cons, List.not_mem_nil, or_false, forall_eq_or_imp, forall_eq]
      exact ⟨⟨by decide, by decide⟩, by decide, (fun _ h => h.elim), .nil⟩)
  refine ⟨ys, h1, fun y hy => ?_, h2.length_eq⟩
  obtain ⟨z, _, hz, _⟩ := forall₂_mem_right h2 y hy
  exact hz

set_option maxRecDepth 20000 in
theorem c102_p256_signed : (setSignature (.req exReq) c102Signing.p (one256.signing []) none none).2 = .ok () := by decide +kernel

-- a message signed with a P-256 key, and one that differs only in the octets of the signature
example : ∃ h' s s' h'', setSignature (.req exReq) c102Signing.p (one256.signing []) none none = (h', .ok ()) ∧ s' ≠ s ∧
    Carries h' [(c! "sig", ⟨c! "sig", s, c102Signing.p⟩)] ∧ Carries h'' [(c! "sig", ⟨c! "sig", s', c102Signing.p⟩)] := by
  have hk : KeyPair (one256.signing []) (PublicKey.ecdsaP256Sha256 (P := libsOne.prims) Ec.p256.g).verifying := by
    rw [← one256_public]; exact C66_p256_sign_verify libsOne _ []
  obtain ⟨h', hh⟩ : ∃ h', setSignature (.req exReq) c102Signing.p (one256.signing []) none none = (h', .ok ()) := by
    have h := c102_p256_signed
    generalize setSignature (.req exReq) c102Signing.p (one256.signing []) none none = x at h
    exact ⟨x.1, by rw [← h]⟩
  obtain ⟨s, s', h'', h1, h2, h3, _⟩ := C102_signature_octets libsOne true (Or.inl rfl) base256_key hk (m := .req exReq) (rf := none) exReq_wf
    (by simp) (by decide) (by decide) c102_careful.safe
    (by
      intro i hi _
      simp only [c102Signing, List.mem_cons, List.not_mem_nil, or_false] at hi
      subst hi
      exact ⟨by simp, by simp⟩)
    (name := none) (by decide) (now := 7) (by intro e he; injection he with he; subst he; decide) hh
  exact ⟨_, s, s', h'', hh, h1, h2, h3⟩

def c102P256 : VerifyingKey := (PublicKey.ecdsaP256Sha256 (P := toyPrims) [1]).verifying

set_option maxRecDepth 20000 in
theorem c102_guard_sent : Guard.send (.req exReq) [(c102Signing.p, (SecretKey.ecdsaP256Sha256 (P := toyPrims) [1]).signing [], none)] none =
    ((Guard.send (.req exReq) [(c102Signing.p, (SecretKey.ecdsaP256Sha256 (P := toyPrims) [1]).signing [], none)] none).1, .ok ()) := by decide +kernel

-- what the careful sender signs is taken after any messages with other nonces
example (now : UInt64) (hn : now ≤ 100) (pre : List Replay.Arrival)
    (hp : ∀ y ∈ Replay.taken (Replay.careful c102P256 (some (c! "k"))) [] pre, y.2.2.nonce ≠ some (c! "a")) :
    (Replay.taken (Replay.careful c102P256 (some (c! "k"))) [] (pre ++ [⟨now, (Msg.req exReq).withHeaders
      (Guard.send (.req exReq) [(c102Signing.p, (SecretKey.ecdsaP256Sha256 (P := toyPrims) [1]).signing [], none)] none).1, none⟩])).length >
    (Replay.taken (Replay.careful c102P256 (some (c! "k"))) [] pre).length := by
  have h := C102_honest (vk := c102P256) (now := now) (m := .req exReq) (rf := none) (toy_secret_pair (.ecdsaP256Sha256 [1]) []) (.ofPublic _) exReq_wf (by simp) (by decide) (by decide)
    (p := c102Signing.p)
    (by
      intro i hi _
      simp only [c102Signing, List.mem_cons, List.not_mem_nil, or_false] at hi
      subst hi
      exact ⟨by simp, by simp⟩)
    (by intro e he; injection he with he; subst he; exact hn) c102_guard_sent
  obtain ⟨rest, hr⟩ := C102_taken pre [] _ h rfl rfl hp
  have e : c102Signing.p.keyid = some (c! "k") := rfl
  rw [e] at hr
  rw [hr]
  simp

end Verif
