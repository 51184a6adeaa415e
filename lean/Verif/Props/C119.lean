import Verif.Spec.Phases
import Verif.Props.C100
import Verif.Props.C65
/-! C119: how the answer to one message changes with time. -/
namespace Verif
open Spec Phases

section
variable {m : Msg} {rf : Option Request} {k : VerifyingKey} {id : Option Str} {l : List (Str × SigHeaders)}

theorem inTime_iff {now : UInt64} {h : SigHeaders} : InTime now h ↔ now.toNat < ends h := by
  unfold InTime ends
  cases h.params.expires with
  | none => simpa using now.toNat_lt
  | some e =>
    simp only [Option.some.injEq, forall_eq']
    rw [UInt64.le_iff_toNat_le]
    omega

theorem ends_pos (h : SigHeaders) : 0 < ends h := by
  unfold ends
  split <;> omega

theorem accepts_says {now : UInt64} {h : SigHeaders} : Accepts now m rf k id h ↔ Says m rf k id (.ok ()) h ∧ now.toNat < ends h := by
  unfold Accepts Says
  rw [← inTime_iff]
  constructor
  · rintro ⟨t, h1, h2, h3, h4⟩
    exact ⟨⟨h2, t, wireBaseOf_iff.2 h1, h4⟩, h3⟩
  · rintro ⟨⟨h2, t, h1, h4⟩, h3⟩
    exact ⟨t, wireBaseOf_iff.1 h1, h2, h3, h4⟩

theorem crashes_says {now : UInt64} {h : SigHeaders} : Crashes now m rf k id h ↔ Says m rf k id .panic h ∧ now.toNat < ends h := by
  unfold Crashes Says
  rw [← inTime_iff]
  constructor
  · rintro ⟨t, h1, h2, h3, h4⟩
    exact ⟨⟨h2, t, wireBaseOf_iff.2 h1, h4⟩, h3⟩
  · rintro ⟨⟨h2, t, h1, h4⟩, h3⟩
    exact ⟨t, wireBaseOf_iff.1 h1, h2, h3, h4⟩

theorem candidate_says {h : SigHeaders} : Candidate m rf id h ↔ ∃ a, Says m rf k id a h := by
  unfold Candidate Says
  constructor
  · rintro ⟨⟨t, h1⟩, h2⟩
    exact ⟨_, h2, t, wireBaseOf_iff.2 h1, rfl⟩
  · rintro ⟨_, h2, t, h1, _⟩
    exact ⟨⟨t, wireBaseOf_iff.1 h1⟩, h2⟩

/-- C119: there is exactly one latest end. -/
theorem C119_last_end (q : SigHeaders → Prop) (l : List (Str × SigHeaders)) : ∃! t, LastEnd q l t := by
  have ex : ∃ t, LastEnd q l t := by
    induction l with
    | nil => exact ⟨0, by simp, by simp⟩
    | cons kv l ih =>
      obtain ⟨t, h1, h2⟩ := ih
      by_cases hq : q kv.2 ∧ t < ends kv.2
      · refine ⟨ends kv.2, ?_, fun _ => ⟨kv, by simp, hq.1, rfl⟩⟩
        intro x hx hqx
        rcases List.mem_cons.1 hx with rfl | hx
        · exact le_refl _
        · exact (h1 x hx hqx).trans hq.2.le
      · refine ⟨t, ?_, fun ht => ?_⟩
        · intro x hx hqx
          rcases List.mem_cons.1 hx with rfl | hx
          · exact not_lt.1 fun h => hq ⟨hqx, h⟩
          · exact h1 x hx hqx
        · obtain ⟨x, hx, h⟩ := h2 ht
          exact ⟨x, List.mem_cons_of_mem _ hx, h⟩
  obtain ⟨t, ht⟩ := ex
  refine ⟨t, ht, ?_⟩
  have le : ∀ {a b}, LastEnd q l a → LastEnd q l b → a ≤ b := by
    intro a b ha hb
    by_cases h0 : a = 0
    · omega
    · obtain ⟨kv, h1, h2, h3⟩ := ha.2 h0
      rw [← h3]; exact hb.1 kv h1 h2
  exact fun t' ht' => le_antisymm (le ht' ht) (le ht ht')

theorem lastEnd_lt {q : SigHeaders → Prop} {t : Nat} (h : LastEnd q l t) (n : Nat) : (∃ kv ∈ l, q kv.2 ∧ n < ends kv.2) ↔ n < t := by
  constructor
  · rintro ⟨kv, h1, h2, h3⟩
    exact h3.trans_le (h.1 kv h1 h2)
  · intro hn
    obtain ⟨kv, h1, h2, h3⟩ := h.2 (by omega)
    exact ⟨kv, h1, h2, by omega⟩

/-- C119: the answers to a message come in three phases, each of which may be empty. First verification panics, until the last signature on which the
key panics is too old. Then it succeeds, until the last signature that the key accepts is too old. Then it fails for ever, with the same error. -/
theorem C119_phases (hw : WfHeaders m.headers) (hf : ∀ r, rf = some r → WfHeaders r.headers) (hl : Wire.Carries m.headers l) {p t : Nat}
    (hp : LastEnd (Says m rf k id .panic) l p) (ht : LastEnd (Says m rf k id (.ok ())) l t) (now : UInt64) :
    (verifySignature now m k id rf = .panic ↔ now.toNat < p) ∧
    ((∃ n, verifySignature now m k id rf = .ok n) ↔ p ≤ now.toNat ∧ now.toNat < t) ∧
    ((∃ e, verifySignature now m k id rf = .err e) ↔ p ≤ now.toNat ∧ t ≤ now.toNat) ∧
    ∀ e, verifySignature now m k id rf = .err e →
      e = .invalidSignature ∧ (∃ kv ∈ l, ∃ a, Says m rf k id a kv.2) ∨ e = .noSignatureHeaders ∧ ¬ ∃ kv ∈ l, ∃ a, Says m rf k id a kv.2 := by
  have hl' := wireCarries_iff.1 hl
  have e : verifySignature now m k id rf = verifyOne now (l.filterMap (entryOf m rf)) k id := by
    rw [verifySignature_eq, (extractSignatureHeaders_ok hw l).2 hl']; rfl
  obtain ⟨c1, c2, c3, c4, c5⟩ := verifyOne_cases (now := now) (k := k) (id := id) hw hf l
  simp only [← e] at c1 c2 c3 c4 c5
  have d1 : verifySignature now m k id rf = .panic ↔ now.toNat < p := by
    rw [c1, ← lastEnd_lt hp]; simp only [crashes_says]
  have d2 : (∃ n, verifySignature now m k id rf = .ok n) ↔ p ≤ now.toNat ∧ now.toNat < t := by
    rw [← lastEnd_lt ht, ← not_lt, ← d1, c1]
    simp only [c2, exists_and_left, firstWith_exists, accepts_says, not_exists, not_and]
  refine ⟨d1, d2, ?_, ?_⟩
  · constructor
    · rintro ⟨er, he⟩
      have n1 : ¬ now.toNat < p := fun h => by rw [d1.2 h] at he; cases he
      refine ⟨not_lt.1 n1, not_lt.1 fun h => ?_⟩
      obtain ⟨n, hn⟩ := d2.2 ⟨not_lt.1 n1, h⟩
      rw [hn] at he; cases he
    · rintro ⟨h1, h2⟩
      cases hr : verifySignature now m k id rf with
      | err er => exact ⟨er, rfl⟩
      | panic => have := d1.1 hr; omega
      | ok n => have := d2.1 ⟨n, hr⟩; omega
  · intro er he
    have hc : (∃ kv ∈ l, ∃ a, Says m rf k id a kv.2) ↔ ∃ kv ∈ l, Candidate m rf id kv.2 := by simp only [candidate_says (k := k)]
    rcases c5 er he with rfl | rfl
    · right
      refine ⟨rfl, ?_⟩
      rw [hc]
      rintro ⟨kv, h1, h2⟩
      exact c3.1 he kv h1 h2
    · left
      exact ⟨rfl, hc.2 (c4.1 he).2.1⟩

/-- C119: during the second phase the name is that of the first signature that the key accepts and that is not yet too old. -/
theorem C119_name (hw : WfHeaders m.headers) (hf : ∀ r, rf = some r → WfHeaders r.headers) (hl : Wire.Carries m.headers l) {p : Nat}
    (hp : LastEnd (Says m rf k id .panic) l p) (now : UInt64) (n : Str) :
    verifySignature now m k id rf = .ok n ↔
      p ≤ now.toNat ∧ ∃ l1 h l2, l = l1 ++ (n, h) :: l2 ∧ Says m rf k id (.ok ()) h ∧ now.toNat < ends h ∧
        ∀ kv ∈ l1, Says m rf k id (.ok ()) kv.2 → ends kv.2 ≤ now.toNat := by
  have hl' := wireCarries_iff.1 hl
  rw [C10_ok_iff hw hf, ← not_lt, ← lastEnd_lt hp]
  constructor
  · rintro ⟨l', h1, h2, l1, h, l2, e, h3, h4⟩
    cases carries_unique hw hl' h1
    refine ⟨?_, l1, h, l2, e, (accepts_says.1 h3).1, (accepts_says.1 h3).2, fun kv hkv hs => not_lt.1 fun hn => h4 kv hkv (accepts_says.2 ⟨hs, hn⟩)⟩
    rintro ⟨kv, h5, h6⟩
    exact h2 kv h5 (crashes_says.2 h6)
  · rintro ⟨h0, l1, h, l2, e, h1, h2, h3⟩
    refine ⟨l, hl', fun kv hkv hc => h0 ⟨kv, hkv, crashes_says.1 hc⟩, l1, h, l2, e, accepts_says.2 ⟨h1, h2⟩, fun kv hkv ha => ?_⟩
    have := h3 kv hkv (accepts_says.1 ha).1
    have := (accepts_says.1 ha).2
    omega

/-- C119: so the name moves through the signatures in their order and never back. -/
theorem C119_forward (hw : WfHeaders m.headers) (hf : ∀ r, rf = some r → WfHeaders r.headers) (hl : Wire.Carries m.headers l) {now now' : UInt64}
    (h : now ≤ now') {n n' : Str} (h1 : verifySignature now m k id rf = .ok n) (h2 : verifySignature now' m k id rf = .ok n') :
    n = n' ∨ [n, n'].Sublist (l.map (·.1)) := by
  obtain ⟨p, hp, _⟩ := C119_last_end (Says m rf k id .panic) l
  obtain ⟨_, a1, a, a2, e1, s1, b1, c1⟩ := (C119_name hw hf hl hp now n).1 h1
  obtain ⟨_, b, g, b2, e2, s2, d2, c2⟩ := (C119_name hw hf hl hp now' n').1 h2
  have hle := UInt64.le_iff_toNat_le.1 h
  rw [e1] at e2
  rcases List.append_eq_append_iff.1 e2 with ⟨x, hx1, hx2⟩ | ⟨x, hx1, hx2⟩
  · cases x with
    | nil => injection hx2 with hx2 _; injection hx2 with hx2 _; exact .inl hx2
    | cons y x =>
      injection hx2 with hy hx2
      right
      rw [e1, hx2]
      simp only [List.map_append, List.map_cons]
      refine List.Sublist.trans ?_ (List.sublist_append_right _ _)
      refine List.Sublist.cons_cons _ ?_
      show List.Sublist [n'] ((x ++ (n', g) :: b2).map (·.1))
      simp
  · cases x with
    | nil => injection hx2 with hx2 _; injection hx2 with hx2 _; exact .inl hx2.symm
    | cons y x =>
      injection hx2 with hy hx2
      have := c1 (n', g) (by rw [hx1, hy]; simp) s2
      simp only at this
      omega

/-- C119: if a message carries no signatures, because a field is missing or cannot be read, time does not matter. -/
theorem C119_unread (hw : WfHeaders m.headers) (h : ¬ ∃ l, Wire.Carries m.headers l) (now now' : UInt64) :
    verifySignature now m k id rf = verifySignature now' m k id rf :=
  C12_clock_only_expires hw fun l hl => absurd ⟨l, wireCarries_iff.2 hl⟩ h

/-- C119: a failure is final: it comes back, with the same error, at all later times. -/
theorem C119_final (hw : WfHeaders m.headers) (hf : ∀ r, rf = some r → WfHeaders r.headers) {now now' : UInt64} (h : now ≤ now') {e : HyperErr}
    (he : verifySignature now m k id rf = .err e) : verifySignature now' m k id rf = .err e := by
  by_cases hl : ∃ l, Wire.Carries m.headers l
  · obtain ⟨l, hl⟩ := hl
    obtain ⟨p, hp, _⟩ := C119_last_end (Says m rf k id .panic) l
    obtain ⟨t, ht, _⟩ := C119_last_end (Says m rf k id (.ok ())) l
    obtain ⟨_, _, a3, a4⟩ := C119_phases hw hf hl hp ht now
    obtain ⟨_, _, b3, b4⟩ := C119_phases hw hf hl hp ht now'
    have hle := UInt64.le_iff_toNat_le.1 h
    obtain ⟨h1, h2⟩ := a3.1 ⟨e, he⟩
    obtain ⟨e', he'⟩ := b3.2 ⟨h1.trans hle, h2.trans hle⟩
    rw [he']
    rcases a4 e he with ⟨rfl, q⟩ | ⟨rfl, q⟩ <;> rcases b4 e' he' with ⟨rfl, q'⟩ | ⟨rfl, q'⟩
    · rfl
    · exact absurd q q'
    · exact absurd q' q
    · rfl
  · rw [← C119_unread hw hl now now', he]

/-- C119: what is accepted was accepted at all earlier times, or verification panicked then. -/
theorem C119_earlier (hw : WfHeaders m.headers) (hf : ∀ r, rf = some r → WfHeaders r.headers) {now now' : UInt64} (h : now ≤ now') {n : Str}
    (hn : verifySignature now' m k id rf = .ok n) : (∃ n', verifySignature now m k id rf = .ok n') ∨ verifySignature now m k id rf = .panic := by
  cases hr : verifySignature now m k id rf with
  | ok n' => exact .inl ⟨n', rfl⟩
  | panic => exact .inr rfl
  | err e => rw [C119_final hw hf h hr] at hn; cases hn

/-- C119: and a panic happened at all earlier times too. -/
theorem C119_panic (hw : WfHeaders m.headers) (hf : ∀ r, rf = some r → WfHeaders r.headers) {now now' : UInt64} (h : now ≤ now')
    (hn : verifySignature now' m k id rf = .panic) : verifySignature now m k id rf = .panic := by
  by_cases hl : ∃ l, Wire.Carries m.headers l
  · obtain ⟨l, hl⟩ := hl
    obtain ⟨p, hp, _⟩ := C119_last_end (Says m rf k id .panic) l
    obtain ⟨t, ht, _⟩ := C119_last_end (Says m rf k id (.ok ())) l
    have := (C119_phases hw hf hl hp ht now').1.1 hn
    exact (C119_phases hw hf hl hp ht now).1.2 ((UInt64.le_iff_toNat_le.1 h).trans_lt this)
  · rw [C119_unread hw hl now now', hn]

/-- C119: many keys at once: the call panics until the last signature on which one of the keys panics is too old. -/
theorem C119_batch (hw : WfHeaders m.headers) (hf : ∀ r, rf = some r → WfHeaders r.headers) (hl : Wire.Carries m.headers l)
    {keys : List (VerifyingKey × Option Str)} (hk : keys ≠ []) {p : VerifyingKey × Option Str → Nat}
    (hp : ∀ ki ∈ keys, LastEnd (Says m rf ki.1 ki.2 .panic) l (p ki)) (now : UInt64) :
    verifySignatures now m keys rf = .panic ↔ ∃ ki ∈ keys, now.toNat < p ki := by
  rw [C35_batch_panic keys hk]
  refine exists_congr fun ki => and_congr_right fun h => ?_
  obtain ⟨t, ht, _⟩ := C119_last_end (Says m rf ki.1 ki.2 (.ok ())) l
  exact (C119_phases hw hf hl (hp ki h) ht now).1

/-- C119: behind the guard of C100 there is no first phase: a message is accepted exactly until the last signature that the key accepts is too old. -/
theorem C119_guard (hw : WfHeaders m.headers) (hf : ∀ r, rf = some r → WfHeaders r.headers) (hl : Wire.Carries m.headers l) (hk : LibraryKey k) {t : Nat}
    (ht : LastEnd (Says m rf k id (.ok ())) l t) (now : UInt64) : (∃ n, Guard.verify now m k id rf = .ok n) ↔ now.toNat < t := by
  have hp : LastEnd (Says m rf (Guard.key k) id .panic) l 0 := by
    refine ⟨?_, by simp⟩
    rintro kv _ ⟨_, x, _, h⟩
    exact absurd h (guardKey_never hk _ _)
  have ht' : LastEnd (Says m rf (Guard.key k) id (.ok ())) l t := by
    have : Says m rf (Guard.key k) id (.ok ()) = Says m rf k id (.ok ()) := by
      funext h
      unfold Says
      simp only [guardKey_ok hk]
    rw [this]; exact ht
  have h2 := (C119_phases hw hf hl hp ht' now).2.1
  unfold Guard.verify Guard.call
  split
  · have e : ∀ n, (verifySignature now m (Guard.key k) id rf).mapErr some = .ok n ↔ verifySignature now m (Guard.key k) id rf = .ok n := by
      intro n; cases verifySignature now m (Guard.key k) id rf <;> simp
    simp only [e, h2]; omega
  · rename_i hg
    exact absurd hl (C100_refused hw (by simpa using hg) l)

end

/-! ### Cases -/

set_option maxRecDepth 20000 in
/-- C119: a panic may end with time, and then a message is accepted that was not before: one signature has a wrong length and expires first. -/
theorem C119_false : LibraryKey c100Key ∧
    verifySignature 50 (.req (c100Req (c! "a=(\"@path\");expires=50"))) c100Key none none = .panic ∧
    verifySignature 51 (.req (c100Req (c! "a=(\"@path\");expires=50"))) c100Key none none = .ok (c! "b") ∧
    Guard.verify 50 (.req (c100Req (c! "a=(\"@path\");expires=50"))) c100Key none none = .ok (c! "b") :=
  ⟨.ofPublic _, by decide +kernel, by decide +kernel, by decide +kernel⟩

/-- A signature on which the toy key panics, until 50, and one that it accepts, until 100. -/
def c119Req : Request := { vReq with headers :=
  [(c! "signature-input", utf8 (c! "b=(\"@method\");expires=100, a=(\"@path\");expires=50")), (c! "signature", utf8 (c! "a=::, b=:AQ==:"))] }

set_option maxRecDepth 20000 in
-- all three phases, with their last and first moments
example : [(0 : UInt64), 50, 51, 100, 101, 18446744073709551615].map (fun now => verifySignature now (.req c119Req) vKey none none) =
    [.panic, .panic, .ok (c! "b"), .ok (c! "b"), .err .invalidSignature, .err .invalidSignature] := by decide +kernel

set_option maxRecDepth 20000 in
-- the name moves from `b`, that expires at 100, to `c`, that does not expire; `a` has no signature base
example : verifySignature 100 (.req vReq) vKey none none = .ok (c! "b") ∧ verifySignature 101 (.req vReq) vKey none none = .ok (c! "c") ∧
    [c! "b", c! "c"].Sublist (vSigs.map (·.1)) := by decide +kernel

theorem c119_says {sh : SigHeaders} (r : Res SigErr Unit) : Says (.req vReq) none vKey none r sh ↔
    ∃ b, buildBase (.req vReq) sh.params none = .ok b ∧ vKey.verify b.bytes sh.signature = r := by
  unfold Says
  simp only [wireBaseOf_iff, reduceCtorEq, false_implies, implies_true, true_and]
  constructor
  · rintro ⟨t, h1, h2⟩
    obtain ⟨b, e, rfl⟩ := (buildBase_spec (m := .req vReq) vReq_wf (by simp) t).2 h1
    exact ⟨b, e, h2⟩
  · rintro ⟨b, e, h⟩
    exact ⟨b.disp, (buildBase_spec (m := .req vReq) vReq_wf (by simp) _).1 ⟨b, e, rfl⟩, h⟩

set_option maxRecDepth 20000 in
-- `C119_phases`: no phase of panics, and the second has no end
example : LastEnd (Says (.req vReq) none vKey none .panic) vSigs 0 ∧ LastEnd (Says (.req vReq) none vKey none (.ok ())) vSigs (2 ^ 64) := by
  refine ⟨⟨?_, by simp⟩, ?_, fun _ => ?_⟩
  · rintro kv h h2
    obtain ⟨b, _, h2⟩ := (c119_says _).1 h2
    simp only [vSigs, List.mem_cons, List.not_mem_nil, or_false] at h
    rcases h with rfl | rfl | rfl <;> simp [vKey] at h2
    all_goals (split at h2 <;> cases h2)
  · rintro kv h _
    simp only [vSigs, List.mem_cons, List.not_mem_nil, or_false] at h
    rcases h with rfl | rfl | rfl <;> decide
  · exact ⟨_, List.mem_cons_of_mem _ (List.mem_cons_of_mem _ (List.mem_singleton.2 rfl)), (c119_says _).2 ⟨_, rfl, by decide⟩, rfl⟩

end Verif
