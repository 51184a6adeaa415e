import Verif.Model.Clock
import Verif.Props.C10
/-!
C59: expiry when every candidate is checked against its own reading of the clock.
-/
namespace Verif
open Spec

/-- In time at a reading. A signature without `expires` needs no reading. -/
def InTimeAt (t : Option UInt64) (h : SigHeaders) : Prop := ∀ e, h.params.expires = some e → ∃ now, t = some now ∧ now ≤ e

/-- Accepted at a reading. -/
def AcceptsAt (m : Msg) (rf : Option Request) (k : VerifyingKey) (id : Option Str) (t : Option UInt64) (h : SigHeaders) : Prop :=
  ∃ text, BaseOf m rf h.params text ∧ ForKey id h ∧ InTimeAt t h ∧ k.verify (utf8 text) h.signature = .ok ()

/-- A candidate that ends the verification with a panic: the clock is before 1970 when it is needed, or the key panics. -/
def CrashesAt (m : Msg) (rf : Option Request) (k : VerifyingKey) (id : Option Str) (t : Option UInt64) (h : SigHeaders) : Prop :=
  ∃ text, BaseOf m rf h.params text ∧ ForKey id h ∧
    ((t = none ∧ ∃ e, h.params.expires = some e) ∨ (InTimeAt t h ∧ k.verify (utf8 text) h.signature = .panic))

section
variable {m : Msg} {rf : Option Request} {k : VerifyingKey} {id : Option Str} {clk : Str → Option UInt64}

theorem verifyClk_ok {t : Option UInt64} {b : SigBase} {h : SigHeaders} :
    b.verifyClk t k h = .ok () ↔ InTimeAt t h ∧ k.verify b.bytes h.signature = .ok () := by
  unfold SigBase.verifyClk SigParams.isExpiredClk InTimeAt
  cases h.params.expires with
  | none => simp
  | some e =>
    cases t with
    | none => simp
    | some now =>
      simp only [Res.bind_ok, decide_eq_true_eq, Option.some.injEq, forall_eq', exists_eq_left']
      split
      · rename_i hl; simp only [reduceCtorEq, false_iff]; exact fun hh => absurd hh.1 (UInt64.not_le.2 hl)
      · rename_i hl; simp [UInt64.not_lt.1 hl]

theorem verifyClk_panic {t : Option UInt64} {b : SigBase} {h : SigHeaders} :
    b.verifyClk t k h = .panic ↔
      (t = none ∧ ∃ e, h.params.expires = some e) ∨ (InTimeAt t h ∧ k.verify b.bytes h.signature = .panic) := by
  unfold SigBase.verifyClk SigParams.isExpiredClk InTimeAt
  cases h.params.expires with
  | none => simp
  | some e =>
    cases t with
    | none => simp
    | some now =>
      simp only [Res.bind_ok, decide_eq_true_eq, Option.some.injEq, forall_eq', exists_eq_left', reduceCtorEq, false_and, false_or]
      split
      · rename_i hl; simp only [reduceCtorEq, false_iff]; exact fun hh => absurd hh.1 (UInt64.not_le.2 hl)
      · rename_i hl; simp [UInt64.not_lt.1 hl]

/-- The code of one candidate with its reading. -/
def tryClk (clk : Str → Option UInt64) (k : VerifyingKey) (x : Str × (SigBase × SigHeaders)) : Res SigErr Str := do
  x.2.1.verifyClk (clk x.1) k x.2.2
  Res.ok x.1

theorem tryClk_ok {x : Str × (SigBase × SigHeaders)} {n : Str} :
    tryClk clk k x = .ok n ↔ x.1 = n ∧ x.2.1.verifyClk (clk x.1) k x.2.2 = .ok () := by
  unfold tryClk
  rw [Res.bind_eq_ok]
  constructor
  · rintro ⟨u, h1, h2⟩; injection h2 with h2; exact ⟨h2, h1⟩
  · rintro ⟨h1, h2⟩; exact ⟨(), h2, by rw [h1]⟩

theorem tryClk_panic {x : Str × (SigBase × SigHeaders)} :
    tryClk clk k x = .panic ↔ x.2.1.verifyClk (clk x.1) k x.2.2 = .panic := by
  unfold tryClk
  rw [Res.bind_eq_panic]
  constructor
  · rintro (h | ⟨u, _, h⟩)
    · exact h
    · cases h
  · exact Or.inl

theorem verifyOneClk_eq (map : List (Str × (SigBase × SigHeaders))) :
    verifyOneClk clk map k id =
      (if filterKeyId map id = [] then .err .noSignatureHeaders
       else match (Res.filterOk (tryClk clk k) (filterKeyId map id) : Res HyperErr (List Str)) with
        | .ok names => match names.head? with
          | none => .err .invalidSignature
          | some n => .ok n
        | .err e => .err e
        | .panic => .panic) := by
  unfold verifyOneClk
  simp only
  congr 1
  have : (fun kv : Str × (SigBase × SigHeaders) => (do kv.2.1.verifyClk (clk kv.1) k kv.2.2; Res.ok kv.1 : Res SigErr Str)) = tryClk clk k := rfl
  rw [this]
  cases h : (Res.filterOk (tryClk clk k) (filterKeyId map id) : Res HyperErr (List Str)) with
  | err e => rfl
  | panic => rfl
  | ok names =>
    simp only
    rw [← isOfList_head]
    cases isOfList names <;> rfl

theorem verifySignatureClk_eq : verifySignatureClk clk m k id rf =
    (extractSignatureHeaders m >>= fun l => verifyOneClk clk (l.filterMap (entryOf m rf)) k id) := by
  unfold verifySignatureClk verifySignaturesClk
  cases h : hasMessageSignature m.headers with
  | false => rw [noHeaders h]; rfl
  | true =>
    simp only [not_true, if_false]
    rw [extractSignatures_eq]
    cases extractSignatureHeaders m with
    | err e => rfl
    | panic => rfl
    | ok l =>
      simp only [Res.bind_ok, List.map_cons, List.map_nil]
      cases verifyOneClk clk (l.filterMap (entryOf m rf)) k id <;> rfl

theorem acceptsAt_iff (hw : WfHeaders m.headers) (hf : ∀ r, rf = some r → WfHeaders r.headers) (t : Option UInt64) (h : SigHeaders) :
    AcceptsAt m rf k id t h ↔ ∃ b, buildBase m h.params rf = .ok b ∧ ForKey id h ∧ b.verifyClk t k h = .ok () := by
  unfold AcceptsAt
  rw [← base_iff hw hf h.params (fun d => ForKey id h ∧ InTimeAt t h ∧ k.verify d h.signature = .ok ())]
  simp only [verifyClk_ok]

theorem crashesAt_iff (hw : WfHeaders m.headers) (hf : ∀ r, rf = some r → WfHeaders r.headers) (t : Option UInt64) (h : SigHeaders) :
    CrashesAt m rf k id t h ↔ ∃ b, buildBase m h.params rf = .ok b ∧ ForKey id h ∧ b.verifyClk t k h = .panic := by
  unfold CrashesAt
  rw [← base_iff hw hf h.params (fun d => ForKey id h ∧ ((t = none ∧ ∃ e, h.params.expires = some e) ∨
    (InTimeAt t h ∧ k.verify d h.signature = .panic)))]
  simp only [verifyClk_panic]

theorem cands_panicClk (hw : WfHeaders m.headers) (hf : ∀ r, rf = some r → WfHeaders r.headers) (l : List (Str × SigHeaders)) :
    (∃ x ∈ cands m rf id l, tryClk clk k x = .panic) ↔ ∃ kv ∈ l, CrashesAt m rf k id (clk kv.1) kv.2 := by
  constructor
  · rintro ⟨x, hx, hp⟩
    obtain ⟨kv, hkv, hb, hk, h1, h2⟩ := mem_cands.1 hx
    have := tryClk_panic.1 hp
    rw [h2, h1] at this
    exact ⟨kv, hkv, (crashesAt_iff hw hf _ kv.2).2 ⟨_, hb, hk, this⟩⟩
  · rintro ⟨kv, hkv, hc⟩
    obtain ⟨b, hb, hk, hv⟩ := (crashesAt_iff hw hf _ kv.2).1 hc
    exact ⟨(kv.1, (b, kv.2)), mem_cands.2 ⟨kv, hkv, hb, hk, rfl, rfl⟩, tryClk_panic.2 hv⟩

/-- What one entry contributes to the list of accepted names. -/
def nameOfClk (clk : Str → Option UInt64) (m : Msg) (rf : Option Request) (k : VerifyingKey) (id : Option Str) (kv : Str × SigHeaders) :
    Option Str :=
  ((entryOf m rf kv).filter (keyTest id)).bind (fun x => (tryClk clk k x).toOpt)

theorem names_eqClk (l : List (Str × SigHeaders)) :
    (cands m rf id l).filterMap (fun x => (tryClk clk k x).toOpt) = l.filterMap (nameOfClk clk m rf k id) := by
  unfold cands
  rw [List.filterMap_filter, List.filterMap_filterMap]
  apply List.filterMap_congr
  intro kv _
  unfold nameOfClk
  cases entryOf m rf kv with
  | none => rfl
  | some x => cases h : keyTest id x <;> simp [h, Option.filter]

theorem nameOfClk_some (hw : WfHeaders m.headers) (hf : ∀ r, rf = some r → WfHeaders r.headers) (kv : Str × SigHeaders) (n : Str) :
    nameOfClk clk m rf k id kv = some n ↔ kv.1 = n ∧ AcceptsAt m rf k id (clk kv.1) kv.2 := by
  rw [acceptsAt_iff hw hf]
  unfold nameOfClk
  rw [Option.bind_eq_some_iff]
  have key : ∀ x, (entryOf m rf kv).filter (keyTest id) = some x ↔ x ∈ cands m rf id [kv] := by
    intro x
    unfold cands
    rw [List.mem_filter, Option.filter_eq_some_iff]
    simp only [List.filterMap_cons, List.filterMap_nil]
    cases entryOf m rf kv with
    | none => simp
    | some y =>
      simp only [List.mem_singleton, Option.some.injEq]
      exact ⟨fun h => ⟨h.1.symm, h.2⟩, fun h => ⟨h.1.symm, h.2⟩⟩
  constructor
  · rintro ⟨x, hx, ht⟩
    obtain ⟨kv', hkv, hb, hk, e1, e2⟩ := mem_cands.1 ((key x).1 hx)
    simp only [List.mem_cons, List.not_mem_nil, or_false] at hkv
    subst hkv
    obtain ⟨e3, hv⟩ := tryClk_ok.1 (Res.toOpt_eq_some.1 ht)
    rw [e2, e1] at hv
    exact ⟨by rw [← e1, e3], x.2.1, hb, hk, hv⟩
  · rintro ⟨rfl, b, hb, hk, hv⟩
    exact ⟨(kv.1, (b, kv.2)), (key _).2 (mem_cands.2 ⟨kv, by simp, hb, hk, rfl, rfl⟩), Res.toOpt_eq_some.2 (tryClk_ok.2 ⟨rfl, hv⟩)⟩

theorem verifyOneClk_cases (hw : WfHeaders m.headers) (hf : ∀ r, rf = some r → WfHeaders r.headers) (l : List (Str × SigHeaders)) :
    (verifyOneClk clk (l.filterMap (entryOf m rf)) k id = .panic ↔ ∃ kv ∈ l, CrashesAt m rf k id (clk kv.1) kv.2) ∧
    (∀ n, verifyOneClk clk (l.filterMap (entryOf m rf)) k id = .ok n ↔ (∀ kv ∈ l, ¬ CrashesAt m rf k id (clk kv.1) kv.2) ∧
      l.findSome? (nameOfClk clk m rf k id) = some n) := by
  rw [verifyOneClk_eq, filterKeyId_eq]
  have hcd : (l.filterMap (entryOf m rf)).filter (keyTest id) = cands m rf id l := rfl
  rw [hcd]
  by_cases hp : ∃ kv ∈ l, CrashesAt m rf k id (clk kv.1) kv.2
  · have hx := (cands_panicClk hw hf l).2 hp
    have hn : cands m rf id l ≠ [] := by
      obtain ⟨x, hx, _⟩ := hx; intro h; rw [h] at hx; simp at hx
    rw [if_neg hn, Res.filterOk_panic.2 hx]
    refine ⟨by simpa using hp, fun n => ?_⟩
    simp only [reduceCtorEq, false_iff]
    rintro ⟨h, _⟩
    obtain ⟨kv, hkv, hc⟩ := hp
    exact h kv hkv hc
  · have hp' : ∀ kv ∈ l, ¬ CrashesAt m rf k id (clk kv.1) kv.2 := fun kv hkv h => hp ⟨kv, hkv, h⟩
    have hnames := names_eqClk (m := m) (rf := rf) (k := k) (id := id) (clk := clk) l
    by_cases hn : cands m rf id l = []
    · rw [if_pos hn]
      rw [hn, List.filterMap_nil] at hnames
      have : l.findSome? (nameOfClk clk m rf k id) = none := by rw [← List.head?_filterMap, ← hnames]; rfl
      exact ⟨by simpa using hp, fun n => by simp [this]⟩
    · rw [if_neg hn, Res.filterOk_of_not_panic (fun x hx hpan => hp ((cands_panicClk hw hf l).1 ⟨x, hx, hpan⟩)), hnames]
      simp only [List.head?_filterMap]
      cases l.findSome? (nameOfClk clk m rf k id) with
      | none => exact ⟨by simpa using hp, fun n => by simp⟩
      | some a => exact ⟨by simpa using hp, fun n => by simpa using fun _ => hp'⟩

/-- C59: a message verifies under the label `n` exactly if no candidate crashes at its own reading and `n` is the first signature that
is accepted at its own reading. -/
theorem C59_ok_iff (hw : WfHeaders m.headers) (hf : ∀ r, rf = some r → WfHeaders r.headers) (n : Str) :
    verifySignatureClk clk m k id rf = .ok n ↔
      ∃ l, Carries m.headers l ∧ (∀ kv ∈ l, ¬ CrashesAt m rf k id (clk kv.1) kv.2) ∧
        ∃ l1 h l2, l = l1 ++ (n, h) :: l2 ∧ AcceptsAt m rf k id (clk n) h ∧ ∀ kv ∈ l1, ¬ AcceptsAt m rf k id (clk kv.1) kv.2 := by
  rw [verifySignatureClk_eq, Res.bind_eq_ok]
  have first : ∀ l : List (Str × SigHeaders), l.findSome? (nameOfClk clk m rf k id) = some n ↔
      ∃ l1 h l2, l = l1 ++ (n, h) :: l2 ∧ AcceptsAt m rf k id (clk n) h ∧ ∀ kv ∈ l1, ¬ AcceptsAt m rf k id (clk kv.1) kv.2 := by
    intro l
    rw [List.findSome?_eq_some_iff]
    constructor
    · rintro ⟨l1, ⟨n', h⟩, l2, rfl, h1, h2⟩
      obtain ⟨rfl, ha⟩ := (nameOfClk_some hw hf _ _).1 h1
      refine ⟨l1, h, l2, rfl, ha, ?_⟩
      intro kv hkv hac
      have := h2 kv hkv
      rw [(nameOfClk_some hw hf kv kv.1).2 ⟨rfl, hac⟩] at this
      cases this
    · rintro ⟨l1, h, l2, rfl, h1, h2⟩
      refine ⟨l1, (n, h), l2, rfl, (nameOfClk_some hw hf _ _).2 ⟨rfl, h1⟩, ?_⟩
      intro kv hkv
      cases hx : nameOfClk clk m rf k id kv with
      | none => rfl
      | some n' => exact absurd ((nameOfClk_some hw hf _ _).1 hx).2 (h2 kv hkv)
  simp only [(verifyOneClk_cases hw hf _).2, first]
  constructor
  · rintro ⟨l, h1, h2⟩; exact ⟨l, (extractSignatureHeaders_ok hw l).1 h1, h2⟩
  · rintro ⟨l, h1, h2⟩; exact ⟨l, (extractSignatureHeaders_ok hw l).2 h1, h2⟩

/-- C59: and it panics exactly if the headers make the parser panic or some candidate crashes at its own reading. -/
theorem C59_panic_iff (hw : WfHeaders m.headers) (hf : ∀ r, rf = some r → WfHeaders r.headers) :
    verifySignatureClk clk m k id rf = .panic ↔
      extractSignatureHeaders m = .panic ∨ ∃ l, Carries m.headers l ∧ ∃ kv ∈ l, CrashesAt m rf k id (clk kv.1) kv.2 := by
  rw [verifySignatureClk_eq, Res.bind_eq_panic]
  simp only [(verifyOneClk_cases hw hf _).1]
  constructor
  · rintro (h | ⟨l, h1, h2⟩)
    · exact Or.inl h
    · exact Or.inr ⟨l, (extractSignatureHeaders_ok hw l).1 h1, h2⟩
  · rintro (h | ⟨l, h1, h2⟩)
    · exact Or.inl h
    · exact Or.inr ⟨l, (extractSignatureHeaders_ok hw l).2 h1, h2⟩

/-- C59: with readings between `t0` and `t1`, and no expiry of the message in `t0 ≤ e < t1`, the outcome is that of the model with the
single reading `t0`. In particular this holds when all readings are equal. -/
theorem C59_single_clock {t0 t1 : UInt64} (hw : WfHeaders m.headers) (hc : ∀ n, ∃ t, clk n = some t ∧ t0 ≤ t ∧ t ≤ t1)
    (h : ∀ l, Carries m.headers l → ∀ kv ∈ l, ∀ e, kv.2.params.expires = some e → ¬ (t0 ≤ e ∧ e < t1)) :
    verifySignatureClk clk m k id rf = verifySignature t0 m k id rf := by
  rw [verifySignatureClk_eq, verifySignature_eq]
  cases hl : extractSignatureHeaders m with
  | err e => rfl
  | panic => rfl
  | ok l =>
    simp only [Res.bind_ok]
    have hl := (extractSignatureHeaders_ok hw l).1 hl
    rw [verifyOneClk_eq, verifyOne_eq, filterKeyId_eq]
    have hcd : (l.filterMap (entryOf m rf)).filter (keyTest id) = cands m rf id l := rfl
    rw [hcd]
    have e : ∀ x ∈ cands m rf id l, tryClk clk k x = tryOne t0 k x := by
      intro x hx
      obtain ⟨kv, hkv, _, _, _, h2⟩ := mem_cands.1 hx
      obtain ⟨t, ht, hge, hle⟩ := hc x.1
      have hv : x.2.1.verifyClk (clk x.1) k x.2.2 = x.2.1.verify t0 k x.2.2 := by
        have hh := h l hl kv hkv
        rw [← h2] at hh
        rw [ht, verify_base]
        unfold SigBase.verifyClk SigParams.isExpiredClk SigParams.isExpired
        cases he : x.2.2.params.expires with
        | none => rfl
        | some v =>
          have := hh v he
          have hiff : v < t ↔ v < t0 := by
            rw [UInt64.lt_iff_toNat_lt, UInt64.lt_iff_toNat_lt]
            rw [UInt64.le_iff_toNat_le] at hge hle this
            rw [UInt64.lt_iff_toNat_lt] at this
            omega
          simp only [Res.bind_ok, hiff]
      unfold tryClk tryOne
      rw [hv]
    have : ∀ s : List (Str × (SigBase × SigHeaders)), (∀ x ∈ s, tryClk clk k x = tryOne t0 k x) →
        (Res.filterOk (tryClk clk k) s : Res HyperErr (List Str)) = Res.filterOk (tryOne t0 k) s := by
      intro s hs
      induction s with
      | nil => rfl
      | cons a t ih =>
        simp only [Res.filterOk]
        rw [hs a (by simp), ih (fun x hx => hs x (by simp [hx]))]
    rw [this _ e]
    congr 1

end

/-! Signature `b` of the example expires at 100. Two candidates of one call can see different times. -/

/-- A clock that passes 100 before the second candidate is checked. -/
def tickClk (n : Str) : Option UInt64 := if n = c! "a" then some 100 else some 101

set_option maxRecDepth 10000 in
example : verifySignatureClk (fun _ => some 100) (.req vReq) vKey (some (c! "k2")) none = .ok (c! "b") ∧
    verifySignatureClk tickClk (.req vReq) vKey (some (c! "k2")) none = .err .invalidSignature ∧
    verifySignatureClk (fun _ => none) (.req vReq) vKey (some (c! "k2")) none = .panic := by decide

end Verif
