import Verif.Spec.Ask
import Verif.Props.C98
import Verif.Props.C84
import Verif.Props.C18
/-!
C99 How often keys are used. What a key writes to the log when it is asked is arbitrary here, so the theorems determine the sequence of
questions: each key is asked about every carried signature for its key id that is not expired and has a signature base, in the order of
the message, key after key, also after one has been accepted. Each signing key is asked once, and none is asked if one of the signature
bases does not exist.
-/
namespace Verif
open Sfv Spec Grammar

/-! ### The questions are determined -/

theorem questions_exist (now : UInt64) (m : Msg) (rf : Option Request) (id : Option Str) (l : List (Str × SigHeaders)) :
    ∃ Q, Wire.Questions now m rf id l Q := by
  induction l with
  | nil => exact ⟨[], .nil⟩
  | cons kv t ih =>
    obtain ⟨Q, hQ⟩ := ih
    by_cases h : Wire.ForKey id kv.2 ∧ Wire.InTime now kv.2 ∧ ∃ t, Wire.BaseOf m rf kv.2.params t
    · obtain ⟨h1, h2, t, h3⟩ := h
      exact ⟨_, .ask h1 h2 h3 hQ⟩
    · exact ⟨Q, .skip h hQ⟩

/-- The same as a list of the model. -/
def askList (now : UInt64) (m : Msg) (rf : Option Request) (id : Option Str) (l : List (Str × SigHeaders)) : List (Bytes × Bytes) :=
  ((cands m rf id l).filter (fun x => ¬ x.2.2.params.isExpired now)).map fun x => (x.2.1.bytes, x.2.2.signature)

theorem questions_eq {now : UInt64} {m : Msg} {rf : Option Request} {id : Option Str} (hw : WfHeaders m.headers)
    (hf : ∀ r, rf = some r → WfHeaders r.headers) {l : List (Str × SigHeaders)} {Q : List (Bytes × Bytes)}
    (h : Wire.Questions now m rf id l Q) : Q = askList now m rf id l := by
  have hc : ∀ (kv : Str × SigHeaders) l, cands m rf id (kv :: l) = cands m rf id [kv] ++ cands m rf id l := by
    intro kv l; simp only [cands, ← List.filter_append, ← List.filterMap_append]; rfl
  have hs : ∀ (kv : Str × SigHeaders) l, askList now m rf id (kv :: l) = askList now m rf id [kv] ++ askList now m rf id l := by
    intro kv l; simp only [askList, hc kv l, List.filter_append, List.map_append]
  induction h with
  | nil => rfl
  | @ask kv l t Q h1 h2 h3 _ ih =>
    obtain ⟨b, b1, b2⟩ := (buildBase_spec hw hf t).2 (wireBaseOf_iff.1 h3)
    have e : cands m rf id [kv] = [(kv.1, (b, kv.2))] := by
      have hm := (mem_cands (x := (kv.1, (b, kv.2))) (l := [kv])).2 ⟨kv, by simp, b1, wireForKey_iff.1 h1, rfl, rfl⟩
      have hlen : (cands m rf id [kv]).length ≤ 1 := (List.length_filter_le _ _).trans (List.length_filterMap_le _ _)
      cases hcs : cands m rf id [kv] with
      | nil => rw [hcs] at hm; cases hm
      | cons x xs =>
        rw [hcs] at hm hlen
        have : xs = [] := List.length_eq_zero_iff.1 (by simpa using hlen)
        subst this
        rw [List.mem_singleton.1 hm]
    rw [hs, ← ih]
    have h4 := isExpired_false.2 (wireInTime_iff.1 h2)
    simp [askList, e, h4, SigBase.bytes, b2]
  | @skip kv l Q h1 _ ih =>
    rw [hs, ← ih]
    have e : askList now m rf id [kv] = [] := by
      unfold askList
      rw [List.map_eq_nil_iff, List.filter_eq_nil_iff]
      intro x hx hx2
      obtain ⟨kv', hk, b1, b2, _, b3⟩ := mem_cands.1 hx
      rw [List.mem_singleton.1 hk] at b1 b2 b3
      refine h1 ⟨wireForKey_iff.2 b2, wireInTime_iff.2 (isExpired_false.1 ?_), x.2.1.disp, wireBaseOf_iff.2 ((buildBase_spec hw hf _).1 ⟨_, b1, rfl⟩)⟩
      rw [b3] at hx2; simpa using hx2
    rw [e, List.nil_append]

/-- C99: the questions exist and are determined by the message, the time and the key id. -/
theorem C99_questions (now : UInt64) (m : Msg) (rf : Option Request) (id : Option Str) (hw : WfHeaders m.headers)
    (hf : ∀ r, rf = some r → WfHeaders r.headers) (l : List (Str × SigHeaders)) : ∃! Q, Wire.Questions now m rf id l Q := by
  obtain ⟨Q, hQ⟩ := questions_exist now m rf id l
  exact ⟨Q, hQ, fun Q' h => (questions_eq hw hf h).trans (questions_eq hw hf hQ).symm⟩

/-! ### Verification -/

theorem filterOk_log {ε ε' α β : Type} (f : α → Logged ε β) (l : List α) :
    (Logged.filterOk f l : Logged ε' (List β)).log <+: l.flatMap (fun a => (f a).log) ∧
    ((Logged.filterOk f l : Logged ε' (List β)).res ≠ .panic →
      (Logged.filterOk f l : Logged ε' (List β)).log = l.flatMap (fun a => (f a).log)) := by
  induction l with
  | nil => exact ⟨List.prefix_refl _, fun _ => rfl⟩
  | cons a t ih =>
    obtain ⟨i1, i2⟩ := ih
    simp only [Logged.filterOk, List.flatMap_cons]
    cases (f a).res with
    | panic => simp
    | ok b =>
      simp only
      refine ⟨(List.prefix_append_right_inj _).2 i1, fun h => ?_⟩
      rw [i2]
      intro hp; rw [hp] at h; exact h rfl
    | err e =>
      simp only
      exact ⟨(List.prefix_append_right_inj _).2 i1, fun h => by rw [i2 h]⟩

theorem gather_trace {ε ε' α : Type} (l : List (Logged ε α)) (g : Logged ε α → List LogLine) (h1 : ∀ x ∈ l, x.log <+: g x)
    (h2 : ∀ x ∈ l, x.res ≠ .panic → x.log = g x) :
    (Logged.gather l : Logged ε' _).log <+: l.flatMap g ∧
    ((Logged.gather l : Logged ε' _).res ≠ .panic → (Logged.gather l : Logged ε' _).log = l.flatMap g) := by
  induction l with
  | nil => exact ⟨List.prefix_refl _, fun _ => rfl⟩
  | cons x t ih =>
    obtain ⟨i1, i2⟩ := ih (fun y hy => h1 y (by simp [hy])) (fun y hy => h2 y (by simp [hy]))
    have a1 := h1 x (by simp)
    have a2 := h2 x (by simp)
    simp only [Logged.gather, List.flatMap_cons]
    cases hx : x.res with
    | panic => exact ⟨a1.trans (List.prefix_append _ _), fun h => absurd rfl h⟩
    | ok b =>
      rw [a2 (by simp [hx])]
      refine ⟨(List.prefix_append_right_inj _).2 i1, fun h => ?_⟩
      rw [i2]
      intro hp; simp only [hp] at h; exact h rfl
    | err e =>
      rw [a2 (by simp [hx])]
      refine ⟨(List.prefix_append_right_inj _).2 i1, fun h => ?_⟩
      rw [i2]
      intro hp; simp only [hp] at h; exact h rfl

theorem verifyOneL_log (now : UInt64) (m : Msg) (rf : Option Request) (l : List (Str × SigHeaders)) (k : LogVerifyingKey) (id : Option Str) :
    (verifyOneL now (l.filterMap (entryOf m rf)) k id).log <+: (askList now m rf id l).flatMap (fun q => k.log q.1 q.2) ∧
    ((verifyOneL now (l.filterMap (entryOf m rf)) k id).res ≠ .panic →
      (verifyOneL now (l.filterMap (entryOf m rf)) k id).log = (askList now m rf id l).flatMap (fun q => k.log q.1 q.2)) := by
  have e : ∀ L : List (Str × (SigBase × SigHeaders)), L.flatMap (fun kv => (do kv.2.1.verifyL now k kv.2.2; .quiet (.ok kv.1) : Logged SigErr Str).log) =
      ((L.filter (fun x => ¬ x.2.2.params.isExpired now)).map fun x => (x.2.1.bytes, x.2.2.signature)).flatMap (fun q => k.log q.1 q.2) := by
    intro L
    induction L with
    | nil => rfl
    | cons x t ih =>
      rw [List.flatMap_cons, ih, List.filter_cons]
      by_cases he : x.2.2.params.isExpired now = true
      · simp [SigBase.verifyL, he]
      · have : (do x.2.1.verifyL now k x.2.2; .quiet (.ok x.1) : Logged SigErr Str).log = k.log x.2.1.bytes x.2.2.signature := by
          show (Logged.bind _ _).log = _
          unfold Logged.bind SigBase.verifyL
          rw [if_neg he]
          simp only
          cases k.key.verify x.2.1.bytes x.2.2.signature <;> simp
        simp [this, he]
  have hc : filterKeyId (l.filterMap (entryOf m rf)) id = cands m rf id l := filterKeyId_eq _ _
  unfold verifyOneL
  simp only [hc]
  split
  · rename_i hn
    simp [askList, hn]
  · obtain ⟨f1, f2⟩ := filterOk_log (ε' := HyperErr) (fun kv : Str × (SigBase × SigHeaders) => (do kv.2.1.verifyL now k kv.2.2; .quiet (.ok kv.1) : Logged SigErr Str))
      (cands m rf id l)
    rw [e] at f1 f2
    change _ <+: (askList now m rf id l).flatMap _ at f1
    change _ → _ = (askList now m rf id l).flatMap _ at f2
    have q : ∀ names : List Str, (match isOfList names with
      | [] => (.quiet (.err .invalidSignature) : Logged HyperErr Str)
      | n :: _ => .quiet (.ok n)).log = [] := by intro names; split <;> rfl
    constructor
    · have := Logged.prefix_bind (b := []) f1 (fun v hv => f2 (by simp [hv])) (fun names _ => by rw [q names])
      rwa [List.append_nil] at this
    · intro hp
      cases hr : (Logged.filterOk (fun kv : Str × (SigBase × SigHeaders) => (do kv.2.1.verifyL now k kv.2.2; .quiet (.ok kv.1) : Logged SigErr Str))
          (cands m rf id l) : Logged HyperErr (List Str)).res with
      | ok v =>
        rw [Logged.bind_log_ok hr]
        exact (congrArg _ (q v)).trans ((List.append_nil _).trans (f2 (by simp [hr])))
      | err e => rw [Logged.bind_log_fail (by simp [hr])]; exact f2 (by simp [hr])
      | panic => exact absurd (by rw [Logged.bind_res, hr]; rfl) hp

/-- C99: what verification writes is what it writes without keys, and then what the keys write when they get these questions; less if a
key panics. -/
theorem C99_verify {now : UInt64} {m : Msg} {rf : Option Request} (hw : WfHeaders m.headers) (hf : ∀ r, rf = some r → WfHeaders r.headers)
    {l : List (Str × SigHeaders)} (hl : Wire.Carries m.headers l) {ks : List (LogVerifyingKey × Option Str)} {Qs : List (List (Bytes × Bytes))}
    (hq : List.Forall₂ (fun k Q => Wire.Questions now m rf k.2 l Q) ks Qs) :
    ∃ b, (verifySignaturesL now m ks rf).log = (verifySignaturesL now m [] rf).log ++ b ∧
      b <+: (ks.zip Qs).flatMap (fun x => x.2.flatMap fun q => x.1.1.log q.1 q.2) ∧
      (verifySignatures now m (ks.map fun k => (k.1.key, k.2)) rf ≠ .panic →
        b = (ks.zip Qs).flatMap (fun x => x.2.flatMap fun q => x.1.1.log q.1 q.2)) := by
  have he : extractSignatureHeaders m = .ok l := (extractSignatureHeaders_ok hw l).2 (wireCarries_iff.1 hl)
  have hx : (extractSignaturesL m rf).res = .ok (l.filterMap (entryOf m rf)) := by
    rw [extractSignaturesL_res, extractSignatures_eq, he]; rfl
  have hh : hasMessageSignature m.headers = true := by
    cases h : hasMessageSignature m.headers with
    | true => rfl
    | false => rw [noHeaders h] at he; cases he
  have ez : (ks.zip Qs).flatMap (fun x => x.2.flatMap fun q => x.1.1.log q.1 q.2) =
      ks.flatMap (fun k => (askList now m rf k.2 l).flatMap fun q => k.1.log q.1 q.2) := by
    induction hq with
    | nil => rfl
    | cons h _ ih => rw [List.zip_cons_cons, List.flatMap_cons, List.flatMap_cons, ih, questions_eq hw hf h]
  rw [ez, ← verifySignaturesL_res]
  have hs : ∀ ks : List (LogVerifyingKey × Option Str), (verifySignaturesL now m ks rf).log = (extractSignaturesL m rf).log ++
      (Logged.gather (ks.map (fun ki => verifyOneL now (l.filterMap (entryOf m rf)) ki.1 ki.2)) : Logged HyperErr _).log := by
    intro ks
    unfold verifySignaturesL
    rw [if_neg (by simp [hh]), Logged.bind_log_ok hx]
  have hr : (verifySignaturesL now m ks rf).res =
      (Logged.gather (ks.map (fun ki => verifyOneL now (l.filterMap (entryOf m rf)) ki.1 ki.2)) : Logged HyperErr _).res := by
    unfold verifySignaturesL
    rw [if_neg (by simp [hh]), Logged.bind_res, hx]; rfl
  refine ⟨(Logged.gather (ks.map (fun ki => verifyOneL now (l.filterMap (entryOf m rf)) ki.1 ki.2)) : Logged HyperErr _).log, ?_, ?_⟩
  · rw [hs, hs]; simp [Logged.gather]
  · rw [hr]
    clear hr hs ez hq
    induction ks with
    | nil => exact ⟨List.prefix_refl _, fun _ => rfl⟩
    | cons k t ih =>
      obtain ⟨i1, i2⟩ := ih
      obtain ⟨a1, a2⟩ := verifyOneL_log now m rf l k.1 k.2
      simp only [List.map_cons, Logged.gather, List.flatMap_cons]
      cases hx : (verifyOneL now (l.filterMap (entryOf m rf)) k.1 k.2).res with
      | panic => exact ⟨a1.trans (List.prefix_append _ _), fun h => absurd rfl h⟩
      | ok b =>
        rw [a2 (by simp [hx])]
        refine ⟨(List.prefix_append_right_inj _).2 i1, fun h => ?_⟩
        rw [i2]
        intro hp; simp only [hp] at h; exact h rfl
      | err e =>
        rw [a2 (by simp [hx])]
        refine ⟨(List.prefix_append_right_inj _).2 i1, fun h => ?_⟩
        rw [i2]
        intro hp; simp only [hp] at h; exact h rfl

/-- C99: so with keys that never panic and write one line per question, the number of lines counts the questions. -/
theorem C99_count {now : UInt64} {m : Msg} {rf : Option Request} (hw : WfHeaders m.headers) (hf : ∀ r, rf = some r → WfHeaders r.headers)
    {l : List (Str × SigHeaders)} (hl : Wire.Carries m.headers l) {ks : List (LogVerifyingKey × Option Str)} {Qs : List (List (Bytes × Bytes))}
    (hq : List.Forall₂ (fun k Q => Wire.Questions now m rf k.2 l Q) ks Qs) (h1 : ∀ k ∈ ks, ∀ d s, k.1.key.verify d s ≠ .panic)
    (h2 : ∀ k ∈ ks, ∀ d s, (k.1.log d s).length = 1) :
    (verifySignaturesL now m ks rf).log.length = (verifySignaturesL now m [] rf).log.length + (Qs.map List.length).sum := by
  obtain ⟨b, b1, b2, b3⟩ := C99_verify hw hf hl hq
  have he : extractSignatureHeaders m = .ok l := (extractSignatureHeaders_ok hw l).2 (wireCarries_iff.1 hl)
  have hp : verifySignatures now m (ks.map fun k => (k.1.key, k.2)) rf ≠ .panic := by
    rw [verifySignatures_eq, he, Res.bind_ok]
    intro h
    unfold verifyInner at h
    obtain ⟨k, hk, h⟩ := List.mem_map.1 ((gather_panic _).1 h)
    obtain ⟨k', hk', rfl⟩ := List.mem_map.1 hk
    obtain ⟨x, _, hx⟩ := C18_first _ _ _ _ h
    exact h1 k' hk' _ _ hx
  rw [b1, b3 hp, List.length_append]
  congr 1
  clear b1 b2 b3 hp
  induction hq with
  | nil => rfl
  | @cons k Q ks Qs _ _ ih =>
    rw [List.zip_cons_cons, List.flatMap_cons, List.length_append, ih (fun k hk => h1 k (by simp [hk])) (fun k hk => h2 k (by simp [hk])),
      List.map_cons, List.sum_cons]
    congr 1
    have h3 := h2 k (by simp)
    rw [List.length_flatMap, List.map_congr_left (fun q _ => h3 q.1 q.2)]
    simp

/-- C99: without readable signatures no key is asked. -/
theorem C99_no_signatures {now : UInt64} {m : Msg} {rf : Option Request} (hw : WfHeaders m.headers) (hl : ¬ ∃ l, Wire.Carries m.headers l)
    (ks : List (LogVerifyingKey × Option Str)) : (verifySignaturesL now m ks rf).log = (verifySignaturesL now m [] rf).log := by
  have he : ∀ l, (extractSignaturesL m rf).res ≠ .ok l := by
    intro l h
    rw [extractSignaturesL_res, extractSignatures_eq] at h
    obtain ⟨l', h1, _⟩ := Res.bind_eq_ok.1 h
    exact hl ⟨l', wireCarries_iff.2 ((extractSignatureHeaders_ok hw l').1 h1)⟩
  unfold verifySignaturesL
  split
  · rfl
  · rw [Logged.bind_log_fail he, Logged.bind_log_fail he]

/-- C99: a key gets at most one question per carried signature, and all texts in them have together at most 24 times as many octets as the
product of the sizes. -/
theorem C99_bound {now : UInt64} {m : Msg} {rf : Option Request} {id : Option Str} {l : List (Str × SigHeaders)} {Q : List (Bytes × Bytes)}
    (hl : Wire.Carries m.headers l) (hq : Wire.Questions now m rf id l Q) :
    Q.length ≤ l.length ∧ (Q.map fun q => q.1.length).sum ≤ 24 * (msgSize m * bothSize m rf) := by
  have key : ∃ sub ts, sub.Sublist l ∧ List.Forall₂ (fun (kv : Str × SigHeaders) t => Wire.BaseOf m rf kv.2.params t) sub ts ∧
      Q.map Prod.fst = ts.map utf8 ∧ Q.length = sub.length := by
    clear hl
    induction hq with
    | nil => exact ⟨[], [], .refl _, .nil, rfl, rfl⟩
    | @ask kv l t Q h1 h2 h3 _ ih =>
      obtain ⟨sub, ts, i1, i2, i3, i4⟩ := ih
      exact ⟨kv :: sub, t :: ts, i1.cons_cons _, .cons h3 i2, by simp [i3], by simp [i4]⟩
    | @skip kv l Q h1 _ ih =>
      obtain ⟨sub, ts, i1, i2, i3, i4⟩ := ih
      exact ⟨sub, ts, i1.cons _, i2, i3, i4⟩
  obtain ⟨sub, ts, h1, h2, h3, h4⟩ := key
  refine ⟨h4 ▸ h1.length_le, ?_⟩
  have := C85_octets hl h1 h2
  have e : Q.map (fun q => q.1.length) = ts.map (fun t => (utf8 t).length) := by
    have := congrArg (List.map List.length) h3
    simpa [List.map_map, Function.comp_def] using this
  rw [e]; exact this

/-- C99: nothing stops it: with `n` signatures in 27 characters each, each of the keys without an id gets `n` questions. -/
theorem C99_all (now : UInt64) (n : Nat) (h1 : 1 ≤ n) (h2 : n ≤ 10 ^ 6) :
    reqSize (c85Req 0 n) ≤ 27 * n + 60 ∧ ∃ l Q, Wire.Carries (c85Req 0 n).headers l ∧
      Wire.Questions now (.req (c85Req 0 n)) none none l Q ∧ Q.length = n := by
  obtain ⟨a, _, l, b, c, d⟩ := C85_quadratic now 0 n h1 h2
  refine ⟨by omega, l, ?_⟩
  have key : ∀ l : List (Str × SigHeaders), (∀ kv ∈ l, Wire.ForKey none kv.2 ∧ Wire.InTime now kv.2 ∧
      ∃ t, Wire.BaseOf (.req (c85Req 0 n)) none kv.2.params t ∧ 0 ≤ t.length) →
      ∃ Q, Wire.Questions now (.req (c85Req 0 n)) none none l Q ∧ Q.length = l.length := by
    intro l
    induction l with
    | nil => exact fun _ => ⟨[], .nil, rfl⟩
    | cons kv t ih =>
      intro h
      obtain ⟨Q, q1, q2⟩ := ih fun x hx => h x (by simp [hx])
      obtain ⟨k1, k2, t, k3, _⟩ := h kv (by simp)
      exact ⟨_, .ask k1 k2 k3 q1, by simp [q2]⟩
  obtain ⟨Q, q1, q2⟩ := key l d
  exact ⟨Q, b, q1, q2.trans c⟩

/-! ### Signing -/

/-- C99: if all signature bases exist, each signing key is asked once, for its own, in order; less if a key panics. -/
theorem C99_sign {m : Msg} {rf : Option Request} (hw : WfHeaders m.headers) (hf : ∀ r, rf = some r → WfHeaders r.headers)
    {l : List (SigParams × LogSigningKey × Option Str)} {ts : List Str} (ht : List.Forall₂ (fun x t => Wire.BaseOf m rf x.1 t) l ts) :
    ∃ b, (setSignaturesL m l rf).2.log = l.flatMap (fun x => coverLines x.1.covered) ++ b ∧
      b <+: (l.zip ts).flatMap (fun x => x.1.2.1.log (utf8 x.2)) ∧
      ((∀ x ∈ l, ∀ d, x.2.1.key.sign d ≠ .panic) → b = (l.zip ts).flatMap (fun x => x.1.2.1.log (utf8 x.2))) := by
  have hl : (setSignaturesL m l rf).2.log = (signHeadersL m l rf).log := by
    unfold setSignaturesL; cases (signHeadersL m l rf).res <;> rfl
  have hb : ∃ bs, (Logged.collect (fun pkn : SigParams × LogSigningKey × Option Str => do
        let b ← buildBaseL m pkn.1 rf; .quiet (.ok (b, pkn.2))) l).res = .ok bs ∧
      List.Forall₂ (fun (x : SigBase × LogSigningKey × Option Str) (y : (SigParams × LogSigningKey × Option Str) × Str) =>
        x.2 = y.1.2 ∧ x.1.bytes = utf8 y.2) bs (l.zip ts) ∧
      (Logged.collect (fun pkn : SigParams × LogSigningKey × Option Str => do
        let b ← buildBaseL m pkn.1 rf; .quiet (.ok (b, pkn.2))) l).log = l.flatMap (fun x => coverLines x.1.covered) := by
    clear hl
    induction ht with
    | nil => exact ⟨[], rfl, .nil, rfl⟩
    | @cons x t l ts h _ ih =>
      obtain ⟨bs, i1, i2, i3⟩ := ih
      obtain ⟨b, b1, b2⟩ := (buildBase_spec hw hf t).2 (wireBaseOf_iff.1 h)
      have hr : (buildBaseL m x.1 rf).res = .ok b := by rw [buildBaseL_res, b1]
      have hr2 : (do let b ← buildBaseL m x.1 rf; .quiet (.ok (b, x.2)) : Logged HyperErr (SigBase × LogSigningKey × Option Str)).res = .ok (b, x.2) := by
        rw [Logged.bind_res, hr]; rfl
      refine ⟨(b, x.2) :: bs, ?_, .cons ⟨rfl, by simp [SigBase.bytes, b2]⟩ i2, ?_⟩
      · simp only [Logged.collect]
        rw [Logged.bind_res, hr2, Res.bind_ok, Logged.bind_res, i1]; rfl
      · simp only [Logged.collect]
        rw [Logged.bind_log_ok hr2, Logged.bind_log_ok i1, i3, Logged.bind_log_ok hr, (buildBaseL_log m x.1 rf).2 b hr]
        simp
  obtain ⟨bs, h1, h2, h3⟩ := hb
  refine ⟨(Logged.gather (bs.map (fun bkn => bkn.1.headersL bkn.2.1 bkn.2.2)) : Logged HyperErr _).log, ?_, ?_⟩
  · rw [hl]
    unfold signHeadersL
    rw [Logged.bind_log_ok h1, h3]
    congr 1
    cases hg : (Logged.gather (bs.map (fun bkn => bkn.1.headersL bkn.2.1 bkn.2.2)) : Logged HyperErr _).res with
    | ok v => rw [Logged.bind_log_ok hg]; simp
    | err e => rw [Logged.bind_log_fail (by simp [hg])]
    | panic => rw [Logged.bind_log_fail (by simp [hg])]
  · have e : (bs.map (fun bkn => bkn.1.headersL bkn.2.1 bkn.2.2)).flatMap Logged.log = (l.zip ts).flatMap (fun x => x.1.2.1.log (utf8 x.2)) := by
      clear h1 h3 hl
      generalize l.zip ts = Z at h2
      induction h2 with
      | nil => rfl
      | cons h _ ih => rw [List.map_cons, List.flatMap_cons, ih, List.flatMap_cons]; simp [SigBase.headersL, h.1, h.2]
    obtain ⟨g1, g2⟩ := gather_trace (ε' := HyperErr) (bs.map (fun bkn => bkn.1.headersL bkn.2.1 bkn.2.2)) Logged.log (fun _ _ => List.prefix_refl _)
      (fun _ _ _ => rfl)
    rw [e] at g1 g2
    refine ⟨g1, fun hp => g2 ?_⟩
    rw [Logged.gather_res]
    have hn : ∀ r ∈ (bs.map (fun bkn => bkn.1.headersL bkn.2.1 bkn.2.2)).map Logged.res, r ≠ .panic := by
      intro r hr
      rw [List.map_map] at hr
      obtain ⟨x, hx, rfl⟩ := List.mem_map.1 hr
      obtain ⟨y, hy, hxy⟩ := forall₂_mem_left h2 x hx
      have := hp y.1 (List.of_mem_zip hy).1 x.1.bytes
      rw [← hxy.1] at this
      show (x.1.headers x.2.1.key x.2.2) ≠ .panic
      unfold SigBase.headers SigBase.rawSignature
      cases hk : x.2.1.key.sign x.1.bytes with
      | panic => exact absurd hk this
      | _ => nofun
    revert hn
    generalize (bs.map (fun bkn => bkn.1.headersL bkn.2.1 bkn.2.2)).map Logged.res = L
    intro hn
    induction L with
    | nil => nofun
    | cons r t ih =>
      have := ih fun r hr => hn r (by simp [hr])
      have hr := hn r (by simp)
      cases r with
      | panic => exact absurd rfl hr
      | ok a => cases hg : (Verif.gather t : Res HyperErr _) <;> simp_all [Verif.gather]
      | err e => cases hg : (Verif.gather t : Res HyperErr _) <;> simp_all [Verif.gather]

/-- C99: if one of the signature bases does not exist, no signing key is asked. -/
theorem C99_none {m : Msg} {rf : Option Request} (hw : WfHeaders m.headers) (hf : ∀ r, rf = some r → WfHeaders r.headers)
    {l : List (SigParams × LogSigningKey × Option Str)} (h : ∃ x ∈ l, ¬ ∃ t, Wire.BaseOf m rf x.1 t) :
    (setSignaturesL m l rf).2.log <+: l.flatMap (fun x => coverLines x.1.covered) := by
  have hl : (setSignaturesL m l rf).2.log = (signHeadersL m l rf).log := by
    unfold setSignaturesL; cases (signHeadersL m l rf).res <;> rfl
  have hb : ∀ x : SigParams × LogSigningKey × Option Str,
      (do let b ← buildBaseL m x.1 rf; .quiet (.ok (b, x.2)) : Logged HyperErr (SigBase × LogSigningKey × Option Str)).log <+: coverLines x.1.covered ∧
      ∀ v, (do let b ← buildBaseL m x.1 rf; .quiet (.ok (b, x.2)) : Logged HyperErr (SigBase × LogSigningKey × Option Str)).res = .ok v →
        (do let b ← buildBaseL m x.1 rf; .quiet (.ok (b, x.2)) : Logged HyperErr (SigBase × LogSigningKey × Option Str)).log = coverLines x.1.covered := by
    intro x
    obtain ⟨h1, h2⟩ := buildBaseL_log m x.1 rf
    have a := Logged.prefix_bind (b := []) (f := fun b => (.quiet (.ok (b, x.2)) : Logged HyperErr (SigBase × LogSigningKey × Option Str))) h1 h2
      (fun _ _ => List.prefix_refl _)
    rw [List.append_nil] at a
    refine ⟨a, fun v hv => ?_⟩
    have := Logged.exact_bind (b := []) hv h2 (fun _ _ _ => rfl)
    rwa [List.append_nil] at this
  obtain ⟨c1, _⟩ := Logged.prefix_collect l (fun x _ => (hb x).1) (fun x _ => (hb x).2)
  rw [hl]
  unfold signHeadersL
  rw [Logged.bind_log_fail]
  · exact c1
  · intro bs hbs
    rw [Logged.collect_res (g := fun pkn : SigParams × LogSigningKey × Option Str => do let b ← buildBase m pkn.1 rf; Res.ok (b, pkn.2))
      (fun pkn => by simp [buildBaseL_res])] at hbs
    obtain ⟨x, hx, hno⟩ := h
    obtain ⟨y, _, hy⟩ := forall₂_mem_left (Res.collect_ok_iff.1 hbs) x hx
    obtain ⟨b, hb, _⟩ := Res.bind_eq_ok.1 hy
    exact hno ⟨b.disp, wireBaseOf_iff.2 ((buildBase_spec hw hf _).1 ⟨b, hb, rfl⟩)⟩

/-! ### Examples -/

/-- A key that writes down the length of what it is asked about. -/
def countingKey (b : UInt8) : LogVerifyingKey := ⟨toyVerify b, fun d s => [⟨.debug, natStr d.length ++ ',' :: natStr s.length⟩]⟩

/-- Two signatures, both of them right for the first key, with two keys: four questions. -/
def c99Req : Request :=
  { exReq with headers := (setSignatures (.req exReq) [(exParams [⟨.derived .method, []⟩], toySign 1, some (c! "a")),
      (exParams [⟨.derived .path, []⟩], toySign 1, some (c! "b"))] none).1 }

example : verifySignatures 0 (.req c99Req) [(toyVerify 1, none), (toyVerify 2, none)] none = .ok [.ok (c! "a"), .error .invalidSignature] ∧
    (verifySignaturesL 0 (.req c99Req) [(countingKey 1, none), (countingKey 2, none)] none).log.length = 4 := by decide +kernel

/-- A signing key is not asked if another signature base does not exist. -/
example : (setSignaturesL (.req exReq) [(exParams [⟨.derived .method, []⟩], c98Sign 1, none), (exParams [⟨.derived .status, []⟩], c98Sign 1, none)] none).2.log = [] ∧
    (setSignaturesL (.req exReq) [(exParams [⟨.derived .method, []⟩], c98Sign 1, none), (exParams [⟨.derived .path, []⟩], c98Sign 1, none)] none).2.log =
      [signLine .ed25519, signLine .ed25519] := by decide +kernel

/-- A thousand signatures and two keys: two thousand questions. -/
example (now : UInt64) : (verifySignaturesL now (.req (c85Req 0 1000)) [(countingKey 1, none), (countingKey 2, none)] none).log.length =
    (verifySignaturesL now (.req (c85Req 0 1000)) [] none).log.length + 2000 := by
  obtain ⟨_, l, Q, h1, h2, h3⟩ := C99_all now 1000 (by decide) (by decide)
  have hp : ∀ b d s, (countingKey b).key.verify d s ≠ .panic := by
    intro b d s
    show (if _ then _ else _) ≠ _
    split <;> nofun
  rw [C99_count (m := .req (c85Req 0 1000)) (c85_wf 0 1000) (fun _ h => by cases h) h1 (.cons h2 (.cons h2 .nil)) (by
    intro k hk; simp only [List.mem_cons, List.not_mem_nil, or_false] at hk; rcases hk with rfl | rfl <;> exact hp _) (by
    intro k hk d s; simp only [List.mem_cons, List.not_mem_nil, or_false] at hk; rcases hk with rfl | rfl <;> rfl)]
  simp [h3]

example (now : UInt64) : ∃ l Q, Wire.Carries (c85Req 0 1000).headers l ∧ Wire.Questions now (.req (c85Req 0 1000)) none none l Q ∧ Q.length = 1000 :=
  (C99_all now 1000 (by decide) (by decide)).2

end Verif
