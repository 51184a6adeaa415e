import Verif.Spec.Forgery
import Verif.Props.C84
import Verif.Props.C107
import Verif.Props.C116
/-!
C118 From keys that accept only what was signed to real keys: whatever is accepted was signed, or a forgery can be read off the message.
-/
namespace Verif
open Sfv Spec Ex

/-! ### The pairs -/

/-- C118: the program finds the signature bases of the carried signatures and their octets, each once. -/
theorem C118_pairs {m : Msg} {rf : Option Request} (hw : WfHeaders m.headers) (hf : ∀ r, rf = some r → WfHeaders r.headers) (d s : Bytes) :
    (d, s) ∈ Forgery.pairs m rf ↔ ∃ l, Wire.Carries m.headers l ∧ ∃ kv ∈ l, ∃ t, Wire.BaseOf m rf kv.2.params t ∧ d = utf8 t ∧ s = kv.2.signature := by
  have one : ∀ kv : Str × SigHeaders, Forgery.pairOf m rf kv = some (d, s) ↔ ∃ t, Wire.BaseOf m rf kv.2.params t ∧ d = utf8 t ∧ s = kv.2.signature := by
    intro kv
    simp only [wireBaseOf_iff]
    unfold Forgery.pairOf
    constructor
    · intro h
      split at h
      · rename_i b hb
        injection h with h
        injection h with h1 h2
        exact ⟨b.disp, (buildBase_spec hw hf _).1 ⟨b, hb, rfl⟩, h1.symm, h2.symm⟩
      · cases h
    · rintro ⟨t, h, rfl, rfl⟩
      obtain ⟨b, hb, rfl⟩ := (buildBase_spec hw hf t).2 h
      rw [hb]
      rfl
  unfold Forgery.pairs
  simp only [wireCarries_iff, ← extractSignatureHeaders_ok hw]
  cases hl : extractSignatureHeaders m with
  | ok l => simp [one]
  | err e => simp
  | panic => simp

/-- C118: there are at most as many as signatures. -/
theorem C118_pairs_count {m : Msg} {rf : Option Request} (hw : WfHeaders m.headers) {l : List (Str × SigHeaders)} (hl : Wire.Carries m.headers l) :
    (Forgery.pairs m rf).length ≤ l.length := by
  unfold Forgery.pairs
  rw [(extractSignatureHeaders_ok hw l).2 (wireCarries_iff.1 hl)]
  exact List.length_filterMap_le _ _

/-! ### The key that accepts only what was signed -/

/-- The key, but it accepts only signed data. -/
noncomputable def idealKey (k : VerifyingKey) (S : Signing → Prop) : VerifyingKey :=
  strictKey k fun d => @decide (Forgery.SignedData S d) (Classical.propDecidable _)

theorem idealKey_only (k : VerifyingKey) (S : Signing → Prop) : OnlySigned (idealKey k S) S := by
  intro d s h
  unfold idealKey strictKey at h
  simp only at h
  split at h
  · split at h
    · rename_i hd
      exact @of_decide_eq_true _ (Classical.propDecidable _) hd
    · cases h
  · rename_i hn
    exact absurd h hn

theorem idealKey_library {k : VerifyingKey} (hk : LibraryKey k) (S : Signing → Prop) : LibraryKey (idealKey k S) := .strict hk _

theorem idealKey_same {k : VerifyingKey} {S : Signing → Prop} {d s : Bytes} (h : ¬ Forgery.Pair k S (d, s)) : (idealKey k S).verify d s = k.verify d s := by
  unfold idealKey strictKey
  simp only
  split
  · rename_i e
    rw [e]
    rw [if_pos]
    exact @decide_eq_true _ (Classical.propDecidable _) (by
      by_contra hn
      exact h ⟨e, hn⟩)
  · rfl

theorem idealKey_guard {k : VerifyingKey} {S : Signing → Prop} {d s : Bytes} (h : ¬ Forgery.Pair k S (d, s)) :
    (Guard.key (idealKey k S)).verify d s = (Guard.key k).verify d s := by
  have e : Guard.lengthFine (idealKey k S).alg s = Guard.lengthFine k.alg s := rfl
  unfold Guard.key
  simp only
  rw [e, idealKey_same h]

theorem asked_pairs {now : UInt64} {m : Msg} {rf : Option Request} {id : Option Str} (hw : WfHeaders m.headers)
    (hf : ∀ r, rf = some r → WfHeaders r.headers) {d s : Bytes} (h : Asked now m rf id d s) : (d, s) ∈ Forgery.pairs m rf := by
  obtain ⟨l, h1, kv, h2, _, _, h3⟩ := h
  exact (C118_pairs hw hf d s).2 ⟨l, h1, kv, h2, h3⟩

/-- C118: if a message holds no forgery, nothing tells a key from the one that accepts only what was signed. -/
theorem C118_same {now : UInt64} {m : Msg} {rf : Option Request} (hw : WfHeaders m.headers) (hf : ∀ r, rf = some r → WfHeaders r.headers)
    {k : VerifyingKey} {S : Signing → Prop} (hn : ¬ Forgery.Holds k S m rf) (id : Option Str) :
    ∃ k', OnlySigned k' S ∧ (LibraryKey k → LibraryKey k') ∧ k'.keyId = k.keyId ∧ k'.alg = k.alg ∧
      verifySignature now m k' id rf = verifySignature now m k id rf :=
  ⟨idealKey k S, idealKey_only k S, fun h => idealKey_library h S, rfl, rfl,
    C84_verify hw hf fun _ _ h => idealKey_same fun hp => hn ⟨_, asked_pairs hw hf h, hp⟩⟩

theorem idealKey_receive {now : UInt64} {m : Msg} {rf : Option Request} (hw : WfHeaders m.headers) (hf : ∀ r, rf = some r → WfHeaders r.headers)
    (g : List (VerifyingKey × Option Str)) (who : VerifyingKey × Option Str → Signing → Prop) (hn : ∀ ki ∈ g, ¬ Forgery.Holds ki.1 (who ki) m rf) :
    Guard.receive now m (g.map fun ki => (idealKey ki.1 (who ki), ki.2)) rf = Guard.receive now m g rf := by
  have e : verifySignatures now m ((g.map fun ki => (idealKey ki.1 (who ki), ki.2)).map fun ki => (Guard.key ki.1, ki.2)) rf =
      verifySignatures now m (g.map fun ki => (Guard.key ki.1, ki.2)) rf := by
    refine C84_verify_many hw hf ?_
    rw [List.map_map]
    induction g with
    | nil => exact .nil
    | cons ki t ih =>
      refine .cons ⟨rfl, fun d s h => ?_⟩ (ih fun x hx => hn x (by simp [hx]))
      exact idealKey_guard fun hp => hn ki (by simp) ⟨_, asked_pairs hw hf h, hp⟩
  unfold Guard.receive Guard.verifyAll
  rw [e]

theorem idealKey_careful {k : VerifyingKey} {S : Signing → Prop} {id : Option Str} {a : Replay.Arrival} (hw : WfHeaders a.m.headers)
    (hf : ∀ r, a.rf = some r → WfHeaders r.headers) (hn : ¬ Forgery.Holds k S a.m a.rf) : Replay.careful (idealKey k S) id a = Replay.careful k id a := by
  have := idealKey_receive (now := a.now) hw hf [(k, id)] (fun _ => S) (by simpa using hn)
  unfold Replay.careful
  rw [List.map_cons, List.map_nil] at this
  rw [this]

theorem taken_congr {look look' : Replay.Arrival → Option (Str × SigParams)} {as : List Replay.Arrival} (h : ∀ a ∈ as, look a = look' a)
    (s : Replay.Memory) : Replay.taken look s as = Replay.taken look' s as := by
  induction as generalizing s with
  | nil => simp only [Replay.taken]
  | cons a t ih =>
    have e : Replay.step look s a = Replay.step look' s a := by unfold Replay.step; rw [h a (by simp)]
    unfold Replay.taken
    rw [e]
    split <;> simp only [ih fun b hb => h b (by simp [hb])]

theorem idealKey_look {k : VerifyingKey} {S : Signing → Prop} {id : Option Str} {need : List CId} {a : Replay.Arrival} (hw : WfHeaders a.m.headers)
    (hf : ∀ r, a.rf = some r → WfHeaders r.headers) (hn : ¬ Forgery.Holds k S a.m a.rf) :
    Service.look (idealKey k S) id need a = Service.look k id need a := by
  unfold Service.look
  rw [idealKey_careful hw hf hn]

/-! ### What is accepted -/

/-- C118, the receiver of C101: what it accepts was signed, with exactly these parameters, for a message in which every covered component has the
same value; or the message holds a forgery. There is no assumption on the key. -/
theorem C118_bound {now : UInt64} {m : Msg} {rf : Option Request} (hm : WfMsg m) (hf : ∀ r, rf = some r → WfRequest r) {k : VerifyingKey}
    (hk : LibraryKey k) {S : Signing → Prop} (hc : ∀ x, S x → CarefulSigning x) {id : Option Str} {n : Str}
    (h : Guard.receive now m [(k, id)] rf = .ok [.ok n]) :
    Forgery.Holds k S m rf ∨ ∃ l sh, Carries m.headers l ∧ (n, sh) ∈ l ∧ ∃ x, S x ∧ x.p = sh.params ∧
      ∀ i ∈ x.p.covered, ∃ v, HasValue m rf i v ∧ HasValue x.m x.rf i v := by
  refine or_iff_not_imp_left.2 fun hn => ?_
  have e := idealKey_receive (now := now) hm.wfHeaders (fun r h => (hf r h).headers) [(k, id)] (fun _ => S) (by simpa using hn)
  rw [h] at e
  cases C101_bound hm hf e with
  | cons hb _ =>
    obtain ⟨l, sh, h1, h2, x, h3, h4, h5⟩ := hb n rfl (idealKey_library hk S) S (idealKey_only k S) hc
    exact ⟨l, sh, h1, h2, x, h3, h4, fun i hi => (h5 i (by rw [← h4]; exact hi)).1⟩

/-- C118, time: what is accepted was signed before it arrived; or the message is a forgery with respect to what was signed until then. -/
theorem C118_before {es post : List Forgery.Event} {a : Replay.Arrival} {all : List Forgery.Event} (_ : all = es ++ .arrives a :: post)
    (ha : FineArrival a) {k : VerifyingKey} (hk : LibraryKey k) (hc : ∀ x, Forgery.SignedIn all x → CarefulSigning x) {id : Option Str}
    {x : Str × SigParams} (h : Replay.careful k id a = some x) :
    Forgery.Holds k (Forgery.SignedIn es) a.m a.rf ∨ ∃ y, Forgery.SignedIn es y ∧ y.p = x.2 ∧
      ∀ i ∈ y.p.covered, ∃ v, HasValue a.m a.rf i v ∧ HasValue y.m y.rf i v := by
  subst all
  obtain ⟨h1, h2⟩ := careful_plain ha.1.wfHeaders h
  obtain ⟨_, l, sh, c1, c2, c3⟩ := (plain_iff ha.1.wfHeaders).1 h2
  refine (C118_bound ha.1 ha.2 hk (fun y hy => hc y (List.mem_append_left _ hy)) h1).imp_right ?_
  rintro ⟨l', sh', g1, g2, y, g3, g4, g5⟩
  cases carries_unique ha.1.wfHeaders c1 g1
  have : (x.1, sh) = (x.1, sh') := List.inj_on_of_nodup_map (carries_nodup c1) c2 g2 rfl
  injection this with _ this
  subst this
  exact ⟨y, g3, by rw [g4, c3], g5⟩

/-- C118, the receiver of C102: to what is taken there belong different signings; or one of the messages holds a forgery. -/
theorem C118_once {k : VerifyingKey} (hk : LibraryKey k) {S : Signing → Prop} (hc : ∀ x, S x → CarefulSigning x) (id : Option Str)
    {as : List Replay.Arrival} (hw : ∀ a ∈ as, FineArrival a) (ho : Replay.Ordered as) :
    (∃ a ∈ as, Forgery.Holds k S a.m a.rf) ∨
    ∃ ys : List Signing, ys.Nodup ∧ List.Forall₂ (fun (z : Replay.Arrival × Str × SigParams) y => S y ∧ y.p = z.2.2 ∧
      ∀ i ∈ y.p.covered, ∃ v, HasValue z.1.m z.1.rf i v ∧ HasValue y.m y.rf i v) (Replay.taken (Replay.careful k id) [] as) ys := by
  refine or_iff_not_imp_left.2 fun hn => ?_
  have e := taken_congr (look := Replay.careful (idealKey k S) id) (look' := Replay.careful k id) (as := as) (fun a ha =>
    idealKey_careful (fine_headers (hw a ha)).1 (fine_headers (hw a ha)).2 fun hh => hn ⟨a, ha, hh⟩) []
  have := C102_injective (idealKey_library hk S) (idealKey_only k S) hc id hw ho
  rw [e] at this
  exact this

/-- C118, groups: if the receiver of C107 is content then `k` members of the group signed; or the message holds a forgery for one of the keys. -/
theorem C118_group {now : UInt64} {k : Nat} {m : Msg} {rf : Option Request} {g : Quorum.Group} (hm : WfMsg m) (hf : ∀ r, rf = some r → WfRequest r)
    (hlk : ∀ ki ∈ g, LibraryKey ki.1) {who : VerifyingKey × Option Str → Signing → Prop} (hc : ∀ ki ∈ g, ∀ x, who ki x → CarefulSigning x)
    {need : List CId} (h : Quorum.careful now k need m g rf = true) :
    (∃ ki ∈ g, Forgery.Holds ki.1 (who ki) m rf) ∨
    ∃ s xs, s.Sublist g ∧ s.length = k ∧ List.Forall₂ (fun ki x => who ki x ∧ (∀ i, ki.2 = some i → x.p.keyid = some i) ∧
        (∀ e, x.p.expires = some e → now ≤ e) ∧ (∀ i ∈ need, i ∈ x.p.covered) ∧ ∀ i ∈ x.p.covered, ∃ v, HasValue m rf i v ∧ HasValue x.m x.rf i v) s xs ∧
      (Quorum.OwnNames g → xs.Nodup) := by
  refine or_iff_not_imp_left.2 fun hn => ?_
  have e := idealKey_receive (now := now) hm.wfHeaders (fun r h => (hf r h).headers) g who (fun ki hki hh => hn ⟨ki, hki, hh⟩)
  refine quorum_signings hm hf h fun rs hrs => ?_
  rw [hrs] at e
  have hb := C101_bound hm hf e
  rw [List.forall₂_map_left_iff] at hb
  refine hb.imp ?_
  intro ki r hb n hn hg
  obtain ⟨l, sh, h1, h2, x, h3, h4, h5⟩ := hb n hn (idealKey_library (hlk ki hg) _) (who ki) (idealKey_only _ _) (hc ki hg)
  exact ⟨l, sh, h1, h2, x, h3, h4, fun i hi => (h5 i hi).1⟩

/-! ### Requests, responses, answers -/

/-- Two texts with the same hash. -/
def HashCollision (b b' : Bytes) : Prop := b ≠ b' ∧ ∃ t, hashOf t b = hashOf t b'

theorem same_or_collision {t : DigestType} {b b' : Bytes} (h : hashOf t b = hashOf t b') : b = b' ∨ HashCollision b b' :=
  or_iff_not_imp_left.2 fun hn => ⟨hn, t, h⟩

theorem taken_ideal {k : VerifyingKey} {S : Signing → Prop} (id : Option Str) (need : List CId) {as : List Replay.Arrival} (hw : ∀ a ∈ as, FineArrival a)
    (hn : ¬ ∃ a ∈ as, Forgery.Holds k S a.m a.rf) : Service.taken (idealKey k S) id need as = Service.taken k id need as :=
  taken_congr (fun a ha => idealKey_look (fine_headers (hw a ha)).1 (fine_headers (hw a ha)).2 fun h => hn ⟨a, ha, h⟩) []

section
variable {k : VerifyingKey} (hk : LibraryKey k) {S : Signing → Prop} (hh : ∀ x, S x → HonestSigning x)
include hk hh

/-- C118, the receiver of C108: to what is taken there belong different signings with the same parameters, the same values of all covered
components and the same body; or one of the messages holds a forgery; or a body that was taken and one that was signed are different and have
the same hash. -/
theorem C118_service (id : Option Str) (need : List CId) {as : List Replay.Arrival} (hw : ∀ a ∈ as, FineArrival a) (ho : Replay.Ordered as) :
    (∃ a ∈ as, Forgery.Holds k S a.m a.rf) ∨
    (∃ z ∈ Service.taken k id need as, ∃ y, S y ∧ ∃ b b', body z.1.m = .data b ∧ body y.m = .data b' ∧ HashCollision b b') ∨
    ∃ ys : List Signing, ys.Nodup ∧ List.Forall₂ (fun (z : Replay.Arrival × Str × SigParams) y => y.p = z.2.2 ∧ S y ∧
      (∃ c e, y.p.nonce = some c ∧ y.p.expires = some e ∧ z.1.now ≤ e) ∧ (∀ i ∈ need, i ∈ y.p.covered) ∧
      (∀ i ∈ y.p.covered, ∃ v, HasValue z.1.m z.1.rf i v ∧ HasValue y.m y.rf i v) ∧ ∃ b, body z.1.m = .data b ∧ body y.m = .data b)
      (Service.taken k id need as) ys := by
  refine or_iff_not_imp_left.2 fun hn => or_iff_not_imp_left.2 fun hcol => ?_
  obtain ⟨ys, h1, h2⟩ := C108_sound (idealKey_library hk S) (idealKey_only k S) hh id need hw ho
  rw [taken_ideal id need hw hn] at h2
  refine ⟨ys, h1, ?_⟩
  rw [List.forall₂_iff_get] at h2 ⊢
  refine ⟨h2.1, fun i g1 g2 => ?_⟩
  obtain ⟨a1, a2, a3, a4, a5, t, b, b', a6, a7, a8⟩ := h2.2 i g1 g2
  refine ⟨a1, a2, a3, a4, a5, b, a6, ?_⟩
  rcases same_or_collision a8 with rfl | hc
  · exact a7
  · exact absurd ⟨_, List.get_mem _ _, _, a2, b, b', a6, a7, hc⟩ hcol

/-- C118, requests: every request that is taken was signed, with this method up to letter case, this URI and this body; or there is a forgery or a
collision. -/
theorem C118_request (L : UriLib) (hu : ∀ x r', S x → x.m = .req r' → ∃ s, Uri.parse L s = some r'.uri) (id : Option Str) {need : List CId}
    (hneed : ∀ i ∈ requestNeed, i ∈ need) {as : List Replay.Arrival} (hw : ∀ a ∈ as, FineArrival a) (ho : Replay.Ordered as)
    (hr : ∀ a ∈ as, a.rf = none ∧ ∃ r, a.m = .req r ∧ ∃ s, Uri.parse L s = some r.uri) :
    (∃ a ∈ as, Forgery.Holds k S a.m a.rf) ∨
    (∃ z ∈ Service.taken k id need as, ∃ y, S y ∧ ∃ b b', body z.1.m = .data b ∧ body y.m = .data b' ∧ HashCollision b b') ∨
    ∃ ys : List Signing, ys.Nodup ∧ List.Forall₂ (fun (z : Replay.Arrival × Str × SigParams) y => y.p = z.2.2 ∧ S y ∧
      ∃ r r', z.1.m = .req r ∧ y.m = .req r' ∧ r'.method.map Char.toUpper = r.method.map Char.toUpper ∧ shown r'.uri = shown r.uri ∧
        ∃ b, r.body = .data b ∧ r'.body = .data b) (Service.taken k id need as) ys := by
  refine or_iff_not_imp_left.2 fun hn => or_iff_not_imp_left.2 fun hcol => ?_
  obtain ⟨ys, h1, h2⟩ := C108_request (idealKey_library hk S) (idealKey_only k S) hh L hu id hneed hw ho hr
  rw [taken_ideal id need hw hn] at h2
  refine ⟨ys, h1, ?_⟩
  rw [List.forall₂_iff_get] at h2 ⊢
  refine ⟨h2.1, fun i g1 g2 => ?_⟩
  obtain ⟨a1, a2, r, r', a3, a4, a5, a6, t, b, b', a7, a8, a9⟩ := h2.2 i g1 g2
  refine ⟨a1, a2, r, r', a3, a4, a5, a6, b, a7, ?_⟩
  rcases same_or_collision a9 with rfl | hc
  · exact a8
  · exact absurd ⟨_, List.get_mem _ _, _, a2, b, b', by rw [a3]; exact a7, by rw [a4]; exact a8, hc⟩ hcol

end

/-- C118, the exchange of C116: a client that takes an answer knows that the server took exactly its request and signed this answer to it; or one of
the requests that arrived at the server, or the answer, holds a forgery. -/
theorem C118_exchange {kc ks : VerifyingKey} (hkc : LibraryKey kc) (hks : LibraryKey ks) {Sc Ss : Signing → Prop} (hc : ∀ x, Sc x → HonestSigning x)
    (hs : ∀ y, Ss y → HonestSigning y) {idc : Option Str} {need : List CId} {as : List Replay.Arrival} (hw : ∀ a ∈ as, FineArrival a)
    (hans : Exchange.Answers (Service.taken kc idc need as) Ss) (L : UriLib) (hfresh : Exchange.FreshNonces Sc)
    (hu : ∀ y r', Ss y → y.rf = some r' → ∃ s, Uri.parse L s = some r'.uri) {t : DigestType} {needc : List CId} {q0 q : Request} {p : SigParams}
    {ck : SigningKey} {name : Option Str} {m1 : Msg} (hq : WfRequest q0)
    (hsend : Service.send t needc (.req q0) p ck name none = some (.req q)) (hm1 : Service.setDigest t (.req q0) = some m1) (hown : Sc ⟨m1, none, p⟩)
    (hqu : ∃ s, Uri.parse L s = some q.uri) {ids : Option Str} {needs : List CId} (hneed : ∀ i ∈ Exchange.answerNeed, i ∈ needs) {now : UInt64}
    {s : Response} (hres : WfHeaders s.headers) {x : Str × SigParams} (htake : Service.look ks ids needs ⟨now, .res s, some q⟩ = some x) :
    (∃ a ∈ as, Forgery.Holds kc Sc a.m a.rf) ∨ Forgery.Holds ks Ss (.res s) (some q) ∨
    ∃ z ∈ Service.taken kc idc need as, ∃ r' s', z.1.m = .req r' ∧ z.2 = (name.getD (c! "sig"), p) ∧ Ss ⟨.res s', some r', x.2⟩ ∧
      (∀ i ∈ p.covered, ∃ v, HasValue (.req r') z.1.rf i v ∧ HasValue (.req q) none i v) ∧
      r'.method.map Char.toUpper = q.method.map Char.toUpper ∧ shown r'.uri = shown q.uri ∧
      (∃ t b b', q.body = .data b ∧ r'.body = .data b' ∧ hashOf t b = hashOf t b') ∧
      s'.status = s.status ∧ ∃ t b b', s.body = .data b ∧ s'.body = .data b' ∧ hashOf t b = hashOf t b' := by
  refine or_iff_not_imp_left.2 fun hn => or_iff_not_imp_left.2 fun hn' => ?_
  obtain ⟨s1, s2, _⟩ := C108_sent (m := .req q0) hq.headers (by simp) hsend
  have hwq : WfRequest q := same_wfMsg (m := .req q0) (m1 := .req q) hq s1 s2
  have e := taken_ideal idc need hw hn
  have e' := idealKey_look (a := ⟨now, .res s, some q⟩) (id := ids) (need := needs) hres (by intro r h; injection h with h; subst h; exact hwq.headers) hn'
  rw [← e'] at htake
  rw [← e] at hans
  have := C116_agreement (idealKey_library hkc Sc) (idealKey_library hks Ss) (idealKey_only kc Sc) (idealKey_only ks Ss) hc hs hw hans L hfresh hu hq hsend hm1
    hown hqu hneed hres htake
  rw [e] at this
  exact this

/-! ### The need for it -/

/-- C118: keys that accept only what was signed are those for which no message holds a forgery that is not there. -/
theorem C118_none {k : VerifyingKey} {S : Signing → Prop} (hS : OnlySigned k S) (m : Msg) (rf : Option Request) : ¬ Forgery.Holds k S m rf := by
  rintro ⟨⟨d, s⟩, _, h1, h2⟩
  exact h2 (hS d s h1)

/-- C118: no less will do. Whoever has a forgery for the signature base of a message, with parameters as the library can write them, has a message
that verification accepts, and it differs from the first only in its signature fields. -/
theorem C118_needed {k : VerifyingKey} {m : Msg} {rf : Option Request} (hw : WfHeaders m.headers) (hf : ∀ r, rf = some r → WfHeaders r.headers)
    (h0 : fieldLines m.headers (c! "signature-input") = []) (h0' : fieldLines m.headers (c! "signature") = []) {p : SigParams} (hp : SafeParams p)
    (hself : NotSelf p) {n : Str} (hn : LegalKey n) {now : UInt64} (ht : ∀ e, p.expires = some e → now ≤ e) {t : Str} (hb : BaseOf m rf p t)
    {S : Signing → Prop} {s : Bytes} (hs : Forgery.Pair k S (utf8 t, s)) :
    ∃ h', Carries h' [(n, ⟨n, s, p⟩)] ∧ (∀ f, lower f ≠ c! "signature" → lower f ≠ c! "signature-input" → fieldLines h' f = fieldLines m.headers f) ∧
      verifySignature now (m.withHeaders h') k p.keyid rf = .ok n ∧ Forgery.Holds k S (m.withHeaders h') rf := by
  have e : ∀ hd, (m.withHeaders hd).headers = hd := by intro hd; cases m <;> rfl
  have hc : Carries (m.headers ++ [(⟨n, s, p⟩ : SigHeaders)].flatMap sigLines) [(n, ⟨n, s, p⟩)] := by
    have := hasSignatures_putAll (h := m.headers) (l := []) (hs := [⟨n, s, p⟩]) (Or.inl ⟨h0, h0', rfl⟩) (by
      intro sh hsh; rw [List.mem_singleton] at hsh; subst hsh; exact ⟨hn, hp⟩)
    rcases this with ⟨h2, _, _⟩ | ⟨h2, _⟩
    · rw [fieldLines_append, fieldLines_sigLines_input] at h2
      simp at h2
    · simpa [putIn] using h2
  have base : ∀ x, BaseOf (m.withHeaders (m.headers ++ [(⟨n, s, p⟩ : SigHeaders)].flatMap sigLines)) rf p x ↔ BaseOf m rf p x :=
    base_after hself hw hf _
  have hw' : WfHeaders (m.withHeaders (m.headers ++ [(⟨n, s, p⟩ : SigHeaders)].flatMap sigLines)).headers := by rw [e]; exact wf_sigLines hw _
  refine ⟨_, hc, ?_, ?_, (utf8 t, s), (C118_pairs hw' hf _ _).2 ⟨_, wireCarries_iff.2 (by rw [e]; exact hc), _, List.mem_singleton.2 rfl, t,
    wireBaseOf_iff.2 ((base t).2 hb), rfl, rfl⟩, hs⟩
  · intro f h1 h2
    rw [fieldLines_append, fieldLines_sigLines_other _ h1 h2, List.append_nil]
  · refine (C10_ok_iff hw' hf _).2 ⟨[(n, ⟨n, s, p⟩)], by rw [e]; exact hc, ?_, [], ⟨n, s, p⟩, [], rfl,
      ⟨t, (base t).2 hb, fun i hi => hi, ht, hs.1⟩, by simp⟩
    intro kv hkv
    rw [List.mem_singleton] at hkv
    subst hkv
    rintro ⟨t', c1, _, _, c2⟩
    simp only at c1 c2
    have : t' = t := by
      obtain ⟨b, e1, rfl⟩ := (buildBase_spec hw hf t').2 ((base t').1 c1)
      obtain ⟨b', e2, rfl⟩ := (buildBase_spec hw hf t).2 hb
      rw [e1] at e2; injection e2 with e2; rw [e2]
    subst this
    rw [hs.1] at c2; cases c2

/-! ### Cases -/

set_option maxRecDepth 20000 in
-- what the program reads off a message
example : Forgery.pairs (c102Sent 50).m none = [(utf8 c102Text, List.replicate 64 1)] := by decide +kernel

set_option maxRecDepth 20000 in
theorem c118_accepted : Guard.receive 50 (c102Sent 50).m [(c102Key, some (c! "k"))] none = .ok [.ok (c! "sig")] := by decide +kernel

-- the message is accepted: it was signed, if the holder signed it
example : ∃ l sh, Carries (c102Sent 50).m.headers l ∧ (c! "sig", sh) ∈ l ∧ c102Signing.p = sh.params := by
  rcases C118_bound (rf := none) (c102_fine 50 _).1 (fun r h => nomatch h) (.ofPublic _ : LibraryKey c102Key) (S := (· = c102Signing)) (by rintro x rfl; exact c102_careful)
    c118_accepted with h | ⟨l, sh, h1, h2, x, rfl, h3, _⟩
  · exact absurd h (C118_none c102_only _ _)
  · exact ⟨l, sh, h1, h2, h3⟩

-- and it is a forgery if nobody signed it
example : Forgery.Holds c102Key (fun _ => False) (c102Sent 50).m none := by
  rcases C118_bound (rf := none) (c102_fine 50 _).1 (fun r h => nomatch h) (.ofPublic _ : LibraryKey c102Key) (S := fun _ => False) (by intro x h; exact h.elim)
    c118_accepted with h | ⟨l, sh, h1, h2, x, h, _⟩
  · exact h
  · exact h.elim

-- the same in the order of events: signed first, or signed after it arrived
example : ∃ y, Forgery.SignedIn [.signed c102Signing] y ∧ y.p = c102Signing.p := by
  rcases C118_before (es := [.signed c102Signing]) (post := []) (a := c102Sent 50) rfl (c102_fine 50 _) (.ofPublic _ : LibraryKey c102Key)
    (by intro x hx; simp only [Forgery.SignedIn, List.cons_append, List.nil_append, List.mem_cons, Forgery.Event.signed.injEq, reduceCtorEq, List.not_mem_nil, or_false] at hx; subst hx; exact c102_careful)
    (id := some (c! "k")) (x := (c! "sig", c102Signing.p)) (by decide +kernel) with h | ⟨y, h1, h2, _⟩
  · refine absurd h (C118_none (fun d s h => ?_) _ _)
    obtain ⟨x, rfl, h⟩ := c102_only d s h
    exact ⟨_, List.mem_singleton.2 rfl, h⟩
  · exact ⟨y, h1, h2⟩
example : Forgery.Holds c102Key (Forgery.SignedIn []) (c102Sent 50).m none := by
  rcases C118_before (es := []) (post := [.signed c102Signing]) (a := c102Sent 50) rfl (c102_fine 50 _) (.ofPublic _ : LibraryKey c102Key)
    (by intro x hx; simp only [Forgery.SignedIn, List.nil_append, List.mem_cons, Forgery.Event.signed.injEq, reduceCtorEq, List.not_mem_nil, or_false, false_or] at hx; subst hx; exact c102_careful)
    (id := some (c! "k")) (x := (c! "sig", c102Signing.p)) (by decide +kernel) with h | ⟨y, h1, _⟩
  · exact h
  · cases h1

-- a message that is sent three times, with a key of which nothing is known but that it is one of the library's
example (k : VerifyingKey) (hk : LibraryKey k) :
    (∃ a ∈ [c102Sent 50, c102Sent 60, c102Sent 70], Forgery.Holds k (· = c102Signing) a.m a.rf) ∨
    (Replay.taken (Replay.careful k (some (c! "k"))) [] [c102Sent 50, c102Sent 60, c102Sent 70]).length ≤ 1 := by
  refine (C118_once hk (S := (· = c102Signing)) (by rintro x rfl; exact c102_careful) (some (c! "k")) (as := [c102Sent 50, c102Sent 60, c102Sent 70])
    (by intro a ha; simp only [List.mem_cons, List.not_mem_nil, or_false] at ha; rcases ha with rfl | rfl | rfl <;> exact c102_fine _ _)
    (by
      simp only [Replay.Ordered, List.pairwise_cons, List.mem_cons, List.not_mem_nil, or_false, forall_eq_or_imp, forall_eq]
      exact ⟨⟨by decide, by decide⟩, by decide, (fun _ h => h.elim), .nil⟩)).imp_right ?_
  rintro ⟨ys, h1, h2⟩
  rw [h2.length_eq]
  have : ∀ y ∈ ys, y = c102Signing := by
    intro y hy
    obtain ⟨z, _, hz, _⟩ := forall₂_mem_right h2 y hy
    exact hz
  match ys, h1, this with
  | [], _, _ => simp
  | [y], _, _ => simp
  | a :: b :: t, h1, h =>
    rw [h a (by simp), h b (by simp)] at h1
    simp at h1

set_option maxRecDepth 20000 in
-- a group: the member signed, or its key was forged
example (S : Signing → Prop) (hS : ∀ x, S x → x = c102Signing) : Forgery.Holds c102Key S (c102Sent 50).m none ∨ S c102Signing := by
  rcases C118_group (now := 50) (k := 1) (m := (c102Sent 50).m) (rf := none) (c102_fine 50 _).1 (fun r h => nomatch h) (g := [(c102Key, some (c! "k"))]) (by simpa using .ofPublic _)
    (who := fun _ => S) (by intro ki _ x hx; rw [hS x hx]; exact c102_careful) (need := [⟨.derived .method, []⟩]) (by decide +kernel) with ⟨ki, h1, h2⟩ | ⟨s, xs, h1, h2, h3, _⟩
  · rw [List.mem_singleton] at h1; subst h1; exact .inl h2
  · cases h3 with
    | nil => cases h2
    | @cons _ x _ _ a _ => exact .inr (hS x a.1 ▸ a.1)

-- `C118_needed`: a signature nobody made is all that is needed
example : ∃ h', verifySignature 50 ((Msg.req exReq).withHeaders h') c102Key (some (c! "k")) none = .ok (c! "x") ∧
    Forgery.Holds c102Key (fun _ => False) ((Msg.req exReq).withHeaders h') none := by
  obtain ⟨h', _, _, h1, h2⟩ := C118_needed (m := .req exReq) (rf := none) (k := c102Key) (p := c102Signing.p) (n := c! "x") (now := 50) (S := fun _ => False)
    (s := List.replicate 64 1) exReq_wf (by simp) (by decide) (by decide) c102_careful.safe (by intro i hi _; cases List.mem_singleton.1 hi; exact ⟨by simp, by simp⟩) (by decide)
    (by intro e he; injection he with he; subst he; decide) (t := c102Text) ((buildBase_spec (m := c102Signing.m) exReq_wf (by intro r h; cases h) c102Text).1
      ⟨⟨[⟨⟨.derived .method, []⟩, .plain (c! "POST")⟩], c102Signing.p⟩, by decide, by decide +kernel⟩) ⟨by decide +kernel, by rintro ⟨x, h, _⟩; exact h⟩
  exact ⟨h', h1, h2⟩

/-! The examples of C108 and C116 meet the hypotheses of `C118_service`, `C118_request` and `C118_exchange`, which ask for less. -/

end Verif
