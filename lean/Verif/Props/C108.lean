import Verif.Spec.Service
import Verif.Props.C89
import Verif.Props.C102
/-!
C108 A sender and a receiver that use all of the library.
-/
namespace Verif
open Sfv Spec Ex

/-! ### The checks -/

theorem service_digestRight {m : Msg} (hw : WfHeaders m.headers) :
    Service.digestRight m = true ↔ (fieldLines m.headers (c! "content-digest")).length = 1 ∧ ∃ x, digest m = .ok x := by
  unfold Service.digestRight digest
  rw [Bool.and_eq_true, beq_iff_eq, getAll_fieldLines hw]
  refine and_congr Iff.rfl ?_
  cases m with
  | req r =>
    show (Res.isOk (Request.verifyContentDigest r)) = true ↔ ∃ x, verifyDigest r.headers r.body = .ok x
    unfold Request.verifyContentDigest
    cases h : verifyDigest r.headers r.body <;> simp [Res.isOk, Bind.bind, Res.bind]
  | res r =>
    show (Res.isOk (Response.verifyContentDigest r)) = true ↔ ∃ x, verifyDigest r.headers r.body = .ok x
    unfold Response.verifyContentDigest
    cases h : verifyDigest r.headers r.body <;> simp [Res.isOk, Bind.bind, Res.bind]

theorem service_isDigest (i : CId) : Service.isDigest i = true ↔ ∃ f, IsDigestField f ∧ i = ⟨.field f, []⟩ := by
  obtain ⟨n, ps⟩ := i
  unfold Service.isDigest IsDigestField
  cases n with
  | field f =>
    simp only [Bool.and_eq_true, beq_iff_eq]
    constructor
    · rintro ⟨rfl, h⟩; exact ⟨f, h, rfl⟩
    · rintro ⟨g, h, e⟩; injection e with e1 e2; injection e1 with e1; subst e1; exact ⟨e2, h⟩
  | derived d => simp

theorem service_coversAll (need : List CId) (p : SigParams) :
    Service.coversAll need p = true ↔ (∀ i ∈ need, i ∈ p.covered) ∧ ∃ f, IsDigestField f ∧ ⟨.field f, []⟩ ∈ p.covered := by
  unfold Service.coversAll
  rw [Bool.and_eq_true, List.all_eq_true, List.any_eq_true]
  simp only [decide_eq_true_eq]
  refine and_congr Iff.rfl ?_
  constructor
  · rintro ⟨i, hi, h⟩
    obtain ⟨f, hf, rfl⟩ := (service_isDigest i).1 h
    exact ⟨f, hf, hi⟩
  · rintro ⟨f, hf, hi⟩
    exact ⟨_, hi, (service_isDigest _).2 ⟨f, hf, rfl⟩⟩

theorem service_look {k : VerifyingKey} {id : Option Str} {need : List CId} {a : Replay.Arrival} {x : Str × SigParams} :
    Service.look k id need a = some x ↔ Service.digestRight a.m = true ∧ Replay.careful k id a = some x ∧ Service.coversAll need x.2 = true := by
  unfold Service.look
  by_cases h : Service.digestRight a.m = true
  · rw [if_pos h]
    cases hc : Replay.careful k id a with
    | none => simp
    | some y =>
      simp only
      by_cases h2 : Service.coversAll need y.2 = true
      · rw [if_pos h2]
        simp only [h, true_and]
        constructor
        · rintro e; injection e with e; subst e; exact ⟨rfl, h2⟩
        · rintro ⟨e, _⟩; exact e
      · rw [if_neg h2]
        simp only [h, true_and]
        constructor
        · rintro e; cases e
        · rintro ⟨e, h3⟩; injection e with e; subst e; exact absurd h3 h2
  · rw [if_neg h]; simp [h]

theorem service_timely (k : VerifyingKey) (id : Option Str) (need : List CId) {as : List Replay.Arrival} (hw : ∀ a ∈ as, FineArrival a) :
    Replay.Timely (Service.look k id need) as :=
  fun a ha x h e he => (C102_timely k id hw).2 a ha x (service_look.1 h).2.1 e he

/-- What passes is what the careful receiver of C89 accepts, with the key that looks at the length first. -/
theorem service_careful {k : VerifyingKey} {id : Option Str} {need : List CId} {a : Replay.Arrival} (hw : WfHeaders a.m.headers)
    {x : Str × SigParams} (h : Service.look k id need a = some x) :
    Careful a.now (Guard.key k) id a.m a.rf need x.1 ∧ ∀ ps p, getSignatureParams a.m = .ok ps → (x.1, p) ∈ ps → p = x.2 := by
  obtain ⟨h1, h2, h3⟩ := service_look.1 h
  obtain ⟨g1, g2⟩ := careful_plain hw h2
  obtain ⟨hv, l, sh, c1, c2, c3⟩ := (plain_iff hw).1 g2
  obtain ⟨d1, d2⟩ := (service_digestRight hw).1 h1
  obtain ⟨e1, e2⟩ := (service_coversAll _ _).1 h3
  refine ⟨⟨((receive_ok hw).1 g1).1, d1, hv, d2, _, x.2, (C49_params hw _).2 ⟨l, c1, rfl⟩, ?_, e1, e2⟩, ?_⟩
  · exact List.mem_map.2 ⟨_, c2, by rw [c3]⟩
  · intro ps p hps hp
    obtain ⟨l', c1', rfl⟩ := (C49_params hw ps).1 hps
    cases carries_unique hw c1 c1'
    obtain ⟨kv, hkv, e⟩ := List.mem_map.1 hp
    have : kv = (x.1, sh) := List.inj_on_of_nodup_map (carries_nodup c1) hkv c2 (Prod.mk.inj e).1
    subst this
    rw [c3]; exact (Prod.mk.inj e).2.symm

theorem taken_nonce {look : Replay.Arrival → Option (Str × SigParams)} {as : List Replay.Arrival} {s : Replay.Memory}
    {y : Replay.Arrival × Str × SigParams} (h : y ∈ Replay.taken look s as) : ∃ c e, y.2.2.nonce = some c ∧ y.2.2.expires = some e := by
  induction as generalizing s with
  | nil => cases h
  | cons a t ih =>
    unfold Replay.taken at h
    rcases step_cases (look := look) s a with ⟨x, c, e, _, h1, h2, _, hst⟩ | hst
    · rw [hst] at h
      rcases List.mem_cons.1 h with rfl | h
      · exact ⟨c, e, h1, h2⟩
      · exact ih h
    · rw [hst] at h; exact ih h

/-- Signings that have the parameters of the messages are all different. -/
theorem service_distinct {look : Replay.Arrival → Option (Str × SigParams)} {as : List Replay.Arrival} (hl : Replay.Timely look as)
    (ho : Replay.Ordered as) {R : Replay.Arrival × Str × SigParams → Signing → Prop}
    (h : ∀ z ∈ Replay.taken look [] as, ∃ y, y.p = z.2.2 ∧ R z y) :
    ∃ ys : List Signing, ys.Nodup ∧ List.Forall₂ (fun z y => y.p = z.2.2 ∧ R z y) (Replay.taken look [] as) ys := by
  have once := C102_once as hl ho []
  revert h once
  generalize Replay.taken look [] as = T
  intro key once
  induction T with
  | nil => exact ⟨[], List.nodup_nil, .nil⟩
  | cons z t ih =>
    obtain ⟨h1, h2⟩ := List.pairwise_cons.1 once
    obtain ⟨ys, g1, g2⟩ := ih (fun z hz => key z (by simp [hz])) h2
    obtain ⟨y, hy⟩ := key z (by simp)
    refine ⟨y :: ys, List.nodup_cons.2 ⟨fun hm => ?_, g1⟩, .cons hy g2⟩
    obtain ⟨z', hz', hy'⟩ := forall₂_mem_right g2 y hm
    exact h1 z' hz' (by rw [← hy.1, ← hy'.1]; exact ⟨rfl, rfl⟩)

/-! ### The receiver -/

/-- C108: nothing that arrives makes the receiver panic. -/
theorem C108_total {k : VerifyingKey} (hk : LibraryKey k) (id : Option Str) {a : Replay.Arrival} (ha : FineArrival a) :
    digest a.m ≠ .panic ∧ Guard.receive a.now a.m [(k, id)] a.rf ≠ .panic :=
  ⟨C20_never_panics _ _, C101_never_panics (fine_headers ha).1 (fine_headers ha).2 _ (by simpa using hk)⟩

section
variable {k : VerifyingKey} (hk : LibraryKey k) {S : Signing → Prop} (hS : OnlySigned k S) (hh : ∀ x, S x → HonestSigning x)
include hk hS hh

/-- C108: to the messages that are taken there belong, in order, signings of the holder that are all different. Each was made with exactly the
parameters of the message, has a nonce, has not expired, covers what the receiver needs, has the same values of all covered components, and its
body has the same hash. -/
theorem C108_sound (id : Option Str) (need : List CId) {as : List Replay.Arrival} (hw : ∀ a ∈ as, FineArrival a) (ho : Replay.Ordered as) :
    ∃ ys : List Signing, ys.Nodup ∧ List.Forall₂ (fun (z : Replay.Arrival × Str × SigParams) y => y.p = z.2.2 ∧ S y ∧
      (∃ c e, y.p.nonce = some c ∧ y.p.expires = some e ∧ z.1.now ≤ e) ∧ (∀ i ∈ need, i ∈ y.p.covered) ∧
      (∀ i ∈ y.p.covered, ∃ v, HasValue z.1.m z.1.rf i v ∧ HasValue y.m y.rf i v) ∧
      ∃ t b b', body z.1.m = .data b ∧ body y.m = .data b' ∧ hashOf t b = hashOf t b') (Service.taken k id need as) ys := by
  refine service_distinct (service_timely k id need hw) ho fun z hz => ?_
  obtain ⟨c, e, n1, n2⟩ := taken_nonce hz
  obtain ⟨hz, hl⟩ := taken_mem hz
  obtain ⟨hm, hf⟩ := hw _ hz
  obtain ⟨hc, hp⟩ := service_careful hm.wfHeaders hl
  obtain ⟨ps, x, a1, a2, a3, a4, a5, a6⟩ := C89_bound (fun d s hds => hS d s ((guardKey_ok hk d s).1 hds)) hh hm hf hc
  have ep := hp ps x.p a1 a2
  exact ⟨x, ep, a3, ⟨c, e, by rw [ep]; exact n1, by rw [ep]; exact n2, service_timely k id need hw _ hz _ hl e n2⟩, a4, a5, a6⟩

/-- C108, requests: the signings are of requests with this method up to letter case, this URI and a body with this hash. -/
theorem C108_request (L : UriLib) (hu : ∀ x r', S x → x.m = .req r' → ∃ s, Uri.parse L s = some r'.uri) (id : Option Str) {need : List CId}
    (hn : ∀ i ∈ requestNeed, i ∈ need) {as : List Replay.Arrival} (hw : ∀ a ∈ as, FineArrival a) (ho : Replay.Ordered as)
    (hr : ∀ a ∈ as, a.rf = none ∧ ∃ r, a.m = .req r ∧ ∃ s, Uri.parse L s = some r.uri) :
    ∃ ys : List Signing, ys.Nodup ∧ List.Forall₂ (fun (z : Replay.Arrival × Str × SigParams) y => y.p = z.2.2 ∧ S y ∧
      ∃ r r', z.1.m = .req r ∧ y.m = .req r' ∧ r'.method.map Char.toUpper = r.method.map Char.toUpper ∧ shown r'.uri = shown r.uri ∧
        ∃ t b b', r.body = .data b ∧ r'.body = .data b' ∧ hashOf t b = hashOf t b') (Service.taken k id need as) ys := by
  refine service_distinct (service_timely k id need hw) ho fun z hz => ?_
  obtain ⟨hz, hl⟩ := taken_mem hz
  obtain ⟨hm, hf⟩ := hw _ hz
  obtain ⟨hc, hp⟩ := service_careful hm.wfHeaders hl
  obtain ⟨e1, r, e2, hru⟩ := hr _ hz
  rw [e2] at hm hc hp; rw [e1] at hc
  obtain ⟨ps, p, c1, c2, c3, c4⟩ := hc.cover
  obtain ⟨x, r', a1, a2, a3, a4, a5, ⟨ps', a6, a7⟩, _⟩ := C89_request L (fun d s hds => hS d s ((guardKey_ok hk d s).1 hds)) hh hu hm hru
    ⟨hc.clean, hc.oneDigest, hc.verified, hc.digest, ps, p, c1, c2, fun i hi => c3 i (hn i hi), c4⟩
  exact ⟨x, hp ps' x.p a6 a7, a1, r, r', e2, a2, a3, a4, a5⟩

/-- C108, responses: the signings are of responses with this status and a body with this hash, for a request with this method up to letter case
and this URI. -/
theorem C108_response (L : UriLib) (hu : ∀ x r', S x → x.rf = some r' → ∃ s, Uri.parse L s = some r'.uri) (id : Option Str) {need : List CId}
    (hn : ∀ i ∈ responseNeed, i ∈ need) {as : List Replay.Arrival} (hw : ∀ a ∈ as, FineArrival a) (ho : Replay.Ordered as)
    (hr : ∀ a ∈ as, (∃ s, a.m = .res s) ∧ ∃ r, a.rf = some r ∧ ∃ s, Uri.parse L s = some r.uri) :
    ∃ ys : List Signing, ys.Nodup ∧ List.Forall₂ (fun (z : Replay.Arrival × Str × SigParams) y => y.p = z.2.2 ∧ S y ∧
      ∃ s r s' r', z.1.m = .res s ∧ z.1.rf = some r ∧ y.m = .res s' ∧ y.rf = some r' ∧ s'.status = s.status ∧
        r'.method.map Char.toUpper = r.method.map Char.toUpper ∧ shown r'.uri = shown r.uri ∧
        ∃ t b b', s.body = .data b ∧ s'.body = .data b' ∧ hashOf t b = hashOf t b') (Service.taken k id need as) ys := by
  refine service_distinct (service_timely k id need hw) ho fun z hz => ?_
  obtain ⟨hz, hl⟩ := taken_mem hz
  obtain ⟨hm, hf⟩ := hw _ hz
  obtain ⟨hc, hp⟩ := service_careful hm.wfHeaders hl
  obtain ⟨⟨s, e2⟩, r, e1, hru⟩ := hr _ hz
  rw [e2] at hm hc hp; rw [e1] at hc
  obtain ⟨ps, p, c1, c2, c3, c4⟩ := hc.cover
  obtain ⟨x, s', r', a1, a2, a3, a4, a5, a6, a7, ⟨ps', a8, a9⟩, _⟩ := C89_response L (fun d s hds => hS d s ((guardKey_ok hk d s).1 hds)) hh hu hm
    (hf r e1) hru ⟨hc.clean, hc.oneDigest, hc.verified, hc.digest, ps, p, c1, c2, fun i hi => c3 i (hn i hi), c4⟩
  exact ⟨x, hp ps' x.p a8 a9, a1, s, r, s', r', e2, e1, a2, a3, a4, a5, a6, a7⟩

end

/-! ### The sender -/

theorem service_notOwn {p : SigParams} (h : p.covered.all Service.notOwn = true) : NotSelf p := by
  intro i hi hr
  have h := List.all_eq_true.1 h i hi
  unfold Service.notOwn at h
  rw [Bool.or_eq_true] at h
  rcases h with h | h
  · exact absurd (List.contains_iff_mem.1 h) hr
  · split at h
    · rename_i f hf
      rw [hf]
      simp only [Bool.and_eq_true, bne_iff_ne] at h
      refine ⟨by simp, ?_⟩
      intro g hg; injection hg with hg; subst hg; exact h
    · rename_i d hd
      rw [hd]
      refine ⟨?_, nofun⟩
      intro e; injection e with e; subst e; exact absurd h (by decide)

/-- The digest is set in front of the signature; everything else stays. -/
theorem service_setDigest {t : DigestType} {m m1 : Msg} (h : Service.setDigest t m = some m1) :
    ∃ b, body m = .data b ∧ m1 = m.withHeaders (m.headers.insert hContentDigest (utf8 (digestText t b))) := by
  cases m with
  | req r =>
    obtain ⟨me, u, hd, bd⟩ := r
    cases bd with
    | fail => simp [Service.setDigest, Request.setContentDigest, setDigest, Bind.bind, Res.bind] at h
    | data b =>
      refine ⟨b, rfl, ?_⟩
      simp only [Service.setDigest, Request.setContentDigest, setDigest_data, Bind.bind, Res.bind] at h
      injection h with h; exact h.symm
  | res r =>
    obtain ⟨st, hd, bd⟩ := r
    cases bd with
    | fail => simp [Service.setDigest, Response.setContentDigest, setDigest, Bind.bind, Res.bind] at h
    | data b =>
      refine ⟨b, rfl, ?_⟩
      simp only [Service.setDigest, Response.setContentDigest, setDigest_data, Bind.bind, Res.bind] at h
      injection h with h; exact h.symm

/-- What `Service.send` has checked and done. -/
theorem service_send {t : DigestType} {need : List CId} {m m' : Msg} {p : SigParams} {sk : SigningKey} {name : Option Str} {rf : Option Request}
    (hw : WfHeaders m.headers) (h : Service.send t need m p sk name rf = some m') :
    fieldLines m.headers (c! "signature") = [] ∧ fieldLines m.headers (c! "signature-input") = [] ∧ (∃ c, p.nonce = some c) ∧
      (∃ e, p.expires = some e) ∧ Service.coversAll need p = true ∧ NotSelf p ∧
      ∃ m1 h', Service.setDigest t m = some m1 ∧ Guard.send m1 [(p, sk, name)] rf = (h', .ok ()) ∧ m' = m1.withHeaders h' := by
  unfold Service.send at h
  split at h
  · rename_i hc
    simp only [Bool.and_eq_true, List.isEmpty_iff, Option.isSome_iff_exists] at hc
    obtain ⟨⟨⟨⟨⟨c1, c2⟩, c3⟩, c4⟩, c5⟩, c6⟩ := hc
    rw [getAll_fieldLines hw] at c1 c2
    refine ⟨c1, c2, c3, c4, c5, service_notOwn c6, ?_⟩
    split at h
    · rename_i m1 hm1
      split at h
      · rename_i h' hs
        injection h with h
        exact ⟨m1, h', hm1, hs, h.symm⟩
      · cases h
    · cases h
  · cases h

/-- The message after `set_content_digest`. -/
theorem service_digested {t : DigestType} {m m1 : Msg} (hw : WfHeaders m.headers) (h : Service.setDigest t m = some m1) :
    WfHeaders m1.headers ∧ SameButHeaders m m1 ∧ (fieldLines m1.headers (c! "content-digest")).length = 1 ∧ (∃ x, digest m1 = .ok x) ∧
      ∀ f, lower f ≠ c! "content-digest" → fieldLines m1.headers f = fieldLines m.headers f := by
  obtain ⟨b, hb, rfl⟩ := service_setDigest h
  obtain ⟨w1, w2, w3⟩ := fieldLines_insert_digest hw (utf8 (digestText t b))
  have eb : body (m.withHeaders (m.headers.insert hContentDigest (utf8 (digestText t b)))) = body m := by cases m <;> rfl
  refine ⟨by rw [headers_withHeaders]; exact w1, by cases m <;> simp [SameButHeaders, Msg.withHeaders], by rw [headers_withHeaders, w2]; rfl, ?_,
    by rw [headers_withHeaders]; exact w3⟩
  unfold digest
  rw [headers_withHeaders, eb]
  exact ⟨(_, _), (verifyDigest_ok _ _ _ _).2 ⟨rfl, rfl, b, t, _, hb, by rw [lines_fieldLines w1, w2]; rfl, _, [],
    hvToStr_utf8 (digestText_printable t b), digestText_parse t b⟩⟩

theorem same_wfMsg {m m1 : Msg} (hm : WfMsg m) (h : SameButHeaders m m1) (hw : WfHeaders m1.headers) : WfMsg m1 := by
  cases m with
  | req r =>
    cases m1 with
    | req r1 => exact ⟨hw, by rw [h.1]; exact hm.method, by rw [h.2.1]; exact hm.uri⟩
    | res s => exact h.elim
  | res s =>
    cases m1 with
    | req r1 => exact h.elim
    | res s1 => exact hw

theorem service_notOwn_of {p : SigParams} (h : NotSelf p) : p.covered.all Service.notOwn = true := by
  rw [List.all_eq_true]
  intro i hi
  unfold Service.notOwn
  by_cases hr : CParam.req ∈ i.params
  · rw [List.contains_iff_mem.2 hr]; rfl
  · obtain ⟨h1, h2⟩ := h i hi hr
    rw [Bool.or_eq_true]
    right
    split
    · rename_i f hf
      simp only [Bool.and_eq_true, bne_iff_ne]
      exact h2 f hf
    · rename_i d hd
      rw [bne_iff_ne]
      rintro rfl; exact h1 hd

/-- C108: when the sender sends. The message has no signature; the parameters have a nonce and an expiry, cover what is needed and
Content-Digest, can be written to a header and do not cover the signature itself; the body can be read; with the digest set, all covered components
are there and have values; and the key signs. -/
theorem C108_sends {t : DigestType} {need : List CId} {m : Msg} {p : SigParams} {sk : SigningKey} {name : Option Str} {rf : Option Request}
    (hw : WfHeaders m.headers) (hf : ∀ r, rf = some r → WfHeaders r.headers) :
    (∃ m', Service.send t need m p sk name rf = some m') ↔
      fieldLines m.headers (c! "signature") = [] ∧ fieldLines m.headers (c! "signature-input") = [] ∧ (∃ c, p.nonce = some c) ∧
      (∃ e, p.expires = some e) ∧ ((∀ i ∈ need, i ∈ p.covered) ∧ ∃ f, IsDigestField f ∧ ⟨.field f, []⟩ ∈ p.covered) ∧ NotSelf p ∧ SafeParams p ∧
      LegalKey (name.getD (c! "sig")) ∧ ∃ b m1, body m = .data b ∧ m1 = m.withHeaders (m.headers.insert hContentDigest (utf8 (digestText t b))) ∧
        (∀ i ∈ p.covered, Guard.idHere m1 rf i = true) ∧ ∃ text s, BaseOf m1 rf p text ∧ sk.sign (utf8 text) = .ok s := by
  constructor
  · rintro ⟨m', h⟩
    obtain ⟨a1, a2, a3, a4, a5, a6, m1, h', g1, g2, rfl⟩ := service_send hw h
    obtain ⟨d1, _⟩ := service_digested hw g1
    obtain ⟨hS, hs, h3, _⟩ := (C101_sends d1 hf _ _).1 g2
    obtain ⟨b, hb, hm1⟩ := service_setDigest g1
    cases h3 with
    | cons h3 _ =>
      obtain ⟨text, t1, t2⟩ := h3.signature
      exact ⟨a1, a2, a3, a4, (service_coversAll _ _).1 a5, a6, (hS.safe _ (List.mem_singleton.2 rfl)).1, (hS.safe _ (List.mem_singleton.2 rfl)).2,
        b, m1, hb, hm1, hS.here _ (List.mem_singleton.2 rfl), text, _, t1, t2⟩
  · rintro ⟨a1, a2, ⟨c, a3⟩, ⟨e, a4⟩, a5, a6, a7, a8, b, m1, hb, rfl, a9, text, s, t1, t2⟩
    obtain ⟨w1, w2, w3⟩ := fieldLines_insert_digest hw (utf8 (digestText t b))
    have hd : Service.setDigest t m = some (m.withHeaders (m.headers.insert hContentDigest (utf8 (digestText t b)))) := by
      cases m with
      | req r =>
        have hb : r.body = .data b := hb
        simp only [Service.setDigest, Request.setContentDigest, hb, setDigest_data, Bind.bind, Res.bind]
        rw [← hb]; rfl
      | res r =>
        have hb : r.body = .data b := hb
        simp only [Service.setDigest, Response.setContentDigest, hb, setDigest_data, Bind.bind, Res.bind]
        rw [← hb]; rfl
    have hsend := (C101_sends (m := m.withHeaders (m.headers.insert hContentDigest (utf8 (digestText t b)))) (rf := rf)
      (by rw [headers_withHeaders]; exact w1) hf [(p, sk, name)] _).2
      ⟨⟨⟨[], Or.inl ⟨by rw [headers_withHeaders, w3 _ (by decide)]; exact a2, by rw [headers_withHeaders, w3 _ (by decide)]; exact a1, rfl⟩⟩,
        (by intro x hx; rw [List.mem_singleton.1 hx]; exact ⟨a7, a8⟩), (by intro x hx; rw [List.mem_singleton.1 hx]; exact a9), by simp⟩,
        [⟨name.getD (c! "sig"), s, p⟩], .cons ⟨rfl, rfl, text, t1, t2⟩ .nil, rfl⟩
    refine ⟨(m.withHeaders (m.headers.insert hContentDigest (utf8 (digestText t b)))).withHeaders
      ((m.withHeaders (m.headers.insert hContentDigest (utf8 (digestText t b)))).headers ++
        [(⟨name.getD (c! "sig"), s, p⟩ : SigHeaders)].flatMap sigLines), ?_⟩
    unfold Service.send
    rw [if_pos, hd]
    · simp only
      rw [hsend]
    · simp only [Bool.and_eq_true, List.isEmpty_iff, Option.isSome_iff_exists]
      rw [getAll_fieldLines hw, getAll_fieldLines hw]
      exact ⟨⟨⟨⟨⟨a1, a2⟩, c, a3⟩, e, a4⟩, (service_coversAll _ _).2 a5⟩, service_notOwn_of a6⟩

/-- C108: what is sent is the message with the digest and the signature: method, URI, status and body stay, and so do the lines of all other
fields. -/
theorem C108_sent {t : DigestType} {need : List CId} {m m' : Msg} {p : SigParams} {sk : SigningKey} {name : Option Str} {rf : Option Request}
    (hw : WfHeaders m.headers) (hf : ∀ r, rf = some r → WfHeaders r.headers) (h : Service.send t need m p sk name rf = some m') :
    SameButHeaders m m' ∧ WfHeaders m'.headers ∧ (fieldLines m'.headers (c! "content-digest")).length = 1 ∧ (∃ x, digest m' = .ok x) ∧
      ∀ f, lower f ≠ c! "content-digest" → lower f ≠ c! "signature" → lower f ≠ c! "signature-input" →
        fieldLines m'.headers f = fieldLines m.headers f := by
  obtain ⟨_, _, _, _, _, _, m1, h', g1, g2, rfl⟩ := service_send hw h
  obtain ⟨d1, d2, d3, d4, d5⟩ := service_digested hw g1
  obtain ⟨_, hs, _, rfl⟩ := (C101_sends d1 hf _ _).1 g2
  have w := wf_sigLines d1 hs
  have ec : fieldLines (m1.headers ++ hs.flatMap sigLines) (c! "content-digest") = fieldLines m1.headers (c! "content-digest") := by
    rw [fieldLines_append, fieldLines_sigLines_other _ (by decide) (by decide), List.append_nil]
  refine ⟨?_, by rw [headers_withHeaders]; exact w, by rw [headers_withHeaders, ec]; exact d3, ?_, ?_⟩
  · cases m <;> cases m1 <;> exact d2
  · obtain ⟨b, u, l, e1, e2, e3⟩ := digest_line d1 d4 d3
    refine ⟨(_, _), (verifyDigest_ok _ _ _ _).2 ⟨rfl, rfl, b, u, l, (by rw [← e1]; cases m1 <;> rfl), ?_, e3⟩⟩
    rw [headers_withHeaders, lines_fieldLines w, ec, e2]; rfl
  · intro f f1 f2 f3
    rw [headers_withHeaders, fieldLines_append, fieldLines_sigLines_other _ f2 f3, List.append_nil, d5 f f1]

/-- C108: what the sender signs is what the receiver expects of a holder. -/
theorem C108_holder {t : DigestType} {need : List CId} {m m' : Msg} {p : SigParams} {sk : SigningKey} {name : Option Str} {rf : Option Request}
    (hm : WfMsg m) (hf : ∀ r, rf = some r → WfRequest r) (h : Service.send t need m p sk name rf = some m') :
    ∃ m1, Service.setDigest t m = some m1 ∧ SameButHeaders m m1 ∧ HonestSigning ⟨m1, rf, p⟩ := by
  obtain ⟨_, _, _, _, _, _, m1, h', g1, g2, rfl⟩ := service_send hm.wfHeaders h
  obtain ⟨d1, d2, d3, d4, _⟩ := service_digested hm.wfHeaders g1
  obtain ⟨hS, _⟩ := (C101_sends d1 (fun r hr => (hf r hr).headers) _ _).1 g2
  have hp := (hS.safe _ (List.mem_singleton.2 rfl)).1
  exact ⟨m1, g1, d2, ⟨same_wfMsg hm d2 d1, hf, safe_one_line hp⟩, hp, d3, d4⟩

/-- C108: what is sent is taken, if it arrives in time and its nonce is not that of a message that was taken before. -/
theorem C108_delivered {sk : SigningKey} {vk : VerifyingKey} (hk : KeyPair sk vk) (hlk : LibraryKey vk) {t : DigestType} {need : List CId}
    {m m' : Msg} {p : SigParams} {name : Option Str} {rf : Option Request} (hw : WfHeaders m.headers) (hf : ∀ r, rf = some r → WfHeaders r.headers)
    (h : Service.send t need m p sk name rf = some m') {now : UInt64} (ht : ∀ e, p.expires = some e → now ≤ e) (pre post : List Replay.Arrival)
    (hn : ∀ y ∈ Service.taken vk p.keyid need pre, y.2.2.nonce ≠ p.nonce) :
    ∃ rest, Service.taken vk p.keyid need (pre ++ ⟨now, m', rf⟩ :: post) =
      Service.taken vk p.keyid need pre ++ (⟨now, m', rf⟩, name.getD (c! "sig"), p) :: rest := by
  obtain ⟨_, w', s3, s4, _⟩ := C108_sent hw hf h
  obtain ⟨a1, a2, ⟨c, hc⟩, ⟨e, he⟩, a5, a6, m1, h', g1, g2, rfl⟩ := service_send hw h
  obtain ⟨d1, _, _, _, d5⟩ := service_digested hw g1
  have hcar := C102_honest hk hlk d1 hf (by rw [d5 _ (by decide)]; exact a2) (by rw [d5 _ (by decide)]; exact a1) a6 ht g2
  exact C102_taken pre post _ (service_look.2 ⟨(service_digestRight w').2 ⟨s3, s4⟩, hcar, a5⟩) hc he (by rw [← hc]; exact hn)

/-! ### Both together -/

/-- The signings that `Service.send` makes with the key. -/
def SentWith (sk : SigningKey) (x : Signing) : Prop :=
  ∃ t need m name m', WfMsg m ∧ (∀ r, x.rf = some r → WfRequest r) ∧ Service.send t need m x.p sk name x.rf = some m' ∧
    Service.setDigest t m = some x.m

theorem sentWith_honest {sk : SigningKey} {x : Signing} (h : SentWith sk x) : HonestSigning x := by
  obtain ⟨t, need, m, name, m', h1, h2, h3, h4⟩ := h
  obtain ⟨m1, g1, _, g3⟩ := C108_holder h1 h2 h3
  rw [h4] at g1; injection g1 with g1; subst g1
  exact g3

/-- C108, end to end: if the key accepts only what was sent with `Service.send`, then to the messages that are taken there belong, in order,
different messages that were sent, with the same values of all covered components and a body with the same hash. -/
theorem C108_end {sk : SigningKey} {k : VerifyingKey} (hk : LibraryKey k) (hS : OnlySigned k (SentWith sk)) (id : Option Str) (need : List CId)
    {as : List Replay.Arrival} (hw : ∀ a ∈ as, FineArrival a) (ho : Replay.Ordered as) :
    ∃ ys : List Signing, ys.Nodup ∧ List.Forall₂ (fun (z : Replay.Arrival × Str × SigParams) y => y.p = z.2.2 ∧ SentWith sk y ∧
      (∃ c e, y.p.nonce = some c ∧ y.p.expires = some e ∧ z.1.now ≤ e) ∧ (∀ i ∈ need, i ∈ y.p.covered) ∧
      (∀ i ∈ y.p.covered, ∃ v, HasValue z.1.m z.1.rf i v ∧ HasValue y.m y.rf i v) ∧
      ∃ t b b', body z.1.m = .data b ∧ body y.m = .data b' ∧ hashOf t b = hashOf t b') (Service.taken k id need as) ys :=
  C108_sound hk hS (fun _ h => sentWith_honest h) id need hw ho

/-! ### Examples -/

/-- A library with a scheme that signs and accepts one text. -/
def onlyText (T : Str) : Prims :=
  { toyPrims with p256 := { toyScheme 64 with
      sign := fun _ _ d => if d = utf8 T then some (List.replicate 64 1) else none
      verify := fun _ d _ => d == utf8 T } }

def onlySecret (T : Str) : SecretKey (onlyText T) := .ecdsaP256Sha256 ([1] : Bytes)
def onlyPublic (T : Str) : PublicKey (onlyText T) := .ecdsaP256Sha256 ([1] : Bytes)

theorem only_pair (T : Str) : KeyPair ((onlySecret T).signing []) (onlyPublic T).verifying := by
  intro d s h
  simp only [SecretKey.signing, onlySecret, SecretKey.sign, onlyText, signRes] at h
  by_cases hd : d = utf8 T
  · rw [if_pos hd] at h
    injection h with h; subst h
    simp [PublicKey.verifying, onlyPublic, PublicKey.verify, verifyRes, onlyText, toyScheme, hd]
  · rw [if_neg hd] at h; cases h

theorem only_accepts (T : Str) {d s : Bytes} (h : (onlyPublic T).verifying.verify d s = .ok ()) : d = utf8 T := by
  have h : (if s.length ≠ 64 then Res.panic else if d == utf8 T then .ok () else .err .invalidSignature : Res SigErr Unit) = .ok () := h
  split at h
  · cases h
  · split at h
    · rename_i e; exact beq_iff_eq.1 e
    · cases h

/-- With every message that can be sent there is a key of a library with which it is sent and which accepts nothing else; it is taken once,
however often it arrives. -/
theorem c108_system {t : DigestType} {need : List CId} {m : Msg} {p : SigParams} {rf : Option Request} (hm : WfMsg m)
    (hf : ∀ r, rf = some r → WfRequest r) (h1 : fieldLines m.headers (c! "signature") = []) (h2 : fieldLines m.headers (c! "signature-input") = [])
    (h3 : ∃ c, p.nonce = some c) {e : UInt64} (h4 : p.expires = some e)
    (h5 : (∀ i ∈ need, i ∈ p.covered) ∧ ∃ f, IsDigestField f ∧ ⟨.field f, []⟩ ∈ p.covered) (h6 : NotSelf p) (h7 : SafeParams p) {b : Bytes}
    (hb : body m = .data b) (h8 : ∀ m1, m1 = m.withHeaders (m.headers.insert hContentDigest (utf8 (digestText t b))) →
      ∀ i ∈ p.covered, Guard.idHere m1 rf i = true ∧ ∃ v, HasValue m1 rf i v) :
    ∃ (sk : SigningKey) (vk : VerifyingKey) (m1 m' : Msg), KeyPair sk vk ∧ LibraryKey vk ∧ OnlySigned vk (SentWith sk) ∧
      OnlySigned vk (· = ⟨m1, rf, p⟩) ∧ HonestSigning ⟨m1, rf, p⟩ ∧ (Service.setDigest t m = some m1 ∧ SameButHeaders m m1) ∧ SameButHeaders m m' ∧
      Service.send t need m p sk none rf = some m' ∧ ∀ now, now ≤ e → FineArrival ⟨now, m', rf⟩ ∧
        ∀ n, Service.taken vk p.keyid need (List.replicate (n + 1) ⟨now, m', rf⟩) = [(⟨now, m', rf⟩, c! "sig", p)] := by
  have hfh : ∀ r, rf = some r → WfHeaders r.headers := fun r hr => (hf r hr).headers
  obtain ⟨vs, hvs⟩ := forall₂_of_all (fun i hi => (h8 _ rfl i hi).2)
  obtain ⟨T, hT⟩ : ∃ T, BaseOf (m.withHeaders (m.headers.insert hContentDigest (utf8 (digestText t b)))) rf p T := ⟨_, vs, hvs, rfl⟩
  have hsign : ((onlySecret T).signing []).sign (utf8 T) = .ok (List.replicate 64 1) := by
    simp [SecretKey.signing, onlySecret, SecretKey.sign, onlyText, signRes]
  obtain ⟨m', hs⟩ := (C108_sends (t := t) (need := need) (sk := (onlySecret T).signing []) (name := none) hm.wfHeaders hfh).2
    ⟨h1, h2, h3, ⟨e, h4⟩, h5, h6, h7, (by decide : LegalKey (c! "sig")), b, _, hb, rfl, fun i hi => (h8 _ rfl i hi).1, T, _, hT, hsign⟩
  obtain ⟨m1, g1, g2, g3⟩ := C108_holder hm hf hs
  obtain ⟨b', hb', e1⟩ := service_setDigest g1
  rw [hb] at hb'; injection hb' with hb'; subst hb'
  rw [← e1] at hT
  obtain ⟨s1, s2, _⟩ := C108_sent hm.wfHeaders hfh hs
  refine ⟨(onlySecret T).signing [], (onlyPublic T).verifying, m1, m', only_pair T, .ofPublic _, ?_, ?_, g3, ⟨g1, g2⟩, s1, hs, ?_⟩
  · intro d s hd
    exact ⟨⟨m1, rf, p⟩, ⟨t, need, m, none, m', hm, hf, hs, g1⟩, T, hT, only_accepts T hd⟩
  · intro d s hd
    exact ⟨_, rfl, T, hT, only_accepts T hd⟩
  · intro now hnow
    have fine : FineArrival ⟨now, m', rf⟩ := ⟨same_wfMsg hm s1 s2, hf⟩
    refine ⟨fine, fun n => ?_⟩
    obtain ⟨rest, hr⟩ := C108_delivered (only_pair T) (.ofPublic _) hm.wfHeaders hfh hs (now := now)
      (by intro e' he'; rw [h4] at he'; injection he' with he'; subst he'; exact hnow) [] (List.replicate n ⟨now, m', rf⟩)
      (by intro y hy; cases hy)
    rw [List.nil_append, ← List.replicate_succ] at hr
    have all : ∀ a ∈ List.replicate (n + 1) (⟨now, m', rf⟩ : Replay.Arrival), a = ⟨now, m', rf⟩ := fun a ha => List.eq_of_mem_replicate ha
    have once := C102_once (look := Service.look (onlyPublic T).verifying p.keyid need) (List.replicate (n + 1) ⟨now, m', rf⟩)
      (service_timely _ _ _ (fun a ha => by rw [all a ha]; exact fine))
      (List.pairwise_replicate.2 (Or.inr (UInt64.le_refl _))) []
    have mem := fun y (hy : y ∈ Service.taken (onlyPublic T).verifying p.keyid need (List.replicate (n + 1) ⟨now, m', rf⟩)) => taken_mem hy
    rw [show Replay.taken (Service.look (onlyPublic T).verifying p.keyid need) [] (List.replicate (n + 1) ⟨now, m', rf⟩) =
      Service.taken (onlyPublic T).verifying p.keyid need (List.replicate (n + 1) ⟨now, m', rf⟩) from rfl] at once
    rw [hr] at once mem ⊢
    cases rest with
    | nil => rfl
    | cons y rest =>
      exfalso
      obtain ⟨m1', m2'⟩ := mem y (by simp [Service.taken, Replay.taken])
      obtain ⟨_, m3'⟩ := mem (⟨now, m', rf⟩, c! "sig", p) (by simp [Service.taken, Replay.taken])
      rw [all _ m1'] at m2'
      have hy : (c! "sig", p) = y.2 := Option.some.inj (m3'.symm.trans m2')
      exact (List.pairwise_cons.1 once).1 y (by simp) ⟨by rw [← hy], by rw [← hy]⟩

/-- The parameters of the examples of C89 with a nonce and an expiry. -/
def c108Params (ids : List CId) : SigParams := { c89Params ids with nonce := some (c! "a"), expires := some 100 }

theorem c108Safe {ids : List CId} (hi : ids = requestNeed ∨ ids = responseNeed) : SafeParams (c108Params ids) ∧ NotSelf (c108Params ids) :=
  ⟨(C101_params _).1 (by rcases hi with rfl | rfl <;> decide +kernel), (c89Safe hi).2⟩

theorem c108_value {h : Headers} (hw : WfHeaders h) (t : DigestType) (b : Bytes) :
    FieldValue (h.insert hContentDigest (utf8 (digestText t b))) (c! "content-digest") [] (digestText t b) :=
  ⟨_, _, by rw [(fieldLines_insert_digest hw _).2.1]; exact .cons (hvToStr_utf8 (digestText_printable t b)) .nil, .done _, rfl⟩

/-- With every body there is a request that is sent, that the receiver takes once however often it arrives, and for which the hypotheses of
`C108_end` and `C108_request` hold. -/
example (b : Bytes) : ∃ (sk : SigningKey) (vk : VerifyingKey) (r : Request) (x : Signing) (m' : Msg), r.body = .data b ∧ WfRequest r ∧
    KeyPair sk vk ∧ LibraryKey vk ∧ OnlySigned vk (SentWith sk) ∧ OnlySigned vk (· = x) ∧ HonestSigning x ∧
    (∀ r', x.m = .req r' → ∃ s, Uri.parse httpLib s = some r'.uri) ∧ (∃ r', m' = .req r' ∧ ∃ s, Uri.parse httpLib s = some r'.uri) ∧
    Service.send .sha256 requestNeed (.req r) (c108Params requestNeed) sk none none = some m' ∧ ∀ now, now ≤ 100 → FineArrival ⟨now, m', none⟩ ∧
      ∀ n, Service.taken vk (some (c! "k")) requestNeed (List.replicate (n + 1) ⟨now, m', none⟩) =
        [(⟨now, m', none⟩, c! "sig", c108Params requestNeed)] := by
  obtain ⟨r, _, h0, _⟩ := c89Request b
  have w := (C71_request_wf httpLib h0).1
  obtain ⟨q1, q2, q3, q4⟩ := request_ofText.mp h0
  have eh : r.headers = [] := by injection q3 with q3; exact q3.symm
  obtain ⟨sk, vk, m1, m', a1, a2, a3, a4, a5, a6, a7, a8, a9⟩ := c108_system (t := .sha256) (need := requestNeed) (m := .req r)
    (p := c108Params requestNeed) (rf := none) w (by simp) (by show fieldLines r.headers _ = _; rw [eh]; rfl)
    (by show fieldLines r.headers _ = _; rw [eh]; rfl) ⟨_, rfl⟩ rfl ⟨by decide, c! "content-digest", by unfold IsDigestField; decide, by decide⟩
    (c108Safe (.inl rfl)).2 (c108Safe (.inl rfl)).1 (b := b) q4.symm (by
      rintro m1 rfl i hi
      simp only [c108Params, c89Params, requestNeed, List.cons_append, List.nil_append, List.mem_cons, List.not_mem_nil, or_false] at hi
      rcases hi with rfl | rfl | rfl
      · exact ⟨rfl, _, by unfold HasValue; rw [if_neg (by simp)]; exact ⟨nofun, rfl⟩⟩
      · exact ⟨rfl, _, by unfold HasValue; rw [if_neg (by simp)]; exact ⟨nofun, rfl⟩⟩
      · refine ⟨?_, _, by unfold HasValue; rw [if_neg (by simp)]; exact c108_value w.headers .sha256 b⟩
        obtain ⟨w1, w2, _⟩ := fieldLines_insert_digest w.headers (utf8 (digestText .sha256 b))
        show (!((r.headers.insert hContentDigest (utf8 (digestText .sha256 b))).getAll (c! "content-digest")).isEmpty) = true
        rw [getAll_fieldLines w1, w2]; rfl)
  have uri : ∀ {m1 : Msg}, SameButHeaders (.req r) m1 → ∃ r', m1 = .req r' ∧ r'.uri = r.uri := by
    intro m1 h
    cases m1 with
    | req r' => exact ⟨r', rfl, h.2.1⟩
    | res s => exact h.elim
  refine ⟨sk, vk, r, _, m', q4.symm, w, a1, a2, a3, a4, a5, ?_, ?_, a8, a9⟩
  · intro r' e
    obtain ⟨r'', e1, e2⟩ := uri a6.2
    simp only at e
    rw [e1] at e; injection e with e; subst e
    exact ⟨_, by rw [e2]; exact q2⟩
  · obtain ⟨r'', e1, e2⟩ := uri a7
    exact ⟨r'', e1, _, by rw [e2]; exact q2⟩

/-- The same for a response and `C108_response`. -/
example (b : Bytes) : ∃ (sk : SigningKey) (vk : VerifyingKey) (s : Response) (r : Request) (x : Signing) (m' : Msg), s.body = .data b ∧
    KeyPair sk vk ∧ LibraryKey vk ∧ OnlySigned vk (SentWith sk) ∧ OnlySigned vk (· = x) ∧ HonestSigning x ∧ x.rf = some r ∧
    (∃ t, Uri.parse httpLib t = some r.uri) ∧ (∃ s', m' = .res s') ∧
    Service.send .sha512 responseNeed (.res s) (c108Params responseNeed) sk none (some r) = some m' ∧
    ∀ now, now ≤ 100 → FineArrival ⟨now, m', some r⟩ ∧
      ∀ n, Service.taken vk (some (c! "k")) responseNeed (List.replicate (n + 1) ⟨now, m', some r⟩) =
        [(⟨now, m', some r⟩, c! "sig", c108Params responseNeed)] := by
  obtain ⟨r, _, h0, _⟩ := c89Request b
  have w := (C71_request_wf httpLib h0).1
  obtain ⟨q1, q2, q3, q4⟩ := request_ofText.mp h0
  have ws : WfHeaders ([] : Headers) := by intro kv h; cases h
  obtain ⟨sk, vk, m1, m', a1, a2, a3, a4, a5, a6, a7, a8, a9⟩ := c108_system (t := .sha512) (need := responseNeed)
    (m := .res { status := 200, headers := [], body := .data b }) (p := c108Params responseNeed) (rf := some r) ws
    (by intro r' e; injection e with e; subst e; exact w) rfl rfl ⟨_, rfl⟩ rfl
    ⟨by decide, c! "content-digest", by unfold IsDigestField; decide, by decide⟩ (c108Safe (.inr rfl)).2 (c108Safe (.inr rfl)).1 (b := b) rfl (by
      rintro m1 rfl i hi
      simp only [c108Params, c89Params, responseNeed, List.cons_append, List.nil_append, List.mem_cons, List.not_mem_nil, or_false] at hi
      rcases hi with rfl | rfl | rfl | rfl
      · exact ⟨rfl, _, by unfold HasValue; rw [if_neg (by simp)]; exact ⟨rfl, rfl⟩⟩
      · exact ⟨rfl, _, by unfold HasValue; rw [if_pos (by simp)]; exact ⟨_, _, rfl, rfl, by intro p hp; simpa using hp, rfl⟩⟩
      · exact ⟨rfl, _, by unfold HasValue; rw [if_pos (by simp)]; exact ⟨_, _, rfl, rfl, by intro p hp; simpa using hp, rfl⟩⟩
      · refine ⟨?_, _, by unfold HasValue; rw [if_neg (by simp)]; exact c108_value ws .sha512 b⟩
        obtain ⟨w1, w2, _⟩ := fieldLines_insert_digest ws (utf8 (digestText .sha512 b))
        show (!((Headers.insert [] hContentDigest (utf8 (digestText .sha512 b))).getAll (c! "content-digest")).isEmpty) = true
        rw [getAll_fieldLines w1, w2]; rfl)
  refine ⟨sk, vk, _, r, _, m', rfl, a1, a2, a3, a4, a5, rfl, ⟨_, q2⟩, ?_, a8, a9⟩
  cases m' with
  | req r' => exact a7.elim
  | res s' => exact ⟨s', rfl⟩

end Verif
