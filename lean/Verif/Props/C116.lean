import Verif.Spec.Exchange
import Verif.Props.C79
import Verif.Props.C80
import Verif.Props.C108
/-!
C116 A request and its answer.
-/
namespace Verif
open Sfv Spec Ex Exchange

/-! ### What a request is after it was sent -/

/-- The same value of Signature-Input means the same labels with the same parameters. -/
theorem same_input {h h' : Headers} {l l' : List (Str × SigHeaders)} (hl : Carries h l) (hl' : Carries h' l') {v : Str}
    (hv : FieldValue h (c! "signature-input") [.req] v) (hv' : FieldValue h' (c! "signature-input") [.req] v) (k : Str) (p : SigParams) :
    (∃ sh, (k, sh) ∈ l ∧ sh.params = p) ↔ ∃ sh, (k, sh) ∈ l' ∧ sh.params = p := by
  obtain ⟨ts, us, a, b, a1, _, _, _, _, a6, a7⟩ := hl
  obtain ⟨ts', us', a', b', b1, _, _, _, _, b6, b7⟩ := hl'
  obtain ⟨xs, out, c1, c2, c3⟩ := hv
  obtain ⟨xs', out', d1, d2, d3⟩ := hv'
  rw [applied_plain (by simp)] at c2 d2
  subst c2; subst d2
  cases lineTexts_unique a1 c1
  cases lineTexts_unique b1 d1
  rw [← d3, c3, a6] at b6
  injection b6 with e; subst e
  rw [agree_params a7 (parseDict_legal a6).1, agree_params b7 (parseDict_legal a6).1]

theorem request_input {s : Response} {r : Request} {v : Str} (h : HasValue (.res s) (some r) inputOfRequest v) :
    FieldValue r.headers (c! "signature-input") [.req] v := by
  unfold HasValue at h
  rw [if_pos (by simp [inputOfRequest])] at h
  obtain ⟨_, _, _, e, h⟩ := h
  injection e with e; subst e
  exact h

/-- New signatures do not change components that are not signature fields. -/
theorem value_after {m : Msg} {rf : Option Request} {p : SigParams} (hn : NotSelf p) (hs : List SigHeaders) {i : CId} (hi : i ∈ p.covered) (v : Str) :
    HasValue (m.withHeaders (m.headers ++ hs.flatMap sigLines)) rf i v ↔ HasValue m rf i v := by
  rw [← wireHasValue_iff, ← wireHasValue_iff]
  by_cases hr : CParam.req ∈ i.params
  · cases m with
    | req r => exact C80_value (.never hr (by rintro s r ⟨⟩) (by rintro s r ⟨⟩)) v
    | res s =>
      cases rf with
      | none => exact C80_value (.never hr (by simp) (by simp)) v
      | some r =>
        refine C80_value (.there hr rfl rfl rfl rfl ?_) v
        obtain ⟨n, ps⟩ := i
        cases n with
        | field f => exact .inl rfl
        | derived d => cases d <;> simp [Wire.SamePart]
  · refine C80_value (.here hr ?_) v
    obtain ⟨n1, n2⟩ := hn i hi hr
    obtain ⟨n, ps⟩ := i
    cases n with
    | field f =>
      obtain ⟨f1, f2⟩ := n2 f rfl
      refine .inl ?_
      rw [linesOf_eq, linesOf_eq, headers_withHeaders, fieldLines_append, fieldLines_sigLines_other hs f1 f2, List.append_nil]
    | derived d => cases d <;> cases m <;> simp_all [Wire.SamePart, Msg.withHeaders]

/-- What `Service.send` makes of a request: the digest and one signature. -/
theorem exchange_sent {t : DigestType} {need : List CId} {m m' : Msg} {p : SigParams} {sk : SigningKey} {name : Option Str} {rf : Option Request}
    (hw : WfHeaders m.headers) (hf : ∀ r, rf = some r → WfHeaders r.headers) (h : Service.send t need m p sk name rf = some m') :
    ∃ m1 sh, Service.setDigest t m = some m1 ∧ sh.name = name.getD (c! "sig") ∧ sh.params = p ∧ NotSelf p ∧ SafeParams p ∧ LegalKey sh.name ∧
      m' = m1.withHeaders (m1.headers ++ [sh].flatMap sigLines) ∧ Carries m'.headers [(sh.name, sh)] ∧
      fieldLines m'.headers (c! "signature-input") = [utf8 (sh.name ++ c! "=" ++ p.disp)] := by
  obtain ⟨a1, a2, _, _, _, a6, m1, h', g1, g2, rfl⟩ := service_send hw h
  obtain ⟨d1, _, _, _, d5⟩ := service_digested hw g1
  obtain ⟨hS, hs, h3, rfl⟩ := (C101_sends d1 hf _ _).1 g2
  cases h3 with
  | @cons _ sh _ _ s1 s2 =>
    cases s2
    obtain ⟨q1, q2⟩ := hS.safe _ (List.mem_singleton.2 rfl)
    have e1 : sh.name = name.getD (c! "sig") := s1.name
    have e2 : sh.params = p := s1.params
    have hi : fieldLines m1.headers (c! "signature-input") = [] := by rw [d5 _ (by decide)]; exact a2
    have hg : fieldLines m1.headers (c! "signature") = [] := by rw [d5 _ (by decide)]; exact a1
    have hk : LegalKey sh.name := by rw [e1]; exact q2
    refine ⟨m1, sh, g1, e1, e2, a6, q1, hk, rfl, ?_, ?_⟩
    · rw [headers_withHeaders]
      have := hasSignatures_putAll (h := m1.headers) (l := []) (hs := [sh]) (Or.inl ⟨hi, hg, rfl⟩) (by
        intro x hx; rw [List.mem_singleton] at hx; subst hx; exact ⟨hk, by rw [e2]; exact q1⟩)
      rcases this with ⟨h2, _, _⟩ | ⟨h2, _⟩
      · rw [fieldLines_append, fieldLines_sigLines_input] at h2
        simp at h2
      · simpa [putIn] using h2
    · rw [headers_withHeaders, fieldLines_append, hi, fieldLines_sigLines_input, ← e2]
      simp [SigHeaders.inputValue]

/-! ### Agreement -/

section
variable {kc ks : VerifyingKey} (hkc : LibraryKey kc) (hks : LibraryKey ks) {Sc Ss : Signing → Prop} (hSc : OnlySigned kc Sc) (hSs : OnlySigned ks Ss)
  (hc : ∀ x, Sc x → HonestSigning x) (hs : ∀ y, Ss y → HonestSigning y) {idc : Option Str} {need : List CId} {as : List Replay.Arrival}
  (hw : ∀ a ∈ as, FineArrival a) (hans : Answers (Service.taken kc idc need as) Ss)
include hkc hks hSc hSs hc hs hw hans

/-- C116: a client sends a request with a fresh nonce and takes an answer that covers what `answerNeed` says. Then the server took exactly this
request: with the same label and the same parameters, with the same values of all components that the client covered, with the same method up to
letter case, the same URI and a body with the same hash. And for this request it signed a response with this status and a body with this hash. -/
theorem C116_agreement (L : UriLib) (hfresh : FreshNonces Sc) (hu : ∀ y r', Ss y → y.rf = some r' → ∃ s, Uri.parse L s = some r'.uri)
    {t : DigestType} {needc : List CId} {q0 q : Request} {p : SigParams} {ck : SigningKey} {name : Option Str} {m1 : Msg} (hq : WfRequest q0)
    (hsend : Service.send t needc (.req q0) p ck name none = some (.req q)) (hm1 : Service.setDigest t (.req q0) = some m1) (hown : Sc ⟨m1, none, p⟩)
    (hqu : ∃ s, Uri.parse L s = some q.uri) {ids : Option Str} {needs : List CId} (hneed : ∀ i ∈ answerNeed, i ∈ needs) {now : UInt64} {s : Response}
    (hres : WfHeaders s.headers) {x : Str × SigParams} (htake : Service.look ks ids needs ⟨now, .res s, some q⟩ = some x) :
    ∃ z ∈ Service.taken kc idc need as, ∃ r' s', z.1.m = .req r' ∧ z.2 = (name.getD (c! "sig"), p) ∧ Ss ⟨.res s', some r', x.2⟩ ∧
      (∀ i ∈ p.covered, ∃ v, HasValue (.req r') z.1.rf i v ∧ HasValue (.req q) none i v) ∧
      r'.method.map Char.toUpper = q.method.map Char.toUpper ∧ shown r'.uri = shown q.uri ∧
      (∃ t b b', q.body = .data b ∧ r'.body = .data b' ∧ hashOf t b = hashOf t b') ∧
      s'.status = s.status ∧ ∃ t b b', s.body = .data b ∧ s'.body = .data b' ∧ hashOf t b = hashOf t b' := by
  obtain ⟨m1', sh, g1, g2, g3, g4, g5, g6, g7, g8, _⟩ := exchange_sent (m := .req q0) hq.headers (by simp) hsend
  rw [hm1] at g1; injection g1 with g1; subst g1
  obtain ⟨d1, d2, _⟩ := service_digested (m := .req q0) hq.headers hm1
  obtain ⟨s1, s2, _⟩ := C108_sent (m := .req q0) hq.headers (by simp) hsend
  have hwq : WfRequest q := same_wfMsg (m := .req q0) (m1 := .req q) hq s1 s2
  -- the answer
  obtain ⟨hcar, hp⟩ := service_careful (a := ⟨now, .res s, some q⟩) hres htake
  obtain ⟨ps, p', c1, c2, c3, c4⟩ := hcar.cover
  obtain ⟨y, s', r', y1, y2, y3, y4, y5, y6, y7, ⟨ps', y8, y9⟩, y10⟩ := C89_response L
    (fun d s hds => hSs d s ((guardKey_ok hks d s).1 hds)) hs hu hres hwq hqu
    ⟨hcar.clean, hcar.oneDigest, hcar.verified, hcar.digest, ps, p', c1, c2, fun i hi => c3 i (hneed i (by
      simp only [responseNeed, answerNeed, List.mem_cons, List.not_mem_nil, or_false] at hi ⊢
      rcases hi with h | h | h <;> simp [h])), c4⟩
  have ep : y.p = x.2 := hp ps' y.p y8 y9
  have ep' : p' = x.2 := hp ps p' c1 c2
  obtain ⟨v, v1, v2⟩ := y10 inputOfRequest (by rw [ep, ← ep']; exact c3 _ (hneed _ (by simp [answerNeed])))
  rw [y2, y3] at v2
  -- the request that was answered
  obtain ⟨z, hz, ez⟩ := hans y y1 r' y3
  obtain ⟨hza, hzl⟩ := taken_mem hz
  obtain ⟨fm, ff⟩ := hw _ hza
  obtain ⟨zc, zp⟩ := service_careful fm.wfHeaders hzl
  obtain ⟨qs, xc, a1, a2, a3, a4, a5, tb, b, b', a6, a7, a8⟩ := C89_bound (fun d s hds => hSc d s ((guardKey_ok hkc d s).1 hds)) hc fm ff zc
  have exc := zp qs xc.p a1 a2
  obtain ⟨l', c1', rfl⟩ := (C49_params fm.wfHeaders qs).1 a1
  obtain ⟨kv, hkv, ekv⟩ := List.mem_map.1 a2
  have ez' : z.1.m.headers = r'.headers := by rw [ez]; rfl
  rw [ez'] at c1'
  obtain ⟨sh', hsh', esh'⟩ := (same_input c1' g8 (request_input v2) (request_input v1) kv.1 kv.2.params).1 ⟨kv.2, hkv, rfl⟩
  rw [List.mem_singleton] at hsh'
  injection hsh' with e1 e2
  subst e2
  have e3 : z.2.1 = sh'.name := (Prod.mk.inj ekv).1.symm.trans e1
  have e4 : xc.p = p := (Prod.mk.inj ekv).2.symm.trans (esh'.symm.trans g3)
  have e5 : xc = ⟨m1, none, p⟩ := hfresh _ _ a3 hown (by rw [e4])
  subst e5
  have e6 : z.2 = (name.getD (c! "sig"), p) := Prod.ext (by rw [e3, g2]) exc.symm
  refine ⟨z, hz, r', s', ez, e6, ?_, ?_, y5, y6, ?_, y4, y7⟩
  · obtain ⟨ym, yr, yp⟩ := y
    simp only at y2 y3 ep
    subst y2; subst y3; subst ep
    exact y1
  · intro i hi
    obtain ⟨w, w1, w2⟩ := a5 i hi
    refine ⟨w, by rw [← ez]; exact w1, ?_⟩
    have := (value_after (m := m1) (rf := none) g4 [sh'] hi w).2 w2
    rw [← g7] at this; exact this
  · refine ⟨tb, b', b, ?_, by rw [ez] at a6; exact a6, a8.symm⟩
    have e : body m1 = body (.req q) := by rw [g7]; cases m1 <;> rfl
    rw [show body m1 = q.body from e] at a7
    exact a7

end

/-- C116: every request that the server took it took once: no other message that it took has these parameters. -/
theorem C116_once {kc : VerifyingKey} {idc : Option Str} {need : List CId} {as : List Replay.Arrival} (hw : ∀ a ∈ as, FineArrival a)
    (ho : Replay.Ordered as) {z : Replay.Arrival × Str × SigParams} (hz : z ∈ Service.taken kc idc need as) :
    ∃ T1 T2, Service.taken kc idc need as = T1 ++ z :: T2 ∧ ∀ z' ∈ T1 ++ T2, z'.2.2 ≠ z.2.2 := by
  obtain ⟨T1, T2, e⟩ := List.append_of_mem hz
  have once := C102_once as (service_timely kc idc need hw) ho []
  rw [show Replay.taken (Service.look kc idc need) [] as = Service.taken kc idc need as from rfl, e, List.pairwise_append] at once
  obtain ⟨_, o2, o3⟩ := once
  refine ⟨T1, T2, e, fun z' hz' e' => ?_⟩
  rcases List.mem_append.1 hz' with h | h
  · exact o3 z' h z (by simp) ⟨by rw [e'], by rw [e']⟩
  · exact (List.pairwise_cons.1 o2).1 z' h ⟨by rw [e'], by rw [e']⟩

/-! ### It works -/

theorem service_sent_look {sk : SigningKey} {vk : VerifyingKey} (hk : KeyPair sk vk) (hlk : LibraryKey vk) {t : DigestType} {need : List CId}
    {m m' : Msg} {p : SigParams} {name : Option Str} {rf : Option Request} (hw : WfHeaders m.headers) (hf : ∀ r, rf = some r → WfHeaders r.headers)
    (h : Service.send t need m p sk name rf = some m') {now : UInt64} (ht : ∀ e, p.expires = some e → now ≤ e) :
    Service.look vk p.keyid need ⟨now, m', rf⟩ = some (name.getD (c! "sig"), p) := by
  obtain ⟨rest, hr⟩ := C108_delivered hk hlk hw hf h ht [] [] (by intro y hy; cases hy)
  exact (taken_mem (look := Service.look vk p.keyid need) (s := []) (as := [⟨now, m', rf⟩]) (y := (⟨now, m', rf⟩, name.getD (c! "sig"), p)) (by
    rw [show Replay.taken (Service.look vk p.keyid need) [] [⟨now, m', rf⟩] = _ from hr]; simp)).2

/-- C116: nothing honest is refused. The server takes the request if it arrives in time and its nonce is new, and the client takes the answer to it
if that arrives in time. -/
theorem C116_completed {ck sk : SigningKey} {kc ks : VerifyingKey} (hk : KeyPair ck kc) (hk' : KeyPair sk ks) (hlk : LibraryKey kc)
    (hlk' : LibraryKey ks) {t t' : DigestType} {need needs : List CId} {q0 q : Request} {s0 s : Response} {p p' : SigParams} {name name' : Option Str}
    (hq : WfRequest q0) (hs : WfHeaders s0.headers) (hsend : Service.send t need (.req q0) p ck name none = some (.req q))
    (hsend' : Service.send t' needs (.res s0) p' sk name' (some q) = some (.res s)) {now now' : UInt64} (ht : ∀ e, p.expires = some e → now ≤ e)
    (ht' : ∀ e, p'.expires = some e → now' ≤ e) (pre post : List Replay.Arrival)
    (hn : ∀ y ∈ Service.taken kc p.keyid need pre, y.2.2.nonce ≠ p.nonce) :
    (⟨now, .req q, none⟩, name.getD (c! "sig"), p) ∈ Service.taken kc p.keyid need (pre ++ ⟨now, .req q, none⟩ :: post) ∧
      Service.look ks p'.keyid needs ⟨now', .res s, some q⟩ = some (name'.getD (c! "sig"), p') := by
  obtain ⟨s1, s2, _⟩ := C108_sent (m := .req q0) hq.headers (by simp) hsend
  obtain ⟨rest, hr⟩ := C108_delivered hk hlk (m := .req q0) hq.headers (by simp) hsend ht pre post hn
  refine ⟨by rw [hr]; simp, service_sent_look hk' hlk' (m := .res s0) hs ?_ hsend' ht'⟩
  intro r e; injection e with e; subst e; exact s2

/-- C116: an answer can cover Signature-Input of the request: its value is the label and the parameters of the request. -/
theorem C116_can_answer {ck : SigningKey} {t : DigestType} {need : List CId} {q0 q : Request} {p : SigParams} {name : Option Str} (hq : WfRequest q0)
    (hsend : Service.send t need (.req q0) p ck name none = some (.req q)) (s : Response) :
    Guard.idHere (.res s) (some q) inputOfRequest = true ∧ HasValue (.res s) (some q) inputOfRequest (name.getD (c! "sig") ++ c! "=" ++ p.disp) := by
  obtain ⟨m1, sh, g1, g2, g3, g4, g5, g6, g7, g8, g9⟩ := exchange_sent (m := .req q0) hq.headers (by simp) hsend
  obtain ⟨s1, s2, _⟩ := C108_sent (m := .req q0) hq.headers (by simp) hsend
  have g9 : fieldLines q.headers (c! "signature-input") = [utf8 (sh.name ++ c! "=" ++ p.disp)] := g9
  constructor
  · show (!(q.headers.getAll (c! "signature-input")).isEmpty) = true
    rw [getAll_fieldLines (show WfHeaders q.headers from s2), g9]; rfl
  · unfold HasValue
    rw [if_pos (by simp [inputOfRequest])]
    refine ⟨_, _, rfl, rfl, [_], [_], ?_, .req (.done _), rfl⟩
    rw [show (Msg.req q).headers = q.headers from rfl, g9]
    refine .cons ?_ .nil
    rw [hvToStr_utf8, g2]
    have := safe_input_printable (sh := sh) ⟨g6, by rw [g3]; exact g5⟩
    simpa [SigHeaders.inputValue, g3] using this

/-! ### Without Signature-Input of the request -/

/-- C116: the need for it. An answer whose signatures cover no field of the request is taken for every request with the same method and the same
URI, whatever its fields, its body and its nonce are. -/
theorem C116_confused {s : Response} (hs : WfHeaders s.headers) {r1 r2 : Request} (h1 : WfHeaders r1.headers) (h2 : WfHeaders r2.headers)
    (em : r1.method = r2.method) (eu : r1.uri = r2.uri) (hno : ∀ l, Carries s.headers l → ∀ kv ∈ l, NoFieldOfRequest kv.2.params) (k : VerifyingKey)
    (id : Option Str) (need : List CId) (now : UInt64) :
    Service.look k id need ⟨now, .res s, some r1⟩ = Service.look k id need ⟨now, .res s, some r2⟩ := by
  have hsame : ∀ l, Carries s.headers l → ∀ kv ∈ l, ∀ i ∈ kv.2.params.covered, Wire.SameFor (.res s) (.res s) (some r1) (some r2) i ∧
      Guard.idHere (.res s) (some r1) i = Guard.idHere (.res s) (some r2) i := by
    intro l hl kv hkv i hi
    by_cases hr : CParam.req ∈ i.params
    · obtain ⟨d, e, hd⟩ := hno l hl kv hkv i hi hr
      obtain ⟨n, ps⟩ := i
      simp only at e
      subst e
      refine ⟨.there hr rfl rfl rfl rfl ?_, ?_⟩
      · cases d <;> simp_all [Wire.SamePart]
      · unfold Guard.idHere
        cases d <;> simp [Guard.hereIn, Guard.targetFine, em, eu]
    · refine ⟨.here hr ?_, ?_⟩
      · obtain ⟨n, ps⟩ := i
        cases n with
        | field f => exact .inl rfl
        | derived d => cases d <;> simp [Wire.SamePart]
      · unfold Guard.idHere
        have : i.params.contains CParam.req = false := by simpa using hr
        rw [this]; rfl
  have hv := (C80_verify (m := .res s) (m' := .res s) hs hs (rf := some r1) (rf' := some r2) (by intro r e; injection e with e; subst e; exact h1)
    (by intro r e; injection e with e; subst e; exact h2) (regrouped_self _) (regrouped_self _)
    (fun l hl kv hkv i hi => (hsame l (wireCarries_iff.1 hl) kv hkv i hi).1) now [(Guard.key k, id)]).1
  have key : Guard.receive now (.res s) [(k, id)] (some r1) = Guard.receive now (.res s) [(k, id)] (some r2) := by
    unfold Guard.receive
    by_cases hcl : Guard.clean (Msg.res s).headers = true
    · rw [if_pos hcl, if_pos hcl]
      unfold Guard.verifyAll
      simp only [List.map_cons, List.map_nil]
      rw [hv]
      cases hps : Guard.call (.res s) (getSignatureParams (.res s)) with
      | err e => rfl
      | panic => rfl
      | ok ps =>
        have hps' : getSignatureParams (.res s) = .ok ps := by
          unfold Guard.call at hps
          split at hps
          · cases hg : getSignatureParams (.res s) <;> rw [hg] at hps <;> simp [Res.mapErr] at hps
            rw [hps]
          · cases hps
        obtain ⟨l, hl, rfl⟩ := (C49_params (m := .res s) hs ps).1 hps'
        have : Guard.accept (.res s) (some r1) (l.map fun kv => (kv.1, kv.2.params)) =
            Guard.accept (.res s) (some r2) (l.map fun kv => (kv.1, kv.2.params)) := by
          funext e
          cases e with
          | error e => rfl
          | ok n =>
            unfold Guard.accept
            dsimp only
            cases hfd : (l.map fun kv => (kv.1, kv.2.params)).find? (fun kv => kv.1 == n) with
            | none => rfl
            | some kv =>
              obtain ⟨kv', hkv', e⟩ := List.mem_map.1 (List.mem_of_find?_eq_some hfd)
              have : kv.2.covered.all (Guard.idHere (.res s) (some r1)) = kv.2.covered.all (Guard.idHere (.res s) (some r2)) := by
                rw [Bool.eq_iff_iff, List.all_eq_true, List.all_eq_true]
                refine forall₂_congr fun i hi => ?_
                rw [(hsame l hl kv' hkv' i (by rw [← e] at hi; exact hi)).2]
              simp only [this]
        simp only [Bind.bind, Res.bind, this]
    · rw [if_neg hcl, if_neg hcl]
  unfold Service.look Replay.careful
  simp only [key]

/-! ### Examples -/

/-- Parameters of an answer that covers Signature-Input of the request. -/
def c116Params : SigParams := c108Params answerNeed

theorem c116Safe : SafeParams c116Params ∧ NotSelf c116Params := by
  refine ⟨(C101_params _).1 (by decide +kernel), ?_⟩
  intro i hi hr
  simp only [c116Params, c108Params, c89Params, answerNeed, List.cons_append, List.nil_append, List.mem_cons, List.not_mem_nil, or_false] at hi
  rcases hi with rfl | rfl | rfl | rfl | rfl
  · exact ⟨by simp, by intro f h; cases h⟩
  · simp at hr
  · simp at hr
  · simp [inputOfRequest] at hr
  · exact ⟨by simp, by intro f h; injection h with h; subst h; decide⟩

/-- A request that is sent. -/
theorem c116_request (b : Bytes) : ∃ (r : Request) (sk : SigningKey) (vk : VerifyingKey) (m1 : Msg) (q : Request), r.body = .data b ∧ WfRequest r ∧
    (∃ s, Uri.parse httpLib s = some q.uri) ∧ KeyPair sk vk ∧ LibraryKey vk ∧ OnlySigned vk (· = ⟨m1, none, c108Params requestNeed⟩) ∧
    HonestSigning ⟨m1, none, c108Params requestNeed⟩ ∧ Service.setDigest .sha256 (.req r) = some m1 ∧ WfRequest q ∧
    Service.send .sha256 requestNeed (.req r) (c108Params requestNeed) sk none none = some (.req q) ∧
    Service.taken vk (some (c! "k")) requestNeed [⟨5, .req q, none⟩] = [(⟨5, .req q, none⟩, c! "sig", c108Params requestNeed)] := by
  obtain ⟨r, _, h0, _⟩ := c89Request b
  have w := (C71_request_wf httpLib h0).1
  obtain ⟨q1, q2, q3, q4⟩ := request_ofText.mp h0
  have eh : r.headers = [] := by injection q3 with q3; exact q3.symm
  obtain ⟨sk, vk, m1, m', a1, a2, a3, a4, a5, a6, a7, a8, a9⟩ := c108_system (t := .sha256) (need := requestNeed) (m := .req r)
    (p := c108Params requestNeed) (rf := none) w (by simp) (by show fieldLines r.headers _ = _; rw [eh]; rfl)
    (by show fieldLines r.headers _ = _; rw [eh]; rfl) ⟨_, rfl⟩ rfl ⟨by decide, c! "content-digest", by unfold IsDigestField; decide, by decide⟩
    (c108Safe (.inl rfl)).2 (c108Safe (.inl rfl)).1 (b := b) q4.symm (by
      rintro m1 rfl i hi
      simp only [c108Params, c89Params, requestNeed, List.cons_append, List.nil_append, List.mem_cons, List.not_mem_nil, or_false] at hi
      rcases hi with rfl | rfl | rfl
      · exact ⟨rfl, _, by unfold HasValue; rw [if_neg (by simp)]; exact ⟨nofun, rfl⟩⟩
      · exact ⟨rfl, _, by unfold HasValue; rw [if_neg (by simp)]; exact ⟨nofun, rfl⟩⟩
      · refine ⟨?_, _, by unfold HasValue; rw [if_neg (by simp)]; exact c108_value w.headers .sha256 b⟩
        obtain ⟨w1, w2, _⟩ := fieldLines_insert_digest w.headers (utf8 (digestText .sha256 b))
        show (!((r.headers.insert hContentDigest (utf8 (digestText .sha256 b))).getAll (c! "content-digest")).isEmpty) = true
        rw [getAll_fieldLines w1, w2]; rfl)
  obtain ⟨f1, f2⟩ := a9 5 (by decide)
  cases m' with
  | res s => exact a7.elim
  | req q =>
    exact ⟨r, sk, vk, m1, q, q4.symm, w, ⟨_, by rw [a7.2.1]; exact q2⟩, a1, a2, a4, a5, a6.1, f1.1, a8, f2 0⟩

/-- For every two bodies there are a client, a server, a request with the first body and an answer to it with the second for which all hypotheses of
`C116_agreement` and `C116_completed` hold. -/
example (b b' : Bytes) : ∃ (ck sk : SigningKey) (kc ks : VerifyingKey) (Sc Ss : Signing → Prop) (q0 q : Request) (m1 : Msg) (s0 s : Response),
    q0.body = .data b ∧ s0.body = .data b' ∧ KeyPair ck kc ∧ KeyPair sk ks ∧ LibraryKey kc ∧ LibraryKey ks ∧ OnlySigned kc Sc ∧ OnlySigned ks Ss ∧
    (∀ x, Sc x → HonestSigning x) ∧ (∀ y, Ss y → HonestSigning y) ∧ FineArrival ⟨5, .req q, none⟩ ∧
    Answers (Service.taken kc (some (c! "k")) requestNeed [⟨5, .req q, none⟩]) Ss ∧ FreshNonces Sc ∧
    (∀ y r', Ss y → y.rf = some r' → ∃ s, Uri.parse httpLib s = some r'.uri) ∧ WfRequest q0 ∧
    Service.send .sha256 requestNeed (.req q0) (c108Params requestNeed) ck none none = some (.req q) ∧
    Service.setDigest .sha256 (.req q0) = some m1 ∧ Sc ⟨m1, none, c108Params requestNeed⟩ ∧ (∃ s, Uri.parse httpLib s = some q.uri) ∧
    Service.send .sha512 answerNeed (.res s0) c116Params sk none (some q) = some (.res s) ∧ WfHeaders s.headers ∧
    Service.look ks (some (c! "k")) answerNeed ⟨7, .res s, some q⟩ = some (c! "sig", c116Params) := by
  obtain ⟨q0, ck, kc, m1, q, c1, c2, c3, c4, c5, c6, c7, c8, c9, c10, c11⟩ := c116_request b
  have ws : WfHeaders ([] : Headers) := by intro kv h; cases h
  obtain ⟨sk, ks, m2, m', a1, a2, a3, a4, a5, a6, a7, a8, a9⟩ := c108_system (t := .sha512) (need := answerNeed)
    (m := .res { status := 200, headers := [], body := .data b' }) (p := c116Params) (rf := some q) ws
    (by intro r' e; injection e with e; subst e; exact c9) rfl rfl ⟨_, rfl⟩ rfl
    ⟨by decide, c! "content-digest", by unfold IsDigestField; decide, by decide⟩ c116Safe.2 c116Safe.1 (b := b') rfl (by
      rintro m1 rfl i hi
      simp only [c116Params, c108Params, c89Params, answerNeed, List.cons_append, List.nil_append, List.mem_cons, List.not_mem_nil, or_false] at hi
      rcases hi with rfl | rfl | rfl | rfl | rfl
      · exact ⟨rfl, _, by unfold HasValue; rw [if_neg (by simp)]; exact ⟨rfl, rfl⟩⟩
      · exact ⟨rfl, _, by unfold HasValue; rw [if_pos (by simp)]; exact ⟨_, _, rfl, rfl, by intro p hp; simpa using hp, rfl⟩⟩
      · exact ⟨rfl, _, by unfold HasValue; rw [if_pos (by simp)]; exact ⟨_, _, rfl, rfl, by intro p hp; simpa using hp, rfl⟩⟩
      · obtain ⟨h1, h2⟩ := C116_can_answer c2 c10
          ⟨200, Headers.insert [] hContentDigest (utf8 (digestText .sha512 b')), .data b'⟩
        exact ⟨h1, _, h2⟩
      · refine ⟨?_, _, by unfold HasValue; rw [if_neg (by simp)]; exact c108_value ws .sha512 b'⟩
        obtain ⟨w1, w2, _⟩ := fieldLines_insert_digest ws (utf8 (digestText .sha512 b'))
        show (!((Headers.insert [] hContentDigest (utf8 (digestText .sha512 b'))).getAll (c! "content-digest")).isEmpty) = true
        rw [getAll_fieldLines w1, w2]; rfl)
  obtain ⟨f1, f2⟩ := a9 7 (by decide)
  cases m' with
  | req r' => exact a7.elim
  | res s =>
    refine ⟨ck, sk, kc, ks, _, _, q0, q, m1, _, s, c1, rfl, c4, a1, c5, a2, c6, a4, ?_, ?_, ⟨c9, by simp⟩, ?_, ?_, ?_, c2, c10, c8, rfl, c3, a8, f1.1, ?_⟩
    · rintro x rfl; exact c7
    · rintro y rfl; exact a5
    · rintro y rfl r e
      injection e with e; subst e
      rw [c11]; exact ⟨_, List.mem_singleton.2 rfl, rfl⟩
    · rintro x y rfl rfl _; rfl
    · rintro y r' rfl e
      injection e with e; subst e; exact c3
    · refine service_sent_look a1 a2 (m := .res { status := 200, headers := [], body := .data b' }) ws ?_ a8 ?_
      · intro r e; injection e with e; subst e; exact c9.headers
      · intro e he; injection he with he; subst he; decide

/-- The hypotheses of `C116_confused`: an answer that covers the status, the method and the URI, and the digest, is taken for its request and for
every other request with the same method and URI. -/
example (b b' : Bytes) : ∃ (ks : VerifyingKey) (s : Response) (r : Request), r.body = .data b ∧ WfHeaders s.headers ∧ WfHeaders r.headers ∧
    (∀ l, Carries s.headers l → ∀ kv ∈ l, NoFieldOfRequest kv.2.params) ∧
    ∀ h2 body2, WfHeaders h2 → Service.look ks (some (c! "k")) responseNeed ⟨7, .res s, some { r with headers := h2, body := body2 }⟩ =
      some (c! "sig", c108Params responseNeed) := by
  obtain ⟨r, _, h0, _⟩ := c89Request b
  have w := (C71_request_wf httpLib h0).1
  obtain ⟨q1, q2, q3, q4⟩ := request_ofText.mp h0
  have ws : WfHeaders ([] : Headers) := by intro kv h; cases h
  have hf : ∀ r', some r = some r' → WfRequest r' := by intro r' e; injection e with e; subst e; exact w
  obtain ⟨sk, vk, m1, m', a1, a2, a3, a4, a5, a6, a7, a8, a9⟩ := c108_system (t := .sha512) (need := responseNeed)
    (m := .res { status := 200, headers := [], body := .data b' }) (p := c108Params responseNeed) (rf := some r) ws
    hf rfl rfl ⟨_, rfl⟩ rfl
    ⟨by decide, c! "content-digest", by unfold IsDigestField; decide, by decide⟩ (c108Safe (.inr rfl)).2 (c108Safe (.inr rfl)).1 (b := b') rfl (by
      rintro m1 rfl i hi
      simp only [c108Params, c89Params, responseNeed, List.cons_append, List.nil_append, List.mem_cons, List.not_mem_nil, or_false] at hi
      rcases hi with rfl | rfl | rfl | rfl
      · exact ⟨rfl, _, by unfold HasValue; rw [if_neg (by simp)]; exact ⟨rfl, rfl⟩⟩
      · exact ⟨rfl, _, by unfold HasValue; rw [if_pos (by simp)]; exact ⟨_, _, rfl, rfl, by intro p hp; simpa using hp, rfl⟩⟩
      · exact ⟨rfl, _, by unfold HasValue; rw [if_pos (by simp)]; exact ⟨_, _, rfl, rfl, by intro p hp; simpa using hp, rfl⟩⟩
      · refine ⟨?_, _, by unfold HasValue; rw [if_neg (by simp)]; exact c108_value ws .sha512 b'⟩
        obtain ⟨w1, w2, _⟩ := fieldLines_insert_digest ws (utf8 (digestText .sha512 b'))
        show (!((Headers.insert [] hContentDigest (utf8 (digestText .sha512 b'))).getAll (c! "content-digest")).isEmpty) = true
        rw [getAll_fieldLines w1, w2]; rfl)
  obtain ⟨f1, f2⟩ := a9 7 (by decide)
  cases m' with
  | req r' => exact a7.elim
  | res s =>
    have hfh : ∀ r', some r = some r' → WfHeaders r'.headers := fun r' e => (hf r' e).headers
    have hno : ∀ l, Carries s.headers l → ∀ kv ∈ l, NoFieldOfRequest kv.2.params := by
      intro l hl kv hkv
      obtain ⟨_, sh, _, _, g3, _, _, _, _, g8, _⟩ := exchange_sent (m := .res { status := 200, headers := [], body := .data b' }) ws hfh a8
      cases carries_unique f1.1 hl g8
      rw [List.mem_singleton] at hkv
      subst hkv
      intro i hi hr
      simp only [g3, c108Params, c89Params, responseNeed, List.cons_append, List.nil_append, List.mem_cons, List.not_mem_nil, or_false] at hi
      rcases hi with rfl | rfl | rfl | rfl
      · simp at hr
      · exact ⟨_, rfl, by decide⟩
      · exact ⟨_, rfl, by decide⟩
      · simp at hr
    refine ⟨vk, s, r, q4.symm, f1.1, w.headers, hno, fun h2 body2 hh2 => ?_⟩
    rw [← C116_confused (s := s) f1.1 (r1 := r) (r2 := { r with headers := h2, body := body2 }) w.headers hh2 rfl rfl hno]
    refine service_sent_look a1 a2 (m := .res { status := 200, headers := [], body := .data b' }) ws hfh a8 ?_
    intro e he; injection he with he; subst he; decide

end Verif
