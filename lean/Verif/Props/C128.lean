import Verif.Spec.Http1Response
import Verif.Props.C126
import Verif.Props.C127
import Verif.Props.C01
/-!
C128: a signed response is written to the wire and read again, and the whole exchange.
-/
namespace Verif
open Sfv Spec Arrival Http1

/-- C128: a stream of octets is the head of one response only. -/
theorem C128_unique {b b' x x' : Bytes} {n n' : Nat} {h h' : Headers} (hb : ResHead b n h) (hb' : ResHead b' n' h') (e : b ++ x = b' ++ x') :
    n = n' ∧ h = h' ∧ b = b' ∧ x = x' := by
  obtain ⟨t, ls, rfl, h1, h2, h3⟩ := hb
  obtain ⟨t', ls', rfl, h1', h2', h3'⟩ := hb'
  have no : ∀ k : Nat, (32 : UInt8) ∉ utf8 (decimal k) := by
    intro k hm
    have hd : ∀ c ∈ decimal k, 48 ≤ c.toNat ∧ c.toNat ≤ 57 := by
      intro c hc
      have h2 : c.isDigit = true := Nat.isDigit_of_mem_toDigits (by decide) (by decide) hc
      rw [Char.isDigit_iff_toNat] at h2
      have h3 : '0'.toNat = 48 := rfl
      have h4 : '9'.toNat = 57 := rfl
      omega
    obtain ⟨c, hc, e⟩ := utf8_mem (fun c hc => by have := hd c hc; omega) hm
    have := hd c hc
    have : (32 : UInt8).toNat = 32 := rfl
    omega
  have no' : ∀ {s : Bytes}, (∀ c ∈ s, ValueByte c) → (13 : UInt8) ∉ s := fun h hm => absurd (h _ hm) (by simp [ValueByte])
  have e0 := e
  simp only [statusBytes, List.append_assoc, List.cons_append] at e
  have e1 := List.append_cancel_left e
  simp only [List.cons.injEq, true_and] at e1
  obtain ⟨e2, e3⟩ := cut_at (no n) (no n') e1
  obtain ⟨e4, e5⟩ := cut_at (no' h2) (no' h2') e3
  simp only [List.cons.injEq, true_and] at e5
  obtain ⟨e6, e7⟩ := lines_unique h3 h3' e5
  have e8 := utf8_inj e2
  rw [decimal_eq, decimal_eq] at e8
  subst e7
  exact ⟨natStr_inj e8, e6, List.append_cancel_right e0, rfl⟩

variable {r r' : Request} {s s' : Response} {extra : Headers} {reason : Bytes}

/-- C128: the status is three digits after the version and a space, and a space follows. -/
theorem C128_digits {b : Bytes} {n : Nat} {h : Headers} (hb : ResHead b n h) :
    ∃ x y z : Fin 10, n = 100 * x + 10 * y + z ∧ utf8 (c! "HTTP/1.1 ") ++ [48 + UInt8.ofNat x, 48 + UInt8.ofNat y, 48 + UInt8.ofNat z, 32] <+: b := by
  obtain ⟨reason, ls, rfl, ⟨h1, h2⟩, _⟩ := hb
  have key : ∀ n < 1000, 100 ≤ n → utf8 (decimal n) = [48 + UInt8.ofNat (n / 100), 48 + UInt8.ofNat (n / 10 % 10), 48 + UInt8.ofNat (n % 10)] := by decide +kernel
  refine ⟨⟨n / 100, by omega⟩, ⟨n / 10 % 10, by omega⟩, ⟨n % 10, by omega⟩, by dsimp only; omega, reason ++ 13 :: 10 :: linesBytes ls, ?_⟩
  unfold statusBytes
  rw [key n (by omega) h1]
  rfl

/-- C128: what a server writes is the head of a response with its status and its lines without outer blanks. -/
theorem C128_head (hn : Status s.status) (hr : ∀ c ∈ reason, ValueByte c) (hw : WfHeaders (extra ++ s.headers)) (hs : SendableLines (extra ++ s.headers)) :
    ∃ h', List.Forall₂ LineOnWay (extra ++ s.headers) h' ∧ ResHead (writtenRes reason extra s) s.status h' := by
  obtain ⟨h', h1, h2⟩ := lines_written (c := id) (fun _ hn => ⟨wfName_token hn, hn.lower⟩) hw hs
  exact ⟨h', h1, _, _, rfl, hn, hr, h2⟩

theorem readsRes_eq (hn : Status s.status) (hr : ∀ c ∈ reason, ValueByte c) (hw : WfHeaders (extra ++ s.headers)) (hs : SendableLines (extra ++ s.headers)) {body : Bytes}
    (h : ReadsRes (writtenRes reason extra s ++ body) s') : s'.status = s.status ∧ List.Forall₂ LineOnWay (extra ++ s.headers) s'.headers := by
  obtain ⟨c, rest, h1, h2⟩ := h
  obtain ⟨h', h3, h4⟩ := C128_head hn hr hw hs
  obtain ⟨e1, e3, _⟩ := C128_unique h1 h4 h2
  exact ⟨e1, e3 ▸ h3⟩

/-- Fields that did not change on the way. -/
theorem onWay_clear {h h' : Headers} (hw : WfHeaders (extra ++ h)) (hh : List.Forall₂ LineOnWay (extra ++ h) h') {f : Str}
    (hf : f.map Char.toLower ∉ changed extra h) : Wire.linesOf h' f = Wire.linesOf h f := by
  have out : ∀ kv ∈ extra, kv.1.map Char.toLower ≠ f.map Char.toLower := by
    intro kv hkv e
    have hn : kv.1.map Char.toLower = kv.1 := (hw kv (by simp [hkv])).lower
    exact hf (by rw [← e, hn]; exact List.mem_map_of_mem (by simp [hkv]))
  rw [onWay_lines hh]
  · unfold Wire.linesOf
    rw [List.filter_append, List.filter_eq_nil_iff.2 (fun kv hkv => by simpa using out kv hkv), List.nil_append]
  · intro kv hkv e
    rcases List.mem_append.1 hkv with hk | hk
    · exact absurd e (out kv hk)
    · by_contra hn
      have hl : kv.1.map Char.toLower = kv.1 := (hw kv (by simp [hk])).lower
      exact hf (by rw [← e, hl]; exact List.mem_map_of_mem (by simp [hk, hn]))

theorem response_value (hst : s'.status = s.status) {ch : List Str} (hl : ∀ f : Str, f.map Char.toLower ∉ ch → Wire.linesOf s'.headers f = Wire.linesOf s.headers f)
    {i : CId} (hc : Clear ch i) (v : Str) : Wire.ValueIn (.res s') i v ↔ Wire.ValueIn (.res s) i v := by
  obtain ⟨n, ps⟩ := i
  unfold Wire.ValueIn
  cases n with
  | field f => simp only [Wire.FieldValue, Wire.LinesText, hl f (hc.1 f rfl)]
  | derived d =>
    simp only
    refine and_congr_right fun _ => ?_
    unfold Wire.ResponseValue
    cases d with
    | status => simp only [hst]
    | signatureParams => simp only [Wire.SigParamsValue, hl (c! "signature-input") (hc.2 rfl)]
    | _ => exact Iff.rfl

theorem changed_signed {h sigs : Headers} (hn : ∀ kv ∈ sigs, NoOuter kv.2) : changed extra (h ++ sigs) = changed extra h := by
  unfold changed
  have hnil : sigs.filter (fun kv => decide ¬ NoOuter kv.2) = [] := List.filter_eq_nil_iff.2 (fun kv hkv => by simpa using hn kv hkv)
  rw [List.filter_append, hnil, List.append_nil]

/-- C128: signing never spoils a response: every reader sees the lines that were there before and after them two lines for each signer, exactly as they were made. -/
theorem C128_no_injection {l : List Signer} {h : Headers} {rf : Option Request} (hf : ∀ q, rf = some q → WfHeaders q.headers) (hn : Status s.status)
    (hr : ∀ c ∈ reason, ValueByte c) (hw : WfHeaders (extra ++ s.headers)) (hs : SendableLines (extra ++ s.headers))
    (hsign : setSignatures (.res s) l rf = (h, .ok ())) (hl : ∀ x ∈ l, LabelStart x) {body : Bytes}
    (hread : ReadsRes (writtenRes reason extra { s with headers := h } ++ body) s') :
    s'.status = s.status ∧ ∃ front sigs, h = s.headers ++ sigs ∧ s'.headers = front ++ sigs ∧ sigs.length = 2 * l.length ∧
      List.Forall₂ LineOnWay (extra ++ s.headers) front := by
  have hwr : WfHeaders s.headers := fun kv hkv => hw kv (by simp [hkv])
  obtain ⟨ls, h1, rfl⟩ := (C65_sign (m := .res s) hwr hf l h).1 hsign
  obtain ⟨c1, c2, c3, c4⟩ := all_added h1 hl
  have e : extra ++ (s.headers ++ ls.flatten) = (extra ++ s.headers) ++ ls.flatten := (List.append_assoc _ _ _).symm
  obtain ⟨a1, a3⟩ := readsRes_eq (s := { s with headers := (Msg.res s).headers ++ ls.flatten }) (extra := extra) hn hr
    (e ▸ wf_append hw c2) (e ▸ lines_append hs c3) hread
  refine ⟨a1, ?_⟩
  have a3 : List.Forall₂ LineOnWay ((extra ++ s.headers) ++ ls.flatten) s'.headers := e ▸ a3
  obtain ⟨front, sigs, e1, e2, e3⟩ := forall₂_parts a3
  rw [onWay_same e3 c4] at e1
  exact ⟨front, ls.flatten, rfl, e1, c1, e2⟩

/-- Components of a response that are the same on both sides: those of the request must survive its way, the others the way back. -/
def BothWays (there back : List Str) (i : CId) : Prop := if CParam.req ∈ i.params then Clear there i ∧ ¬ Lost i else Clear back i

/-- C128: the server verifies its own answer with the request as it came; the client verifies what it reads with the request as it was sent. Both get the same
result. -/
theorem C128_deliver {there : List Str} (ha : Arrives there r r') (hu : Absolute r.uri) (hm : r.method ≠ c! "CONNECT") (hwr : WfHeaders r.headers)
    (hwr' : WfHeaders r'.headers) {l : List Signer} {h : Headers} (hn : Status s.status) (hr : ∀ c ∈ reason, ValueByte c)
    (hw : WfHeaders (extra ++ s.headers)) (hs : SendableLines (extra ++ s.headers)) (hsign : setSignatures (.res s) l (some r') = (h, .ok ()))
    (hl : ∀ x ∈ l, LabelStart x) (ht : Untouched (changed extra s.headers)) {body : Bytes}
    (hread : ReadsRes (writtenRes reason extra { s with headers := h } ++ body) s')
    (hc : ∀ k, Wire.Carries h k → ∀ kv ∈ k, ∀ i ∈ kv.2.params.covered, BothWays there (changed extra s.headers) i)
    (now : UInt64) (keys : List (VerifyingKey × Option Str)) :
    verifySignatures now (.res s') keys (some r) = verifySignatures now (.res { s with headers := h }) keys (some r') ∧
    ∀ k id, verifySignature now (.res s') k id (some r) = verifySignature now (.res { s with headers := h }) k id (some r') := by
  have hws : WfHeaders s.headers := fun kv hkv => hw kv (by simp [hkv])
  have hf : ∀ q, some r = some q → WfHeaders q.headers := by intro q e; injection e with e; exact e ▸ hwr
  have hf' : ∀ q, some r' = some q → WfHeaders q.headers := by intro q e; injection e with e; exact e ▸ hwr'
  obtain ⟨ls, h1, e0⟩ := (C65_sign (m := .res s) hws hf' l h).1 hsign
  have e0 : h = s.headers ++ ls.flatten := e0
  obtain ⟨_, c2, c3, c4⟩ := all_added h1 hl
  have e : extra ++ h = (extra ++ s.headers) ++ ls.flatten := by rw [e0, List.append_assoc]
  have hw1 : WfHeaders (extra ++ h) := e ▸ wf_append hw c2
  obtain ⟨a1, a3⟩ := readsRes_eq (s := { s with headers := h }) (extra := extra) hn hr hw1 (e ▸ lines_append hs c3) hread
  have hch : changed extra h = changed extra s.headers := by rw [e0]; exact changed_signed c4
  have hlines : ∀ f : Str, f.map Char.toLower ∉ changed extra s.headers → Wire.linesOf s'.headers f = Wire.linesOf h f :=
    fun f hf => onWay_clear hw1 a3 (hch.symm ▸ hf)
  have hwh : WfHeaders h := fun kv hkv => hw1 kv (List.mem_append_right _ hkv)
  have he := extract_of_lines (m := .res { s with headers := h }) (m' := .res s') hwh (onWay_wf a3 hw1) (hlines (c! "signature-input") ht.1).symm (hlines (c! "signature") ht.2).symm
  obtain ⟨g1, g2⟩ := verify_congr_base (m := .res { s with headers := h }) (m' := .res s') hwh (onWay_wf a3 hw1) hf' hf he (fun l hl kv hkv t => by
    have hcl := hc l (wireCarries_iff.2 ((extractSignatureHeaders_ok (m := .res { s with headers := h }) hwh l).1 hl)) kv hkv
    rw [← wireBaseOf_iff, ← wireBaseOf_iff]
    refine wireBase_congr (fun i hi v => ?_) t
    have hb := hcl i hi
    unfold BothWays at hb
    unfold Wire.HasValue
    by_cases hq : CParam.req ∈ i.params
    · rw [if_pos hq] at hb
      have := C124_value ha hu hm hb.2 hb.1 v
      simp [hq, this]
    · rw [if_neg hq] at hb
      have := response_value (s := { s with headers := h }) (s' := s') a1 hlines hb v
      simp [hq, this]) now keys
  exact ⟨g1.symm, fun k id => (g2 k id).symm⟩

/-! ### The whole exchange -/

/-- What one side signs and sends: lines that can be sent, no signatures before, parameters that can be written, a pair of keys, and a signature that is not expired. -/
structure Seal (extra h : Headers) (p : SigParams) (name : Option Str) (sk : SigningKey) (vk : VerifyingKey) (now : UInt64) : Prop where
  wf : WfHeaders (extra ++ h)
  ok : SendableLines (extra ++ h)
  noInput : Wire.linesOf (extra ++ h) (c! "signature-input") = []
  noSignature : Wire.linesOf (extra ++ h) (c! "signature") = []
  params : SafeParams p
  notSelf : NotSelf p
  label : LegalKey (name.getD (c! "sig"))
  pair : KeyPair sk vk
  fresh : ∀ e, p.expires = some e → now ≤ e

theorem legal_start {p : SigParams} {sk : SigningKey} {name : Option Str} (h : LegalKey (name.getD (c! "sig"))) : ∀ x ∈ [((p, sk, name) : Signer)], LabelStart x := by
  intro x hx c hc
  rw [List.mem_singleton.1 hx] at hc
  obtain ⟨d, hd, h1⟩ := h.1
  have hc : (name.getD (c! "sig")).head? = some c := hc
  rw [hd] at hc
  injection hc with e
  subst e
  rcases h1 with h1 | rfl
  · have a : 97 ≤ d.toNat := h1.1
    refine ⟨?_, ?_⟩ <;> (rintro rfl; exact absurd a (by decide))
  · decide

theorem seal_untouched {h : Headers} {p : SigParams} {name : Option Str} {sk : SigningKey} {vk : VerifyingKey} {now : UInt64} (hs : Seal extra h p name sk vk now) :
    Untouched (changed extra h) := by
  have key : ∀ f : Str, f.map Char.toLower = f → Wire.linesOf (extra ++ h) f = [] → f ∉ changed extra h := by
    intro f hf he hm
    obtain ⟨kv, hkv, rfl⟩ := List.mem_map.1 hm
    have hk : kv ∈ extra ++ h := by
      rcases List.mem_append.1 hkv with h1 | h1
      · exact List.mem_append_left _ h1
      · exact List.mem_append_right _ (List.mem_filter.1 h1).1
    have := mem_linesOf hk rfl
    rw [he] at this; cases this
  exact ⟨key _ (by decide) hs.noInput, key _ (by decide) hs.noSignature⟩

theorem seal_fresh {h : Headers} {p : SigParams} {name : Option Str} {sk : SigningKey} {vk : VerifyingKey} {now : UInt64} (hs : Seal extra h p name sk vk now) :
    fieldLines h (c! "signature-input") = [] ∧ fieldLines h (c! "signature") = [] := by
  have h1 := hs.noInput
  have h2 := hs.noSignature
  rw [linesOf_append] at h1 h2
  exact ⟨(List.append_eq_nil_iff.1 h1).2, (List.append_eq_nil_iff.1 h2).2⟩

/-- The signatures of a message that was signed once. -/
theorem seal_carries {m : Msg} {rf : Option Request} (hw : WfHeaders m.headers) (hf : ∀ q, rf = some q → WfHeaders q.headers)
    (h0 : fieldLines m.headers (c! "signature-input") = []) (h0' : fieldLines m.headers (c! "signature") = []) {p : SigParams} (hp : SafeParams p) (hn : NotSelf p)
    {name : Option Str} (hl : LegalKey (name.getD (c! "sig"))) {sk : SigningKey} {h : Headers} (h1 : setSignatures m [(p, sk, name)] rf = (h, .ok ()))
    {k : List (Str × SigHeaders)} (hk : Wire.Carries h k) : ∀ kv ∈ k, kv.2.params = p := by
  obtain ⟨hs, a1, a2, a3, _⟩ := signed_state hw hf h0 h0' (l := [(p, sk, name)]) (by simp)
    (by intro x hx; rw [List.mem_singleton.1 hx]; exact ⟨hp, hl, hn⟩) (by simp) h1
  have hwm : WfHeaders (m.withHeaders h).headers := by rw [headers_withHeaders]; exact a2
  have e1 := (extractSignatureHeaders_ok (m := m.withHeaders h) hwm k).2 (by rw [headers_withHeaders]; exact wireCarries_iff.1 hk)
  have e2 := (extractSignatureHeaders_ok (m := m.withHeaders h) hwm _).2 (by rw [headers_withHeaders]; exact a3)
  rw [e1] at e2
  injection e2 with e2
  subst e2
  intro kv hkv
  obtain ⟨sh, hsh, rfl⟩ := List.mem_map.1 hkv
  cases a1 with
  | cons b c =>
    cases c
    rw [List.mem_singleton.1 hsh]
    exact b.params

/-- C128: a request that is signed, written and read is valid at the server. -/
theorem C128_request {p : SigParams} {name : Option Str} {sk : SigningKey} {vk : VerifyingKey} {now : UInt64} (hq : Seal extra r.headers p name sk vk now)
    (hr : Sendable r) (hu : Absolute r.uri) (hm : r.method ≠ c! "CONNECT") (hc : ∀ i ∈ p.covered, Clear (changed extra r.headers) i ∧ ¬ Lost i)
    {r1 r2 : Request} (hsign : r.setSignature p sk name = (r1, .ok ())) {body : Bytes} (hread : Reads (written extra r1 ++ body) r2) :
    r2.verifySignature now vk none = .ok (name.getD (c! "sig")) := by
  have hw : WfHeaders r.headers := fun kv hkv => hq.wf kv (by simp [hkv])
  obtain ⟨f1, f2⟩ := seal_fresh hq
  have h1 := C01_request (now := now) r hw f1 f2 hq.params hq.notSelf hq.label hq.pair hsign hq.fresh (id := none) (Or.inl rfl)
  injection hsign with e1 e2
  subst e1
  have hset : setSignatures (.req r) [(p, sk, name)] none = ((setSignatures (.req r) [(p, sk, name)] none).1, .ok ()) := Prod.ext rfl e2
  have h2 := (C126_deliver (extra := extra) hr hq.wf hq.ok hu hm hset (legal_start hq.label) (seal_untouched hq) hread
    (fun k hk kv hkv i hi => hc i (by rwa [seal_carries (m := .req r) hw (by simp) f1 f2 hq.params hq.notSelf hq.label hset hk kv hkv] at hi)) now []).2 vk none
  exact h2.trans h1

/-- C128: the whole exchange. The client signs a request, writes it, the server reads it, signs an answer that may cover components of the request, writes it, and
the client reads it: the client finds the signature of the answer valid for the request that it sent. -/
theorem C128_exchange {p p' : SigParams} {name name' : Option Str} {sk sk' : SigningKey} {vk vk' : VerifyingKey} {now now' : UInt64} {extra' : Headers}
    (hq : Seal extra r.headers p name sk vk now) (hr : Sendable r) (hu : Absolute r.uri) (hm : r.method ≠ c! "CONNECT")
    {r1 r2 : Request} (hsign : r.setSignature p sk name = (r1, .ok ())) {body : Bytes} (hread : Reads (written extra r1 ++ body) r2)
    (ha : Seal extra' s.headers p' name' sk' vk' now') (hn : Status s.status) (hre : ∀ c ∈ reason, ValueByte c)
    (hc : ∀ i ∈ p'.covered, BothWays (changed extra r.headers) (changed extra' s.headers) i)
    {s1 s2 : Response} (hsign' : s.setSignature p' sk' name' (some r2) = (s1, .ok ())) {body' : Bytes}
    (hread' : ReadsRes (writtenRes reason extra' s1 ++ body') s2) :
    s2.verifySignature now' vk' none (some r1) = .ok (name'.getD (c! "sig")) := by
  have hw : WfHeaders r.headers := fun kv hkv => hq.wf kv (by simp [hkv])
  have hws : WfHeaders s.headers := fun kv hkv => ha.wf kv (by simp [hkv])
  injection hsign with e1 e2
  have e2 : (setSignatures (.req r) [(p, sk, name)] none).2 = .ok () := e2
  obtain ⟨ls, g1, g2⟩ := (C65_sign (m := .req r) hw (by simp) _ _).1 (show setSignatures (.req r) [(p, sk, name)] none = (_, .ok ()) from Prod.ext rfl e2)
  obtain ⟨_, c2, c3, c4⟩ := all_added g1 (legal_start hq.label)
  have er : r1 = { r with headers := r.headers ++ ls.flatten } := by
    rw [← e1]
    exact congrArg (fun h => ({ r with headers := h } : Request)) g2
  have e : extra ++ r1.headers = (extra ++ r.headers) ++ ls.flatten := by rw [er]; exact (List.append_assoc _ _ _).symm
  have hw1 : WfHeaders (extra ++ r1.headers) := e ▸ wf_append hq.wf c2
  have hs1 : SendableLines (extra ++ r1.headers) := e ▸ lines_append hq.ok c3
  have hr1 : Sendable r1 := by rw [er]; exact ⟨hr.method, hr.path, hr.mark, hr.pathChars, hr.queryChars⟩
  have harr := C126_arrives hr1 hw1 hs1 hread
  have hch : changed extra r1.headers = changed extra r.headers := by rw [er]; exact changed_signed c4
  rw [hch] at harr
  obtain ⟨_, _, a3⟩ := reads_eq hr1 hw1 hs1 hread
  have hw2 : WfHeaders r2.headers := onWay_wf a3 hw1
  have hf2 : ∀ q, some r2 = some q → WfHeaders q.headers := by intro q e; injection e with e; exact e ▸ hw2
  have hu1 : Absolute r1.uri := by rw [er]; exact hu
  have hm1 : r1.method ≠ c! "CONNECT" := by rw [er]; exact hm
  obtain ⟨f1, f2⟩ := seal_fresh ha
  have h1 := C02_response (now := now') s hws hf2 f1 f2 ha.params ha.notSelf ha.label ha.pair hsign' ha.fresh (id := none) (Or.inl rfl)
  injection hsign' with d1 d2
  subst d1
  have hset : setSignatures (.res s) [(p', sk', name')] (some r2) = ((setSignatures (.res s) [(p', sk', name')] (some r2)).1, .ok ()) := Prod.ext rfl d2
  have h2 := (C128_deliver (extra := extra') harr hu1 hm1 (fun kv hkv => hw1 kv (List.mem_append_right _ hkv)) hw2 hn hre ha.wf ha.ok hset (legal_start ha.label)
    (seal_untouched ha) hread'
    (fun k hk kv hkv i hi => hc i (by rwa [seal_carries (m := .res s) hws hf2 f1 f2 ha.params ha.notSelf ha.label hset hk kv hkv] at hi)) now' []).2 vk' none
  exact h2.trans h1

/-! ### Examples -/

namespace Ex128
open Ex124 Ex126

/-- What the answer covers: status, date, and of the request its method and its signature. -/
def answerIds : List CId := [⟨.derived .status, []⟩, ⟨.field (c! "date"), []⟩, ⟨.derived .method, [.req]⟩, ⟨.field (c! "signature"), [.req, .key (c! "sig")]⟩]

theorem answer_safe : SafeParams (exParams answerIds) where
  created := by intro t h; cases h
  expires := by intro t h; cases h
  nonce := by intro t h; cases h
  alg := by intro t h; cases h
  keyid := by intro t h; cases h
  tag := by intro t h; cases h
  ids := by
    intro i hi
    simp only [exParams, answerIds, List.mem_cons, List.not_mem_nil, or_false] at hi
    rcases hi with rfl | rfl | rfl | rfl
    · exact ⟨⟨by simp, by simp, by simp, by intro f h; cases h⟩, (by intro f h; cases h), by simp, by simp⟩
    · exact ⟨⟨by simp, by simp, by simp, by intro f h; injection h with h; subst h; decide⟩,
        (by intro f h; injection h with h; subst h; decide), by simp, by simp⟩
    · exact ⟨⟨by simp, by simp, by simp, by intro f h; cases h⟩, (by intro f h; cases h), by simp, by simp⟩
    · exact ⟨⟨by simp [paramLabel], by simp, by simp, by intro f h; injection h with h; subst h; decide⟩,
        (by intro f h; injection h with h; subst h; decide), (by intro k h; simp at h; subst h; decide), by simp⟩
  distinct := by simp [exParams, answerIds, SameId]

theorem answer_notSelf : NotSelf (exParams answerIds) := by
  intro i hi hr
  simp only [exParams, answerIds, List.mem_cons, List.not_mem_nil, or_false] at hi
  rcases hi with rfl | rfl | rfl | rfl
  · exact ⟨by simp, by intro f h; cases h⟩
  · exact ⟨by simp, by intro f h; injection h with h; subst h; decide⟩
  · exact absurd (by simp) hr
  · exact absurd (by simp) hr

theorem requestSeal : Seal hostLine sent.headers (wParams (c! "k") wIds) none (toySign 7) (toyVerify 7) 100 :=
  ⟨wfNames (by decide +kernel), lines_ok (by decide +kernel), by decide +kernel, by decide +kernel, wParams_safe (by decide), wParams_notSelf _, by decide, toy_pair 7,
    by intro e h; injection h with h; subst h; decide⟩

theorem answerSeal : Seal [] exRes.headers (exParams answerIds) none (toySign 9) (toyVerify 9) 100 :=
  ⟨wfNames (by decide +kernel), lines_ok (by decide +kernel), by decide +kernel, by decide +kernel, answer_safe, answer_notSelf, by decide, toy_pair 9,
    by intro e h; cases h⟩

theorem bothWays : ∀ i ∈ answerIds, BothWays (changed hostLine sent.headers) (changed [] exRes.headers) i := by
  have h1 : changed hostLine sent.headers = [c! "host"] := by decide +kernel
  have h2 : changed [] exRes.headers = [] := by decide +kernel
  rw [h1, h2]
  intro i hi
  simp only [answerIds, List.mem_cons, List.not_mem_nil, or_false] at hi
  unfold BothWays
  rcases hi with rfl | rfl | rfl | rfl
  · simp [Clear]
  · simp [Clear]
  · simp [Clear, Lost]
  · rw [if_pos (by simp)]
    refine ⟨⟨?_, by simp⟩, by simp [Lost]⟩
    intro f h; injection h with h; subst h; decide

def sentSigned : Request := (sent.setSignature (wParams (c! "k") wIds) (toySign 7) none).1
def gotRequest : Request := ⟨sentSigned.method, originForm sentSigned.uri, (hostLine ++ sentSigned.headers).map (fun kv => (kv.1, stripOws kv.2)), .data []⟩
def answer : Response := (exRes.setSignature (exParams answerIds) (toySign 9) none (some gotRequest)).1

-- what the server writes
example : (writtenRes (utf8 (c! "Not Found")) [] answer).take 37 = utf8 (c! "HTTP/1.1 404 Not Found\r\ndate: Wed\r\nsi") := by decide +kernel

theorem gotReads : Reads (written hostLine sentSigned ++ []) gotRequest :=
  reads_written (sendable _) (wfNames (by decide +kernel)) (lines_ok (by decide +kernel)) [] (.data [])

/-- The hypotheses of the theorems: an exchange. The server accepts the request and the client accepts the answer. -/
example : ∃ s2, ReadsRes (writtenRes (utf8 (c! "Not Found")) [] answer ++ utf8 (c! "body")) s2 ∧ gotRequest.verifySignature 100 (toyVerify 7) none = .ok (c! "sig") ∧
    s2.verifySignature 100 (toyVerify 9) none (some sentSigned) = .ok (c! "sig") := by
  have hre : ∀ c ∈ utf8 (c! "Not Found"), ValueByte c := by decide +kernel
  obtain ⟨h', _, h2⟩ := C128_head (s := answer) (extra := []) (reason := utf8 (c! "Not Found")) ⟨by decide +kernel, by decide +kernel⟩ hre
    (wfNames (by decide +kernel)) (lines_ok (by decide +kernel))
  have hrd : ReadsRes (writtenRes (utf8 (c! "Not Found")) [] answer ++ utf8 (c! "body")) ⟨answer.status, h', .data []⟩ := ⟨_, _, h2, rfl⟩
  have hs1 : sent.setSignature (wParams (c! "k") wIds) (toySign 7) none = (sentSigned, .ok ()) := Prod.ext rfl (by decide +kernel)
  have hs2 : exRes.setSignature (exParams answerIds) (toySign 9) none (some gotRequest) = (answer, .ok ()) := Prod.ext rfl (by decide +kernel)
  refine ⟨_, hrd, ?_, ?_⟩
  · refine C128_request requestSeal (sendable _) absolute (by decide) ?_ hs1 gotReads
    have h1 : changed hostLine sent.headers = [c! "host"] := by decide +kernel
    rw [h1]
    intro i hi
    simp only [wParams, wIds, List.mem_cons, List.not_mem_nil, or_false] at hi
    rcases hi with rfl | rfl
    · refine ⟨⟨?_, by simp⟩, by simp [Lost]⟩
      intro f h; injection h with h; subst h; decide
    · exact ⟨by simp [Clear], by simp [Lost]⟩
  · exact C128_exchange requestSeal (sendable _) absolute (by decide) hs1 gotReads answerSeal ⟨by decide +kernel, by decide +kernel⟩ hre bothWays hs2 hrd

end Ex128

end Verif
