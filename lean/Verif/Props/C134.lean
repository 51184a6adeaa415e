import Verif.Spec.Stations
import Verif.Props.C79
/-!
C134: signed messages on their way through stations that sign them too.
-/
namespace Verif
open Sfv Spec Arrival Http1 Http2

/-! ### Signatures of several signers over the message as it is -/

/-- The message carries `l0` and signatures of `l`, each of which is over the base of the message as it is. -/
def SignedNow (m : Msg) (rf : Option Request) (l0 : List (Str × SigHeaders)) (l : List Signer) : Prop :=
  ∃ hs, List.Forall₂ (SignedBy m rf) l hs ∧ HasSignatures m.headers (l0 ++ hs.map fun sh => (sh.name, sh))

theorem signed_names {m : Msg} {rf : Option Request} {l : List Signer} {hs : List SigHeaders} (h : List.Forall₂ (SignedBy m rf) l hs) :
    hs.map SigHeaders.name = l.map Signer.label := by
  induction h with
  | nil => rfl
  | cons h _ ih => rw [List.map_cons, List.map_cons, ih, h.name]

theorem signed_imp {m m' : Msg} {rf rf' : Option Request} {l : List Signer} {hs : List SigHeaders} (h : List.Forall₂ (SignedBy m rf) l hs)
    (hb : ∀ x ∈ l, ∀ t, BaseOf m rf x.1 t → BaseOf m' rf' x.1 t) : List.Forall₂ (SignedBy m' rf') l hs := by
  induction h with
  | nil => exact .nil
  | @cons x sh l hs h _ ih =>
    obtain ⟨t, t1, t2⟩ := h.signature
    exact .cons ⟨h.name, h.params, t, hb x (by simp) t t1, t2⟩ (ih (fun y hy => hb y (by simp [hy])))

/-- Verification by key id finds each of these signatures, if no other has that key id. -/
theorem signedNow_verify {m : Msg} {rf : Option Request} {now : UInt64} {l0 : List (Str × SigHeaders)} {l : List Signer} (h : SignedNow m rf l0 l)
    (hw' : WfHeaders m.headers) (hf : ∀ r, rf = some r → WfHeaders r.headers) {x : Signer} (hx : x ∈ l) {vk : VerifyingKey} (hk : KeyPair x.2.1 vk)
    (ht : ∀ e, x.1.expires = some e → now ≤ e) {id : Str} (hid : x.1.keyid = some id) (hold : ∀ kv ∈ l0, kv.2.params.keyid ≠ some id)
    (huniq : ∀ y ∈ l, y.1.keyid = some id → y = x) : verifySignature now m vk (some id) rf = .ok x.label := by
  obtain ⟨hs, h1, h2⟩ := h
  have h2' : Carries m.headers (l0 ++ hs.map fun sh => (sh.name, sh)) := by
    rcases h2 with ⟨_, _, e⟩ | ⟨h2, _⟩
    · simp only [List.append_eq_nil_iff, List.map_eq_nil_iff] at e
      obtain ⟨sh, hsh, _⟩ := forall₂_mem_left h1 _ hx
      rw [e.2] at hsh; cases hsh
    · exact h2
  have only : ∀ kv ∈ l0 ++ hs.map (fun sh => (sh.name, sh)), ForKey (some id) kv.2 → kv.1 = x.label ∧
      ∃ t, BaseOf m rf kv.2.params t ∧ kv.2.params = x.1 ∧ x.2.1.sign (utf8 t) = .ok kv.2.signature := by
    intro kv hkv hfor
    have hfor := hfor id rfl
    rcases List.mem_append.1 hkv with hkv | hkv
    · exact absurd hfor (hold kv hkv)
    · obtain ⟨sh, hsh, rfl⟩ := List.mem_map.1 hkv
      obtain ⟨y, hy, hb⟩ := forall₂_mem_right h1 _ hsh
      simp only at hfor ⊢
      rw [hb.params] at hfor
      have := huniq y hy hfor
      subst this
      obtain ⟨t, t1, t2⟩ := hb.signature
      exact ⟨hb.name, t, by rw [hb.params]; exact t1, hb.params, t2⟩
  have acc : ∃ kv ∈ l0 ++ hs.map (fun sh => (sh.name, sh)), Accepts now m rf vk (some id) kv.2 := by
    obtain ⟨sh, hsh, hb⟩ := forall₂_mem_left h1 _ hx
    obtain ⟨t, t1, t2⟩ := hb.signature
    refine ⟨(sh.name, sh), List.mem_append_right _ (List.mem_map_of_mem (f := fun sh : SigHeaders => (sh.name, sh)) hsh), t, ?_, ?_, ?_, hk _ _ t2⟩
    · show BaseOf _ rf sh.params t
      rw [hb.params]; exact t1
    · intro i hi; injection hi with hi; subst hi
      show sh.params.keyid = _
      rw [hb.params]; exact hid
    · intro e he
      have he : sh.params.expires = some e := he
      rw [hb.params] at he; exact ht e he
  obtain ⟨n, hn⟩ := first_of_mem acc
  obtain ⟨sh, hm, t, a1, a2, a3, a4⟩ := firstWith_mem hn
  have hnx := (only (n, sh) hm a2).1
  simp only at hnx
  subst hnx
  refine (C10_ok_iff hw' hf _).2 ⟨_, h2', ?_, hn⟩
  rintro kv hkv ⟨t, c1, c2, c3, c4⟩
  obtain ⟨_, t', d1, d2, d3⟩ := only kv hkv c2
  have : t = t' := by
    obtain ⟨b, e1, e2⟩ := (buildBase_spec hw' hf t).2 c1
    obtain ⟨b', e1', e2'⟩ := (buildBase_spec hw' hf t').2 d1
    rw [e1] at e1'; injection e1' with e1'; subst e1'; rw [← e2, ← e2']
  subst this
  rw [hk _ _ d3] at c4; cases c4

/-- One more signer. -/
theorem signedNow_joins {m : Msg} {rf : Option Request} {l0 : List (Str × SigHeaders)} {l : List Signer} {x : Signer} (h : SignedNow m rf l0 l)
    (hw : WfHeaders m.headers) (hnd : (l0.map Prod.fst ++ l.map Signer.label).Nodup) (hj : Path.Joins l0 l x)
    {rf1 : Option Request} (hf1 : ∀ r, rf1 = some r → WfHeaders r.headers) (hb : ∀ m' t, BaseOf m' rf1 x.1 t → BaseOf m' rf x.1 t)
    {h' : Headers} (hs : setSignatures m [x] rf1 = (h', .ok ())) : SignedNow (m.withHeaders h') rf l0 (l ++ [x]) ∧ WfHeaders h' := by
  obtain ⟨hs0, g1, g2⟩ := h
  have hse : Ex.signEach m rf1 [x] = (h', .ok ()) := by
    have hs : setSignature m x.1 x.2.1 x.2.2 rf1 = (h', .ok ()) := hs
    simp only [Ex.signEach, hs]
    cases m <;> rfl
  have hsafe : ∀ y ∈ [x], SafeParams y.1 ∧ LegalKey y.label := by
    intro y hy
    rw [List.mem_singleton] at hy
    subst hy
    exact ⟨hj.params, hj.label⟩
  have hch : Chained [x] := ⟨fun i hi => hj.other x (by simp) i hi, trivial⟩
  have hnd' : ((l0 ++ hs0.map fun sh => (sh.name, sh)).map Prod.fst ++ [x].map Signer.label).Nodup := by
    have e : (l0 ++ hs0.map fun sh => (sh.name, sh)).map Prod.fst = l0.map Prod.fst ++ l.map Signer.label := by
      rw [List.map_append, List.map_map, ← signed_names g1]
      rfl
    rw [e, List.map_singleton]
    refine List.nodup_append.2 ⟨hnd, by simp, fun a ha b hb e => ?_⟩
    rw [List.mem_singleton] at hb
    subst hb
    exact hj.new (e ▸ ha)
  obtain ⟨hs1, e1, e2⟩ := chain_lines hw hf1 hsafe hch hse
  obtain ⟨hs2, c1, c2, c3⟩ := C79_chain hw hf1 g2 (by simp) hsafe hch hnd' hse
  refine ⟨⟨hs0 ++ hs2, ?_, ?_⟩, c3⟩
  · refine List.rel_append (signed_imp g1 (fun y hy t ht => ?_)) (signed_imp c1 (fun y hy t ht => ?_))
    · rw [e1]
      have hn1 : hs1.map SigHeaders.name = [x.label] := by rw [signed_names e2]; rfl
      exact (C79_base hs1 (signed_safe e2 hsafe) (by rw [hn1]; exact hj.other y (by simp [hy])) t).2 ht
    · rw [List.mem_singleton] at hy
      subst hy
      exact hb _ t ht
  · rw [headers_withHeaders]
    refine Or.inr ⟨by rw [List.map_append, ← List.append_assoc]; exact c2, ?_⟩
    cases c1
    simp

/-! ### Requests -/

theorem kept_base {ns : List Str} {r r' : Request} (h : Path.Passes ns r r') (hu : Path.Whole r.uri) (hm : r.method ≠ c! "CONNECT") {p : SigParams}
    (hc : ∀ c ∈ p.covered, Kept ns r r' c) (t : Str) : BaseOf (.req r) none p t ↔ BaseOf (.req r') none p t := by
  rw [← wireBaseOf_iff, ← wireBaseOf_iff]
  refine wireBase_congr (fun i hi v => ?_) t
  have := C133_value h hu hm (hc i hi).1 (hc i hi).2 v
  unfold Wire.HasValue
  simp [this]

theorem has_same_lines {h h' : Headers} {l : List (Str × SigHeaders)} (hh : HasSignatures h l) (hw : WfHeaders h) (hw' : WfHeaders h')
    (e1 : Wire.linesOf h' (c! "signature-input") = Wire.linesOf h (c! "signature-input")) (e2 : Wire.linesOf h' (c! "signature") = Wire.linesOf h (c! "signature")) :
    HasSignatures h' l := by
  rcases hh with ⟨a, b, c⟩ | ⟨a, b⟩
  · exact Or.inl ⟨e1.trans a, e2.trans b, c⟩
  · let m : Msg := .res ⟨200, h, .data []⟩
    let m' : Msg := .res ⟨200, h', .data []⟩
    have he := extract_of_lines (m := m) (m' := m') hw hw' e1.symm e2.symm
    exact Or.inr ⟨(extractSignatureHeaders_ok (m := m') hw' l).1 (he ▸ (extractSignatureHeaders_ok (m := m) hw l).2 a), b⟩

theorem nodup_joins {l0 : List (Str × SigHeaders)} {l : List Signer} {x : Signer} (hnd : (l0.map Prod.fst ++ l.map Signer.label).Nodup) (hj : Path.Joins l0 l x) :
    (l0.map Prod.fst ++ (l ++ [x]).map Signer.label).Nodup := by
  rw [List.map_append, ← List.append_assoc]
  refine List.nodup_append.2 ⟨hnd, by simp, fun a ha b hb e => ?_⟩
  simp only [List.map_cons, List.map_nil, List.mem_singleton] at hb
  subst hb
  exact hj.new (e ▸ ha)

/-- C134: at the end of the trip the request carries the old signatures and those of the signers in their order, and each of these is over the base of the request as
it is at the end. -/
theorem C134_trip {l0 : List (Str × SigHeaders)} {l : List Signer} {r r' : Request} (h : Path.Trip l0 l r r') (hu : Path.Whole r.uri) (hm : r.method ≠ c! "CONNECT")
    (hw : WfHeaders r.headers) (h0 : HasSignatures r.headers l0) (hnd : (l0.map Prod.fst).Nodup) :
    SignedNow (.req r') none l0 l ∧ WfHeaders r'.headers ∧ (l0.map Prod.fst ++ l.map Signer.label).Nodup ∧ r'.method = r.method ∧ Path.Whole r'.uri ∧
    r'.body = r.body := by
  induction h with
  | start => exact ⟨⟨[], .nil, by rw [List.map_nil, List.append_nil]; exact h0⟩, hw, by simpa using hnd, rfl, hu, rfl⟩
  | way _ hway ht hc ih =>
    obtain ⟨⟨hs, i1, i2⟩, i3, i4, i5, i6, i7⟩ := ih hu hm hw h0
    obtain ⟨hp, hb⟩ := C133_way hway i6 i3
    refine ⟨⟨hs, signed_imp i1 (fun x hx t hx' => (kept_base hp i6 (i5 ▸ hm) (hc x hx) t).1 hx'), ?_⟩, hp.wf, i4, hp.method.trans i5, hp.whole, hb.trans i7⟩
    exact has_same_lines i2 i3 hp.wf (hp.fields (c! "signature-input") ht.1) (hp.fields (c! "signature") ht.2)
  | @sign l x r r1 r2 _ hj hs ih =>
    obtain ⟨i1, i3, i4, i5, i6, i7⟩ := ih hu hm hw h0
    injection hs with e1 e2
    subst e1
    have hset : setSignatures (.req r1) [x] none = ((setSignatures (.req r1) [x] none).1, .ok ()) := Prod.ext rfl e2
    obtain ⟨j1, j2⟩ := signedNow_joins i1 i3 i4 hj (rf1 := none) (by simp) (fun _ _ h => h) hset
    exact ⟨j1, j2, nodup_joins i4 hj, i5, i6, i7⟩

/-- C134: at the end of the trip the signature of every signer is found valid. -/
theorem C134_valid {l0 : List (Str × SigHeaders)} {l : List Signer} {r r' : Request} (h : Path.Trip l0 l r r') (hu : Path.Whole r.uri) (hm : r.method ≠ c! "CONNECT")
    (hw : WfHeaders r.headers) (h0 : HasSignatures r.headers l0) (hnd : (l0.map Prod.fst).Nodup) {x : Signer} (hx : x ∈ l) {vk : VerifyingKey}
    (hk : KeyPair x.2.1 vk) {now : UInt64} (ht : ∀ e, x.1.expires = some e → now ≤ e) {id : Str} (hid : x.1.keyid = some id)
    (hold : ∀ kv ∈ l0, kv.2.params.keyid ≠ some id) (huniq : ∀ y ∈ l, y.1.keyid = some id → y = x) : r'.verifySignature now vk (some id) = .ok x.label := by
  obtain ⟨h1, h2, _⟩ := C134_trip h hu hm hw h0 hnd
  exact signedNow_verify (m := .req r') h1 h2 (by simp) hx hk ht hid hold huniq

/-! ### Answers -/

theorem kept_base_res {r q : Request} {there : List Str} {s : Msg} (h : Path.Passes there r q) (hu : Path.Whole r.uri) (hm : r.method ≠ c! "CONNECT") {p : SigParams}
    (hc : ∀ c ∈ p.covered, CParam.req ∈ c.params → Kept there r q c) (t : Str) : BaseOf s (some q) p t ↔ BaseOf s (some r) p t := by
  rw [← wireBaseOf_iff, ← wireBaseOf_iff]
  refine wireBase_congr (fun i hi v => ?_) t
  unfold Wire.HasValue
  by_cases hq : CParam.req ∈ i.params
  · have := C133_value h hu hm (hc i hi hq).1 (hc i hi hq).2 v
    simp [hq, this]
  · simp [hq]

theorem clear_base_res {rf : Option Request} {s s' : Response} {ns : List Str} (h1 : s'.status = s.status)
    (h2 : ∀ f : Str, f.map Char.toLower ∉ ns → Wire.linesOf s'.headers f = Wire.linesOf s.headers f) {p : SigParams}
    (hc : ∀ c ∈ p.covered, CParam.req ∉ c.params → Clear ns c) (t : Str) : BaseOf (.res s) rf p t ↔ BaseOf (.res s') rf p t := by
  rw [← wireBaseOf_iff, ← wireBaseOf_iff]
  refine wireBase_congr (fun i hi v => ?_) t
  unfold Wire.HasValue
  by_cases hq : CParam.req ∈ i.params
  · simp [hq]
  · have := response_value (s := s) (s' := s') h1 h2 (hc i hi hq) v
    simp [hq, this]

/-- C134: at the end of the trip back the answer carries the old signatures and those of the signers in their order, and each of these is over the base of the answer
as it is at the end, for the request as the client sent it. -/
theorem C134_trip_back {r : Request} {l0 : List (Str × SigHeaders)} {l : List Signer} {s s' : Response} (h : Path.TripBack r l0 l s s') (hu : Path.Whole r.uri)
    (hm : r.method ≠ c! "CONNECT") (hwr : WfHeaders r.headers) (hw : WfHeaders s.headers) (h0 : HasSignatures s.headers l0) (hnd : (l0.map Prod.fst).Nodup) :
    SignedNow (.res s') (some r) l0 l ∧ WfHeaders s'.headers ∧ (l0.map Prod.fst ++ l.map Signer.label).Nodup ∧ s'.status = s.status ∧ s'.body = s.body := by
  have hf : ∀ q, some r = some q → WfHeaders q.headers := by intro q e; injection e with e; exact e ▸ hwr
  induction h with
  | start => exact ⟨⟨[], .nil, by rw [List.map_nil, List.append_nil]; exact h0⟩, hw, by simpa using hnd, rfl, rfl⟩
  | way _ hway ht hc ih =>
    obtain ⟨⟨hs, i1, i2⟩, i3, i4, i5, i6⟩ := ih hw h0
    obtain ⟨b1, b2, b3, b4⟩ := C133_back hway i3
    refine ⟨⟨hs, signed_imp i1 (fun x hx t hx' => (clear_base_res b1 b2 (hc x hx) t).1 hx'), ?_⟩, b3, i4, b1.trans i5, b4.trans i6⟩
    exact has_same_lines i2 i3 b3 (b2 (c! "signature-input") ht.1) (b2 (c! "signature") ht.2)
  | @sign l x there q s s1 s2 _ hj hway hc hs ih =>
    obtain ⟨i1, i3, i4, i5, i6⟩ := ih hw h0
    obtain ⟨hp, _⟩ := C133_way hway hu hwr
    injection hs with e1 e2
    subst e1
    have hset : setSignatures (.res s1) [x] (some q) = ((setSignatures (.res s1) [x] (some q)).1, .ok ()) := Prod.ext rfl e2
    obtain ⟨j1, j2⟩ := signedNow_joins i1 i3 i4 hj (rf1 := some q) (by intro q' e; injection e with e; exact e ▸ hp.wf)
      (fun _ t h => (kept_base_res hp hu hm hc t).1 h) hset
    exact ⟨j1, j2, nodup_joins i4 hj, i5, i6⟩

/-- C134: the client finds the signature of every station on the answer valid for the request that it sent. -/
theorem C134_valid_back {r : Request} {l0 : List (Str × SigHeaders)} {l : List Signer} {s s' : Response} (h : Path.TripBack r l0 l s s') (hu : Path.Whole r.uri)
    (hm : r.method ≠ c! "CONNECT") (hwr : WfHeaders r.headers) (hw : WfHeaders s.headers) (h0 : HasSignatures s.headers l0) (hnd : (l0.map Prod.fst).Nodup)
    {x : Signer} (hx : x ∈ l) {vk : VerifyingKey} (hk : KeyPair x.2.1 vk) {now : UInt64} (ht : ∀ e, x.1.expires = some e → now ≤ e) {id : Str}
    (hid : x.1.keyid = some id) (hold : ∀ kv ∈ l0, kv.2.params.keyid ≠ some id) (huniq : ∀ y ∈ l, y.1.keyid = some id → y = x) :
    s'.verifySignature now vk (some id) (some r) = .ok x.label := by
  obtain ⟨h1, h2, _⟩ := C134_trip_back h hu hm hwr hw h0 hnd
  exact signedNow_verify (m := .res s') h1 h2 (by intro q e; injection e with e; exact e ▸ hwr) hx hk ht hid hold huniq

/-! ### An example: a client signs, a proxy changes the request and signs the client's signature, and a server gets it -/

namespace Ex134
open Ex124 Ex126 Ex129 Ex133

def clientSigner : Signer := (c79First, toySign 7, some (c! "a"))
def proxySigner : Signer := (c79Second, toySign 9, some (c! "b"))
def one : Request := (sent.setSignature c79First (toySign 7) (some (c! "a"))).1
def changedOne : Request := { one with uri := { sent.uri with authority := some (c! "inner.test") }, headers := via ++ one.headers }
def two : Request := (changedOne.setSignature c79Second (toySign 9) (some (c! "b"))).1
def atEnd : Request := ⟨c! "GET", originForm sent.uri, innerHost ++ two.headers, .data []⟩

theorem first_other {n : Str} : ∀ c ∈ c79First.covered, OtherLabel [n] c := by
  intro i hi
  simp only [c79First, wParams, List.mem_cons, List.not_mem_nil, or_false] at hi
  rcases hi with rfl | rfl
  · right; exact ⟨by simp, by intro f h; injection h with h; subst h; intro h; exact absurd h (by decide)⟩
  · right; exact ⟨by simp, by intro f h; cases h⟩

theorem second_other : ∀ c ∈ c79Second.covered, OtherLabel [c! "b"] c := c79_chained.2.1

theorem firstJoins : Path.Joins [] [] clientSigner where
  params := (c79_safe _ (by simp [c79Signers, clientSigner])).1
  label := by decide
  new := by simp
  other := by
    intro y hy
    simp only [List.nil_append, List.mem_singleton] at hy
    subst hy
    exact first_other

theorem secondJoins : Path.Joins [] [clientSigner] proxySigner where
  params := (c79_safe _ (by simp [c79Signers, proxySigner])).1
  label := by decide
  new := by decide
  other := by
    intro y hy
    simp only [List.cons_append, List.nil_append, List.mem_cons, List.not_mem_nil, or_false] at hy
    rcases hy with rfl | rfl
    · exact first_other
    · exact second_other

theorem first_kept {ns : List Str} {r r' : Request} (hn : c! "date" ∉ ns) : ∀ c ∈ c79First.covered, Kept ns r r' c := by
  intro i hi
  simp only [c79First, wParams, List.mem_cons, List.not_mem_nil, or_false] at hi
  rcases hi with rfl | rfl
  · exact ⟨⟨(by intro f h; injection h with h; subst h; exact hn), by intro h; cases h⟩, Or.inl (by simp [Lost])⟩
  · exact ⟨⟨(by intro f h; cases h), by intro h; cases h⟩, Or.inl (by simp [Lost])⟩

theorem second_kept {ns : List Str} {r r' : Request} (hn : c! "date" ∉ ns) (ht : Untouched ns) : ∀ c ∈ c79Second.covered, Kept ns r r' c := by
  intro i hi
  simp only [c79Second, signatureOf, inputOf, wParams, List.mem_cons, List.not_mem_nil, or_false] at hi
  rcases hi with rfl | rfl | rfl
  · exact ⟨⟨(by intro f h; injection h with h; subst h; exact ht.2), by intro h; cases h⟩, Or.inl (by simp [Lost])⟩
  · exact ⟨⟨(by intro f h; injection h with h; subst h; exact ht.1), by intro h; cases h⟩, Or.inl (by simp [Lost])⟩
  · exact ⟨⟨(by intro f h; injection h with h; subst h; exact hn), by intro h; cases h⟩, Or.inl (by simp [Lost])⟩

theorem twoSendable : Sendable two where
  method := (sendable []).method
  path := Or.inr rfl
  mark := show '?' ∉ sent.uri.pathData by decide
  pathChars := show ∀ c ∈ sent.uri.pathData, Visible c by decide
  queryChars q hq := by cases hq; decide

set_option maxRecDepth 20000 in
theorem theTrip : Path.Trip [] [clientSigner, proxySigner] sent atEnd := by
  have h1 : sent.setSignature c79First (toySign 7) (some (c! "a")) = (one, .ok ()) := Prod.ext rfl (by decide +kernel)
  have h2 : changedOne.setSignature c79Second (toySign 9) (some (c! "b")) = (two, .ok ()) := Prod.ext rfl (by decide +kernel)
  have t1 : Path.Trip [] [clientSigner] sent one := .sign .start firstJoins h1
  have w1 : Path.Way ([c! "via"] ++ []) one changedOne :=
    .step (r1 := changedOne) (.proxy ⟨rfl, rfl, (by intro e; cases e), via_lines _, names3 (by decide +kernel)⟩ rfl) .here
  have t2 : Path.Trip [] [clientSigner] sent changedOne := .way t1 w1 ⟨by decide, by decide⟩ (by
    intro x hx
    rw [List.mem_singleton] at hx
    subst hx
    exact first_kept (by decide))
  have t3 : Path.Trip [] [clientSigner, proxySigner] sent two := .sign t2 secondJoins h2
  have hr := reads_written twoSendable (extra := innerHost) (names3 (by decide +kernel)) (lines_ok (by decide +kernel)) [] (.data [])
  have e : (innerHost ++ two.headers).map (fun kv => (kv.1, stripOws kv.2)) = atEnd.headers := by decide +kernel
  rw [e] at hr
  have w2 : Path.Way (changed innerHost two.headers ++ []) two atEnd :=
    .step (r1 := atEnd) (.http1 (wire := []) twoSendable (names3 (by decide +kernel)) (lines_ok (by decide +kernel)) hr rfl) .here
  have hu : Untouched (changed innerHost two.headers ++ []) := ⟨by decide +kernel, by decide +kernel⟩
  refine .way t3 w2 hu ?_
  intro x hx
  simp only [List.mem_cons, List.not_mem_nil, or_false] at hx
  rcases hx with rfl | rfl
  · exact first_kept (by decide +kernel)
  · exact second_kept (by decide +kernel) hu

/-- The hypotheses of the theorems: at the server the signature of the client and that of the proxy are valid. -/
example : atEnd.verifySignature 100 (toyVerify 7) (some (c! "k1")) = .ok (c! "a") ∧ atEnd.verifySignature 100 (toyVerify 9) (some (c! "k2")) = .ok (c! "b") := by
  have hu : Path.Whole sent.uri := by intro e; cases e
  have h0 : HasSignatures sent.headers [] := Or.inl ⟨by decide +kernel, by decide +kernel, rfl⟩
  have hw : WfHeaders sent.headers := wfNames (by decide +kernel)
  refine ⟨C134_valid (x := clientSigner) theTrip hu (by decide) hw h0 (by simp) (by simp) (toy_pair 7) (by intro e h; injection h with h; subst h; decide) rfl (by simp) ?_,
    C134_valid (x := proxySigner) theTrip hu (by decide) hw h0 (by simp) (by simp) (toy_pair 9) (by intro e h; injection h with h; subst h; decide) rfl (by simp) ?_⟩
  · intro y hy hk
    simp only [List.mem_cons, List.not_mem_nil, or_false] at hy
    rcases hy with rfl | rfl
    · rfl
    · exact absurd hk (by decide)
  · intro y hy hk
    simp only [List.mem_cons, List.not_mem_nil, or_false] at hy
    rcases hy with rfl | rfl
    · exact absurd hk (by decide)
    · rfl

/-! An answer: the server signs with the request that came to it, the proxy adds a line and signs too; the client verifies with the request that it sent. -/

def serverIds : List CId := [⟨.derived .status, []⟩, ⟨.derived .method, [.req]⟩]
def serverSigner : Signer := (wParams (c! "k3") serverIds, toySign 5, some (c! "s"))
def proxyBack : Signer := (wParams (c! "k4") [⟨.derived .status, []⟩], toySign 6, some (c! "t"))
def res1 : Response := (exRes.setSignature serverSigner.1 (toySign 5) (some (c! "s")) (some atEnd)).1
def res2 : Response := { res1 with headers := via ++ res1.headers }
def res3 : Response := (res2.setSignature proxyBack.1 (toySign 6) (some (c! "t")) (some changedOne)).1

theorem status_safe {k : Str} (hk : SafeParams (wParams k [⟨.field (c! "date"), []⟩, ⟨.derived .method, []⟩])) {ids : List CId}
    (hi : ids = serverIds ∨ ids = [⟨.derived .status, []⟩]) : SafeParams (wParams k ids) where
  created := hk.created
  expires := hk.expires
  nonce := hk.nonce
  alg := hk.alg
  keyid := hk.keyid
  tag := hk.tag
  ids := by
    intro i h
    have : i = ⟨.derived .status, []⟩ ∨ i = ⟨.derived .method, [.req]⟩ := by
      rcases hi with rfl | rfl <;> simp only [wParams, serverIds, List.mem_cons, List.not_mem_nil, or_false] at h
      · exact h
      · exact Or.inl h
    rcases this with rfl | rfl
    · exact ⟨⟨by simp, by simp, by simp, by intro f h; cases h⟩, (by intro f h; cases h), by simp, by simp⟩
    · exact ⟨⟨by simp, by simp, by simp, by intro f h; cases h⟩, (by intro f h; cases h), by simp, by simp⟩
  distinct := by rcases hi with rfl | rfl <;> simp [wParams, serverIds, SameId]

theorem server_other {n : Str} : ∀ c ∈ serverIds, OtherLabel [n] c := by
  intro i hi
  simp only [serverIds, List.mem_cons, List.not_mem_nil, or_false] at hi
  rcases hi with rfl | rfl
  · right; exact ⟨by simp, by intro f h; cases h⟩
  · left; simp

theorem serverJoins : Path.Joins [] [] serverSigner where
  params := status_safe (wParams_safe (by decide)) (Or.inl rfl)
  label := by decide
  new := by simp
  other := by
    intro y hy
    simp only [List.nil_append, List.mem_singleton] at hy
    subst hy
    exact server_other

theorem backJoins : Path.Joins [] [serverSigner] proxyBack where
  params := status_safe (wParams_safe (by decide)) (Or.inr rfl)
  label := by decide
  new := by decide
  other := by
    intro y hy
    simp only [List.cons_append, List.nil_append, List.mem_cons, List.not_mem_nil, or_false] at hy
    rcases hy with rfl | rfl
    · exact server_other
    · intro i hi
      simp only [proxyBack, wParams, List.mem_cons, List.not_mem_nil, or_false] at hi
      subst hi
      right; exact ⟨by simp, by intro f h; cases h⟩

/-- The way of the request, seen from outside: the proxy added signature lines. -/
theorem wayThere : Path.Way ([c! "via"] ++ ([c! "signature", c! "signature-input"] ++ (changed innerHost two.headers ++ []))) one atEnd := by
  have e2 : two.headers = changedOne.headers ++ two.headers.drop 4 := by decide +kernel
  have hn : ∀ kv ∈ two.headers.drop 4, kv.1 ∈ [c! "signature", c! "signature-input"] := by decide +kernel
  have hr := reads_written twoSendable (extra := innerHost) (names3 (by decide +kernel)) (lines_ok (by decide +kernel)) [] (.data [])
  have e : (innerHost ++ two.headers).map (fun kv => (kv.1, stripOws kv.2)) = atEnd.headers := by decide +kernel
  rw [e] at hr
  refine .step (r1 := changedOne) (.proxy ⟨rfl, rfl, (by intro e; cases e), via_lines _, names3 (by decide +kernel)⟩ rfl) (.step (r1 := two)
    (.proxy ⟨rfl, rfl, (by intro e; cases e), ?_, names3 (by decide +kernel)⟩ rfl)
    (.step (r1 := atEnd) (.http1 (wire := []) twoSendable (names3 (by decide +kernel)) (lines_ok (by decide +kernel)) hr rfl) .here))
  intro f hf
  rw [e2, linesOf_append]
  have : Wire.linesOf (two.headers.drop 4) f = [] := by
    unfold Wire.linesOf
    rw [List.filter_eq_nil_iff.2, List.map_nil]
    intro kv hkv h
    simp only [decide_eq_true_eq] at h
    have := hn kv hkv
    simp only [List.mem_cons, List.not_mem_nil, or_false] at this
    rcases this with e | e <;> rw [e] at h <;> exact hf (by rw [← h]; decide)
  rw [this, List.append_nil]

theorem method_kept {ns : List Str} {r q : Request} : ∀ c ∈ serverIds, CParam.req ∈ c.params → Kept ns r q c := by
  intro i hi hq
  simp only [serverIds, List.mem_cons, List.not_mem_nil, or_false] at hi
  rcases hi with rfl | rfl
  · simp at hq
  · exact ⟨⟨(by intro f h; cases h), by intro h; cases h⟩, Or.inl (by simp [Lost])⟩

theorem theTripBack : Path.TripBack one [] [serverSigner, proxyBack] exRes res3 := by
  have h1 : exRes.setSignature serverSigner.1 (toySign 5) (some (c! "s")) (some atEnd) = (res1, .ok ()) := Prod.ext rfl (by decide +kernel)
  have h2 : res2.setSignature proxyBack.1 (toySign 6) (some (c! "t")) (some changedOne) = (res3, .ok ()) := Prod.ext rfl (by decide +kernel)
  have t1 : Path.TripBack one [] [serverSigner] exRes res1 := .sign .start serverJoins wayThere method_kept h1
  have w1 : Path.WayBack ([c! "via"] ++ []) res1 res2 := .step (s1 := res2) (.proxy rfl (via_lines _) (names3 (by decide +kernel)) rfl) .here
  have w2 : Path.Way ([c! "via"] ++ []) one changedOne :=
    .step (r1 := changedOne) (.proxy ⟨rfl, rfl, (by intro e; cases e), via_lines _, names3 (by decide +kernel)⟩ rfl) .here
  have t2 : Path.TripBack one [] [serverSigner] exRes res2 := .way t1 w1 ⟨by decide, by decide⟩ (by
    intro x hx c hc hq
    rw [List.mem_singleton] at hx
    subst hx
    simp only [serverSigner, wParams, serverIds, List.mem_cons, List.not_mem_nil, or_false] at hc
    rcases hc with rfl | rfl
    · exact ⟨(by intro f h; cases h), by intro h; cases h⟩
    · simp at hq)
  refine .sign t2 backJoins w2 (by
    intro c hc hq
    simp only [proxyBack, wParams, List.mem_cons, List.not_mem_nil, or_false] at hc
    subst hc
    simp at hq) h2

/-- At the client both signatures are valid for the request that it sent. -/
example : res3.verifySignature 100 (toyVerify 5) (some (c! "k3")) (some one) = .ok (c! "s") ∧
    res3.verifySignature 100 (toyVerify 6) (some (c! "k4")) (some one) = .ok (c! "t") := by
  have hu : Path.Whole one.uri := by intro e; cases e
  have h0 : HasSignatures exRes.headers [] := Or.inl ⟨by decide +kernel, by decide +kernel, rfl⟩
  have hw : WfHeaders exRes.headers := wfNames (by decide +kernel)
  have hwr : WfHeaders one.headers := names3 (by decide +kernel)
  refine ⟨C134_valid_back (x := serverSigner) theTripBack hu (by decide) hwr hw h0 (by simp) (by simp) (toy_pair 5) (by intro e h; injection h with h; subst h; decide) rfl
      (by simp) ?_,
    C134_valid_back (x := proxyBack) theTripBack hu (by decide) hwr hw h0 (by simp) (by simp) (toy_pair 6) (by intro e h; injection h with h; subst h; decide) rfl
      (by simp) ?_⟩
  · intro y hy hk
    simp only [List.mem_cons, List.not_mem_nil, or_false] at hy
    rcases hy with rfl | rfl
    · rfl
    · exact absurd hk (by decide)
  · intro y hy hk
    simp only [List.mem_cons, List.not_mem_nil, or_false] at hy
    rcases hy with rfl | rfl
    · exact absurd hk (by decide)
    · rfl

/-- Client and proxy both use the label that is taken if none is given. -/
def plain1 : Request := (sent.setSignature c79First (toySign 7) none).1
def plain2 : Request := (plain1.setSignature (wParams (c! "k2") [⟨.field (c! "date"), []⟩]) (toySign 9) none).1

end Ex134

set_option maxRecDepth 20000 in
open Ex124 Ex134 in
/-- C134: without new labels it is not so. If the client and the proxy both leave the label to the library, the signature of the proxy takes the place of that of the
client. -/
theorem C134_same_label : plain1.verifySignature 100 (toyVerify 7) (some (c! "k1")) = .ok (c! "sig") ∧
    plain2.verifySignature 100 (toyVerify 9) (some (c! "k2")) = .ok (c! "sig") ∧
    plain2.verifySignature 100 (toyVerify 7) (some (c! "k1")) = .err .noSignatureHeaders := by
  exact ⟨by decide +kernel, by decide +kernel, by decide +kernel⟩

end Verif
