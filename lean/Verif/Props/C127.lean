import Verif.Spec.Http1Stream
import Verif.Props.C126
/-!
C127: signed requests with bodies, one after the other on a connection.
-/
namespace Verif
open Sfv Spec Arrival Http1

/-! ### Streams are unambiguous -/

theorem head_nonempty {b : Bytes} {m : Str} {u : Uri} {h : Headers} (hb : Head b m u h) : b ≠ [] := by
  obtain ⟨t, ls, rfl, _⟩ := hb
  simp [headBytes]

/-- C127: the line that clients write, the length in decimal, gives the length of the body; other numbers do not. -/
theorem C127_length {h : Headers} (ht : Wire.linesOf h (c! "transfer-encoding") = []) {n : Nat} (hl : Wire.linesOf h (c! "content-length") = [utf8 (decimal n)])
    (k : Nat) : BodyLength h k ↔ k = n := by
  have hd : ∀ c ∈ decimal n, Digit c := by
    intro c hc
    have h2 : c.isDigit = true := Nat.isDigit_of_mem_toDigits (by decide) (by decide) hc
    rw [Char.isDigit_iff_toNat] at h2
    exact h2
  have hv : n = (decimal n).foldl (fun a c => 10 * a + (c.toNat - 48)) 0 := (Nat.ofDigitChars_ten_toDigits (n := n)).symm
  constructor
  · rintro ⟨_, ⟨e, _⟩ | ⟨t, e, _, _, rfl⟩⟩
    · rw [hl] at e; cases e
    · rw [hl] at e
      simp only [List.cons.injEq, and_true] at e
      rw [← utf8_inj e]; exact hv.symm
  · rintro rfl
    exact ⟨ht, Or.inr ⟨decimal k, hl, by unfold decimal; exact Nat.toDigits_ne_nil, hd, hv⟩⟩

theorem bodyLength_unique {h : Headers} {n n' : Nat} (hn : BodyLength h n) (hn' : BodyLength h n') : n = n' := by
  rcases hn.2 with ⟨e, rfl⟩ | ⟨t, e, _, _, rfl⟩ <;> rcases hn'.2 with ⟨e', rfl⟩ | ⟨t', e', _, _, rfl⟩
  · rfl
  · rw [e] at e'; cases e'
  · rw [e] at e'; cases e'
  · rw [e] at e'
    simp only [List.cons.injEq, and_true] at e'
    rw [utf8_inj e']

/-- C127: all readers of a connection see the same requests with the same bodies. -/
theorem C127_unique {b : Bytes} {l l' : List Request} (h : Requests b l) (h' : Requests b l') : l = l' := by
  induction h generalizing l' with
  | nil =>
    generalize hb : ([] : Bytes) = b at h'
    cases h' with
    | nil => rfl
    | cons h1 => exact absurd (List.append_eq_nil_iff.1 hb.symm).1 (head_nonempty h1)
  | @cons c rest body r l h1 h2 h3 _ ih =>
    generalize hb : c ++ (body ++ rest) = b at h'
    cases h' with
    | nil => exact absurd (List.append_eq_nil_iff.1 hb).1 (head_nonempty h1)
    | @cons c' rest' body' r' l' h1' h2' h3' h4' =>
      obtain ⟨e1, e2, e3, _, e5⟩ := C126_unique h1 h1' hb
      have hl : body.length = body'.length := bodyLength_unique h3 (e3 ▸ h3')
      obtain ⟨e6, e7⟩ := List.append_inj e5 hl
      subst e6 e7
      have er : r = r' := by
        cases r; cases r'
        simp only at e1 e2 e3 h2 h2'
        rw [e1, e2, e3, h2, h2']
      rw [er, ih h4']

/-! ### What is sent is read -/

/-- A request whose head can be signed and sent. -/
structure Http1.Outgoing.Fit (s : Outgoing) : Prop where
  sendable : Sendable s.before
  wf : WfHeaders (s.extra ++ s.before.headers)
  ok : SendableLines (s.extra ++ s.before.headers)
  signs : setSignatures (.req s.before) s.signers none = (s.lines, .ok ())
  labels : ∀ x ∈ s.signers, LabelStart x

/-- What can be signed and sent. -/
structure Http1.Outgoing.Good (s : Outgoing) : Prop extends s.Fit where
  length : BodyLength (s.extra ++ s.before.headers) s.body.length

theorem added_names {m : Msg} {rf : Option Request} {l : List Signer} {ls : List Headers} (h : List.Forall₂ (Wire.Added m rf) l ls) :
    ∀ kv ∈ ls.flatten, kv.1 = c! "signature-input" ∨ kv.1 = c! "signature" := by
  induction h with
  | nil => intro kv hkv; cases hkv
  | cons h1 _ ih =>
    intro kv hkv
    rw [List.flatten_cons] at hkv
    rcases List.mem_append.1 hkv with hk | hk
    · obtain ⟨_, _, _, _, _, _, _, rfl⟩ := h1
      simp only [List.mem_cons, List.not_mem_nil, or_false] at hk
      rcases hk with rfl | rfl
      · exact Or.inl rfl
      · exact Or.inr rfl
    · exact ih kv hk

theorem linesOf_append (a b : Headers) (f : Str) : Wire.linesOf (a ++ b) f = Wire.linesOf a f ++ Wire.linesOf b f := by
  simp [Wire.linesOf]

theorem digits_outer {t : Str} (h : ∀ c ∈ t, Digit c) : NoOuter (utf8 t) := by
  have key : ∀ b ∈ utf8 t, ¬ Ows b := by
    intro b hb ho
    have bd : ∀ c ∈ t, 48 ≤ c.toNat ∧ c.toNat ≤ 57 := fun c hc => (h c hc)
    obtain ⟨c, hc, e⟩ := utf8_mem (fun c hc => by have := bd c hc; omega) hb
    have := bd c hc
    rcases ho with rfl | rfl
    · have : (32 : UInt8).toNat = 32 := rfl
      omega
    · have : (9 : UInt8).toNat = 9 := rfl
      omega
  exact ⟨fun b hb => key b (List.mem_of_head? hb), fun b hb => key b (List.mem_of_getLast? hb)⟩

theorem mem_linesOf {h : Headers} {f : Str} {kv : Str × Bytes} (hk : kv ∈ h) (e : kv.1.map Char.toLower = f.map Char.toLower) : kv.2 ∈ Wire.linesOf h f := by
  unfold Wire.linesOf
  exact List.mem_map_of_mem (List.mem_filter.2 ⟨hk, by simpa using e⟩)

/-- Lines that are on the way keep the length of the body. -/
theorem bodyLength_way {h h' : Headers} (hh : List.Forall₂ LineOnWay h h') {n : Nat} (hn : BodyLength h n) : BodyLength h' n := by
  obtain ⟨h1, h2⟩ := hn
  have e1 : Wire.linesOf h' (c! "transfer-encoding") = [] := by
    rw [onWay_lines hh, h1]
    intro kv hkv e
    have := mem_linesOf hkv e
    rw [h1] at this; cases this
  refine ⟨e1, ?_⟩
  have e2 : Wire.linesOf h' (c! "content-length") = Wire.linesOf h (c! "content-length") := by
    refine onWay_lines hh ?_
    intro kv hkv e
    have hm := mem_linesOf hkv e
    rcases h2 with ⟨e0, _⟩ | ⟨t, e0, ht⟩
    · rw [e0] at hm; cases hm
    · rw [e0, List.mem_singleton] at hm
      rw [hm]
      exact digits_outer ht.2.1
  rwa [e2]

/-- The lines of the signers are no lines about the body. -/
theorem bodyLength_signed {h sigs : Headers} (hs : ∀ kv ∈ sigs, kv.1 = c! "signature-input" ∨ kv.1 = c! "signature") {n : Nat} (hn : BodyLength h n) :
    BodyLength (h ++ sigs) n := by
  have key : ∀ f : Str, (c! "signature-input").map Char.toLower ≠ f.map Char.toLower → (c! "signature").map Char.toLower ≠ f.map Char.toLower →
      Wire.linesOf (h ++ sigs) f = Wire.linesOf h f := by
    intro f h1 h2
    have : Wire.linesOf sigs f = [] := by
      unfold Wire.linesOf
      rw [List.filter_eq_nil_iff.2, List.map_nil]
      intro kv hkv
      rcases hs kv hkv with e | e <;> rw [e] <;> simpa using by assumption
    rw [linesOf_append, this, List.append_nil]
  unfold BodyLength
  rw [key _ (by decide) (by decide), key _ (by decide) (by decide)]
  exact hn

/-- What any reader has of a request that was signed and sent. -/
def ReadAs (s : Outgoing) (r' : Request) : Prop :=
  r'.method = s.before.method ∧ r'.uri = originForm s.before.uri ∧ r'.body = .data s.body ∧
  ∃ front sigs, s.lines = s.before.headers ++ sigs ∧ r'.headers = front ++ sigs ∧ sigs.length = 2 * s.signers.length ∧
    List.Forall₂ LineOnWay (s.extra ++ s.before.headers) front

theorem good_parts {s : Outgoing} (h : s.Fit) : ∃ sigs, s.lines = s.before.headers ++ sigs ∧ sigs.length = 2 * s.signers.length ∧ WfHeaders sigs ∧ SendableLines sigs ∧
    (∀ kv ∈ sigs, NoOuter kv.2) ∧ ∀ kv ∈ sigs, kv.1 = c! "signature-input" ∨ kv.1 = c! "signature" := by
  have hwr : WfHeaders s.before.headers := fun kv hkv => h.wf kv (by simp [hkv])
  obtain ⟨ls, h1, e⟩ := (C65_sign (m := .req s.before) hwr (by simp) s.signers s.lines).1 h.signs
  obtain ⟨c1, c2, c3, c4⟩ := all_added h1 h.labels
  exact ⟨ls.flatten, e, c1, c2, c3, c4, added_names h1⟩

theorem fit_signed {s : Outgoing} (h : s.Fit) : Sendable s.signed ∧ WfHeaders (s.extra ++ s.signed.headers) ∧ SendableLines (s.extra ++ s.signed.headers) := by
  obtain ⟨sigs, e, _, c2, c3, _, _⟩ := good_parts h
  have e' : s.extra ++ s.signed.headers = (s.extra ++ s.before.headers) ++ sigs := by
    show s.extra ++ s.lines = _
    rw [e, List.append_assoc]
  rw [e']
  exact ⟨⟨h.sendable.method, h.sendable.path, h.sendable.mark, h.sendable.pathChars, h.sendable.queryChars⟩, wf_append h.wf c2, lines_append h.ok c3⟩

theorem good_signed {s : Outgoing} (h : s.Good) : Sendable s.signed ∧ WfHeaders (s.extra ++ s.signed.headers) ∧ SendableLines (s.extra ++ s.signed.headers) ∧
    BodyLength (s.extra ++ s.signed.headers) s.body.length := by
  obtain ⟨g1, g2, g3⟩ := fit_signed h.toFit
  obtain ⟨sigs, e, _, _, _, _, c5⟩ := good_parts h.toFit
  have e' : s.extra ++ s.signed.headers = (s.extra ++ s.before.headers) ++ sigs := by
    show s.extra ++ s.lines = _
    rw [e, List.append_assoc]
  exact ⟨g1, g2, g3, e' ▸ bodyLength_signed c5 h.length⟩

/-- What is read of the lines. -/
theorem fit_read {s : Outgoing} (h : s.Fit) {h' : Headers} (w1 : List.Forall₂ LineOnWay (s.extra ++ s.signed.headers) h') {r' : Request} (e1 : r'.method = s.before.method)
    (e2 : r'.uri = originForm s.before.uri) (e3 : r'.headers = h') (e4 : r'.body = .data s.body) : ReadAs s r' := by
  obtain ⟨sigs, p1, p2, _, _, p5, _⟩ := good_parts h
  have e' : s.extra ++ s.signed.headers = (s.extra ++ s.before.headers) ++ sigs := by
    show s.extra ++ s.lines = _
    rw [p1, List.append_assoc]
  rw [e'] at w1
  obtain ⟨front, sigs', q1, q2, q3⟩ := forall₂_parts w1
  rw [onWay_same q3 p5] at q1
  exact ⟨e1, e2, e4, front, sigs, p1, by rw [e3, q1], p2, q2⟩

/-- One request of a stream, read. -/
theorem read_one {s : Outgoing} (h : s.Good) {c rest body rest' : Bytes} {r' : Request} (h1 : Head c r'.method r'.uri r'.headers) (h2 : r'.body = .data body)
    (h3 : BodyLength r'.headers body.length) (e : c ++ (body ++ rest) = s.octets ++ rest') : ReadAs s r' ∧ rest = rest' := by
  obtain ⟨g1, g2, g3, g4⟩ := good_signed h
  obtain ⟨h', w1, w2⟩ := C126_head g1 g2 g3
  rw [Outgoing.octets, List.append_assoc] at e
  obtain ⟨e1, e2, e3, _, e5⟩ := C126_unique h1 w2 e
  have hl : body.length = s.body.length := bodyLength_unique (e3 ▸ h3) (bodyLength_way w1 g4)
  obtain ⟨e6, e7⟩ := List.append_inj e5 hl
  exact ⟨fit_read h.toFit w1 e1 e2 e3 (by rw [h2, e6]), e7⟩

/-- C127: signing keeps the borders between requests. Whatever the signers add, every reader of the connection sees as many requests as were sent, each with its own
body and its own lines, and after these the lines of its signers. -/
theorem C127_stream {l : List Outgoing} (hl : ∀ s ∈ l, s.Good) {rs : List Request} (h : Requests (l.flatMap Outgoing.octets) rs) : List.Forall₂ ReadAs l rs := by
  induction l generalizing rs with
  | nil =>
    have := C127_unique h .nil
    rw [this]; exact .nil
  | cons s l ih =>
    rw [List.flatMap_cons] at h
    generalize hb : s.octets ++ l.flatMap Outgoing.octets = b at h
    cases h with
    | nil =>
      have h0 := (List.append_eq_nil_iff.1 hb).1
      obtain ⟨g1, g2, g3, _⟩ := good_signed (hl s (by simp))
      obtain ⟨_, _, w2⟩ := C126_head g1 g2 g3
      exact absurd (List.append_eq_nil_iff.1 h0).1 (head_nonempty w2)
    | cons h1 h2 h3 h4 =>
      obtain ⟨a, rfl⟩ := read_one (hl s (by simp)) h1 h2 h3 hb.symm
      exact .cons a (ih (fun x hx => hl x (by simp [hx])) h4)

/-- C127: and there is such a reading. -/
theorem C127_readable {l : List Outgoing} (hl : ∀ s ∈ l, s.Good) : ∃ rs, Requests (l.flatMap Outgoing.octets) rs := by
  induction l with
  | nil => exact ⟨[], .nil⟩
  | cons s l ih =>
    obtain ⟨rs, h⟩ := ih (fun x hx => hl x (by simp [hx]))
    obtain ⟨g1, g2, g3, g4⟩ := good_signed (hl s (by simp))
    obtain ⟨h', w1, w2⟩ := C126_head g1 g2 g3
    have := Requests.cons (r := ⟨_, _, h', .data s.body⟩) w2 rfl (bodyLength_way w1 g4) h
    rw [List.flatMap_cons, Outgoing.octets, List.append_assoc]
    exact ⟨_, this⟩

theorem readAs_arrives {s : Outgoing} (hg : s.Fit) {r' : Request} (h : ReadAs s r') : Arrives (changed s.extra s.before.headers) s.signed r' ∧ WfHeaders r'.headers := by
  obtain ⟨sigs, p1, p2, p3, p4, p5, _⟩ := good_parts hg
  obtain ⟨h1, h2, _, front, sigs', q1, q2, _, q4⟩ := h
  have es : sigs' = sigs := List.append_cancel_left (q1.symm.trans p1)
  subst es
  have hway : List.Forall₂ LineOnWay (s.extra ++ s.signed.headers) r'.headers := by
    show List.Forall₂ LineOnWay (s.extra ++ s.lines) r'.headers
    rw [q1, q2, ← List.append_assoc]
    refine List.rel_append q4 ?_
    exact List.forall₂_same.2 (fun kv hkv => ⟨rfl, [], [], by simp, by simp, by simp, p5 kv hkv⟩)
  obtain ⟨g1, g2, g3⟩ := fit_signed hg
  obtain ⟨h', w1, w2⟩ := C126_head g1 g2 g3
  have hh : ∀ {a b c : Headers}, List.Forall₂ LineOnWay a b → List.Forall₂ LineOnWay a c → b = c := by
    intro a b c hab
    induction hab generalizing c with
    | nil => intro h; cases h; rfl
    | cons x _ ih =>
      intro h
      cases h with
      | cons y z => rw [ih z]; exact congrArg (· :: _) (Prod.ext (x.1.trans y.1.symm) ((stripped_eq x.2).trans (stripped_eq y.2).symm))
  have ha : Arrives (changed s.extra s.signed.headers) s.signed r' :=
    C126_arrives (body := []) g1 g2 g3 ⟨_, [], by rw [h1, h2, hh hway w1]; exact w2, rfl⟩
  have hch : changed s.extra s.signed.headers = changed s.extra s.before.headers := by
    unfold changed
    have e : s.signed.headers = s.before.headers ++ sigs' := q1
    have hnil : sigs'.filter (fun kv => decide ¬ NoOuter kv.2) = [] := List.filter_eq_nil_iff.2 (fun kv hkv => by simpa using p5 kv hkv)
    rw [e, List.filter_append, hnil, List.append_nil]
  exact ⟨hch ▸ ha, onWay_wf hway g2⟩

/-- Conditions under which a request is verified after the way as before it. -/
structure Http1.Outgoing.Kept (s : Outgoing) : Prop where
  absolute : Absolute s.before.uri
  method : s.before.method ≠ c! "CONNECT"
  untouched : Untouched (changed s.extra s.before.headers)
  covered : ∀ k, Wire.Carries s.lines k → ∀ kv ∈ k, ∀ i ∈ kv.2.params.covered, Clear (changed s.extra s.before.headers) i ∧ ¬ Lost i

theorem readAs_verify {s : Outgoing} (hg : s.Fit) {r' : Request} (h1 : ReadAs s r') (hk : s.Kept) (now : UInt64) (keys : List (VerifyingKey × Option Str)) :
    verifySignatures now (.req r') keys none = verifySignatures now (.req s.signed) keys none := by
  obtain ⟨ha, hw'⟩ := readAs_arrives hg h1
  obtain ⟨_, g2, _⟩ := fit_signed hg
  exact (C124_verify (.request ha hk.absolute hk.method) hk.untouched (fun kv hkv => g2 kv (List.mem_append_right _ hkv)) hw' (by simp) (by simp)
    (fun k hk' kv hkv i hi => ⟨(hk.covered k hk' kv hkv i hi).1, fun hx => (hk.covered k hk' kv hkv i hi).2 hx.1⟩) now keys).1

/-- C127: each request of the connection is verified with the result that its client gets, whatever stands before and after it. -/
theorem C127_verify {l : List Outgoing} (hl : ∀ s ∈ l, s.Good) {rs : List Request} (h : Requests (l.flatMap Outgoing.octets) rs) :
    List.Forall₂ (fun s r' => s.Kept → ∀ now keys, verifySignatures now (.req r') keys none = verifySignatures now (.req s.signed) keys none) l rs := by
  replace h := C127_stream hl h
  induction h with
  | nil => exact .nil
  | @cons s r' l rs h1 _ ih =>
    exact .cons (fun hk now keys => readAs_verify (hl s (by simp)).toFit h1 hk now keys) (ih (fun x hx => hl x (by simp [hx])))

theorem extractDigest_lines {h h' : Headers} (hw : WfHeaders h) (hw' : WfHeaders h') (e : Wire.linesOf h' (c! "content-digest") = Wire.linesOf h (c! "content-digest")) :
    extractDigest h' = extractDigest h := by
  have : h'.get hContentDigest = h.get hContentDigest := by
    unfold Headers.get
    rw [getAll_fieldLines hw, getAll_fieldLines hw']
    exact congrArg List.head? e
  unfold extractDigest
  rw [this]

theorem readAs_digest {s : Outgoing} (hg : s.Fit) {r' : Request} (h1 : ReadAs s r') (hk : c! "content-digest" ∉ changed s.extra s.before.headers)
    (hb : s.before.body = .data s.body) : ((∃ x, r'.verifyContentDigest = .ok x) ↔ ∃ x, s.signed.verifyContentDigest = .ok x) ∧
      ∀ e, r'.verifyContentDigest = .err e ↔ s.signed.verifyContentDigest = .err e := by
  obtain ⟨ha, hw'⟩ := readAs_arrives hg h1
  obtain ⟨_, g2, _⟩ := fit_signed hg
  have e := extractDigest_lines (h := s.signed.headers) (h' := r'.headers) (fun kv hkv => g2 kv (List.mem_append_right _ hkv)) hw'
    (ha.fields (c! "content-digest") hk)
  have e2 : s.signed.body = .data s.body := hb
  unfold Request.verifyContentDigest verifyDigest
  rw [e, e2, h1.2.2.1]
  cases hx : extractDigest s.signed.headers with
  | ok te =>
    by_cases hd : isEqualDigest (deriveDigest s.body te.1) te.2 = true
    · simp [bind, Res.bind, hd]
    · simp [bind, Res.bind, hd]
  | err e => simp [bind, Res.bind]
  | panic => simp [bind, Res.bind]

/-- C127: the check of the body gives the result it has at the client. -/
theorem C127_digest {l : List Outgoing} (hl : ∀ s ∈ l, s.Good) {rs : List Request} (h : Requests (l.flatMap Outgoing.octets) rs) :
    List.Forall₂ (fun s r' => c! "content-digest" ∉ changed s.extra s.before.headers → s.before.body = .data s.body →
      ((∃ x, r'.verifyContentDigest = .ok x) ↔ ∃ x, s.signed.verifyContentDigest = .ok x) ∧
      ∀ e, r'.verifyContentDigest = .err e ↔ s.signed.verifyContentDigest = .err e) l rs := by
  replace h := C127_stream hl h
  induction h with
  | nil => exact .nil
  | @cons s r' l rs h1 _ ih =>
    exact .cons (fun hk hb => readAs_digest (hl s (by simp)).toFit h1 hk hb) (ih (fun x hx => hl x (by simp [hx])))

/-! ### Examples -/

namespace Ex127
open Ex124 Ex126

theorem wfNames127 {h : Headers} (hn : ∀ kv ∈ h, kv.1 ∈ [c! "content-length", c! "host", c! "signature", c! "signature-input"]) : WfHeaders h := by
  intro kv hkv
  have := hn kv hkv
  simp only [List.mem_cons, List.not_mem_nil, or_false] at this
  rcases this with e | e | e | e <;> rw [e] <;> exact ⟨by decide, by decide, by decide⟩

def methodSigner : Signer := (exParams [⟨.derived .method, []⟩], toySign 1, none)

/-- The text of a request that somebody puts into a body. -/
def inner : Bytes := utf8 (c! "DELETE / HTTP/1.1\r\n\r\n")

/-- A signed request with this body. -/
def outgoing (lines : Headers) : Outgoing :=
  let r : Request := { sent with headers := lines, body := .data inner }
  ⟨hostLine, r, inner, [methodSigner], (setSignatures (.req r) [methodSigner] none).1⟩

def lengthLine : Headers := [(c! "content-length", utf8 (c! "21"))]

theorem goodLine : (outgoing lengthLine).Good where
  sendable := ⟨(sendable []).method, (sendable []).path, (sendable []).mark, (sendable []).pathChars, (sendable []).queryChars⟩
  wf := wfNames127 (by decide +kernel)
  ok := lines_ok (by decide +kernel)
  length := (C127_length (n := 21) (by decide +kernel) (by decide +kernel) _).2 (by decide +kernel)
  signs := by decide +kernel
  labels := by intro x hx; rw [List.mem_singleton.1 hx]; intro c hc; cases hc; decide

/-- The hypotheses of the theorems: two such requests are read as two requests, and the text in the body is no request. -/
example : ∃ rs, Requests ([outgoing lengthLine, outgoing lengthLine].flatMap Outgoing.octets) rs ∧ rs.length = 2 ∧ ∀ r ∈ rs, r.method = c! "GET" := by
  have hl : ∀ s ∈ [outgoing lengthLine, outgoing lengthLine], s.Good := by simpa using goodLine
  obtain ⟨rs, h⟩ := C127_readable hl
  refine ⟨rs, h, ?_⟩
  have := C127_stream hl h
  cases this with
  | cons a b =>
    cases b with
    | cons c d =>
      cases d
      refine ⟨rfl, ?_⟩
      intro r hr
      simp only [List.mem_cons, List.not_mem_nil, or_false] at hr
      rcases hr with rfl | rfl
      · exact a.1
      · exact c.1

end Ex127

open Ex124 Ex126 Ex127 in
/-- C127: the lines must give the length of the body. Without Content-Length a reader takes the text in the body for a second request, although the first one is
signed. -/
theorem C127_smuggle : ∃ s : Outgoing, setSignatures (.req s.before) s.signers none = (s.lines, .ok ()) ∧ s.before.body = .data s.body ∧
    ∃ a b, Requests s.octets [a, b] ∧ a.body = .data [] ∧ b.method = c! "DELETE" ∧ a.verifySignature 0 (toyVerify 1) none = .ok (c! "sig") := by
  refine ⟨outgoing [], by decide +kernel, rfl, ?_⟩
  have hw : WfHeaders (hostLine ++ (outgoing []).signed.headers) := wfNames127 (by decide +kernel)
  have hs : SendableLines (hostLine ++ (outgoing []).signed.headers) := lines_ok (by decide +kernel)
  have hr : Sendable (outgoing []).signed :=
    ⟨(sendable []).method, (sendable []).path, (sendable []).mark, (sendable []).pathChars, (sendable []).queryChars⟩
  obtain ⟨c, rest, h1, h2⟩ := reads_written (r := (outgoing []).signed) (extra := hostLine) hr hw hs inner (.data [])
  obtain ⟨h', w1, w2⟩ := C126_head hr hw hs
  obtain ⟨_, _, _, _, e5⟩ := C126_unique h1 w2 h2
  let evil : Request := ⟨c! "DELETE", ⟨none, none, c! "/", none⟩, [], .data []⟩
  have g : Head inner evil.method evil.uri evil.headers :=
    ⟨c! "/", [], by decide +kernel, ⟨by decide, fun c hc => tchar_of_isTchar (by revert c; decide)⟩, ⟨rfl, rfl, rfl, rfl, by decide, by decide⟩, .nil⟩
  have g2 : Requests inner [evil] := by
    have := Requests.cons (r := evil) (body := []) g rfl ⟨rfl, Or.inl ⟨rfl, rfl⟩⟩ .nil
    simpa using this
  have g3 := Requests.cons (body := []) h1 rfl ⟨by decide +kernel, Or.inl ⟨by decide +kernel, rfl⟩⟩ (e5 ▸ g2)
  have e : c ++ ([] ++ rest) = (outgoing []).octets := by rw [List.nil_append]; exact h2
  exact ⟨_, evil, e ▸ g3, rfl, rfl, by decide +kernel⟩

end Verif
