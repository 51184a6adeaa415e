import Verif.Spec.Http1Connection
import Verif.Props.C130
import Verif.Props.C131
/-!
C132: a whole connection of signed requests and signed answers.
-/
namespace Verif
open Sfv Spec Arrival Http1

/-! ### Answers with bodies of any kind -/

theorem delivered_unique {m : Str} {n : Nat} {h : Headers} {k k' : Bool} {w w' b b' x x' : Bytes} (hd : Delivered m n h k w b) (hd' : Delivered m n h k' w' b')
    (hx : k = true → x = []) (hx' : k' = true → x' = []) (e : w ++ x = w' ++ x') : b = b' ∧ w = w' ∧ x = x' := by
  rcases hd with ⟨h0, rfl, rfl, rfl⟩ | ⟨h0, hd⟩ <;> rcases hd' with ⟨h0', rfl, rfl, rfl⟩ | ⟨h0', hd'⟩
  · exact ⟨rfl, rfl, e⟩
  · exact absurd h0 h0'
  · exact absurd h0' h0
  · rcases hd with ⟨t0, l0, rfl, rfl⟩ | ⟨t0, ⟨t, l0, hn⟩, rfl, rfl⟩ | ⟨l0, ⟨t, t0, _⟩, rfl, hc⟩ <;>
    rcases hd' with ⟨t0', l0', rfl, rfl⟩ | ⟨t0', ⟨t', l0', hn'⟩, rfl, rfl⟩ | ⟨l0', ⟨t', t0', _⟩, rfl, hc'⟩
    · rw [hx rfl, hx' rfl, List.append_nil, List.append_nil] at e
      exact ⟨e, e, by rw [hx rfl, hx' rfl]⟩
    · rw [l0] at l0'; cases l0'
    · rw [t0] at t0'; cases t0'
    · rw [l0] at l0'; cases l0'
    · have hl : w.length = w'.length := bodyLength_unique ⟨t0, Or.inr ⟨t, l0, hn⟩⟩ ⟨t0', Or.inr ⟨t', l0', hn'⟩⟩
      obtain ⟨e1, e2⟩ := List.append_inj e hl
      exact ⟨e1, e1, e2⟩
    · rw [t0] at t0'; cases t0'
    · rw [t0] at t0'; cases t0'
    · rw [t0] at t0'; cases t0'
    · exact C131_chunks hc hc' e

theorem replies_nil {ms : List Str} {b : Bytes} {l : List Response} (h : Replies ms b l) (hb : b = []) : l = [] := by
  cases h with
  | nil => rfl
  | interim h1 => exact absurd (List.append_eq_nil_iff.1 hb).1 (resHead_nonempty h1)
  | answer h1 => exact absurd (List.append_eq_nil_iff.1 hb).1 (resHead_nonempty h1)

/-- C132: all readers of a connection that know the methods of the requests see the same answers with the same bodies. -/
theorem C132_unique {ms : List Str} {b : Bytes} {l l' : List Response} (h : Replies ms b l) (h' : Replies ms b l') : l = l' := by
  induction h generalizing l' with
  | nil => exact (replies_nil h' rfl).symm
  | @interim m ms c rest n hd l h1 h2 _ ih =>
    generalize hb : c ++ rest = b at h'
    cases h' with
    | nil => exact absurd (List.append_eq_nil_iff.1 hb).1 (resHead_nonempty h1)
    | interim h1' _ h3' =>
      obtain ⟨_, _, _, e⟩ := C128_unique h1 h1' hb
      exact ih (e ▸ h3')
    | answer h1' h2' =>
      obtain ⟨e, _⟩ := C128_unique h1 h1' hb
      have := h2.1
      omega
  | @answer m ms c k w body rest s l h1 h2 h3 h4 h5 _ ih =>
    generalize hb : c ++ (w ++ rest) = b at h'
    cases h' with
    | nil => exact absurd (List.append_eq_nil_iff.1 hb).1 (resHead_nonempty h1)
    | interim h1' h2' =>
      obtain ⟨e, _⟩ := C128_unique h1 h1' hb
      have := h2'.1
      omega
    | @answer _ _ c' k' w' body' rest' s' l' h1' h2' h3' h4' h5' h6' =>
      obtain ⟨e1, e2, _, e3⟩ := C128_unique h1 h1' hb
      obtain ⟨e4, _, e5⟩ := delivered_unique h3 (by rw [e1, e2]; exact h3') h4 h4' e3
      subst e4 e5
      have er : s = s' := by
        cases s; cases s'
        simp only at e1 e2 h5 h5'
        rw [e1, e2, h5, h5']
      rw [er, ih h6']

/-- C132: the answers of C130 are among these. -/
theorem C132_lengths {ms : List Str} {b : Bytes} {l : List Response} (h : Answers ms b l) : Replies ms b l := by
  induction h with
  | nil => exact .nil
  | interim h1 h2 _ ih => exact .interim h1 h2 ih
  | @answer m ms c body rest s k l h1 h2 h3 h4 h5 h6 _ ih =>
    refine .answer (closed := k.isNone) (body := body) h1 h2 ?_ (fun e => h5 (by simpa using e)) h6 ih
    rcases h3 with ⟨h3, rfl⟩ | ⟨h3, h3', ⟨e, rfl⟩ | ⟨t, n, e, hn, rfl⟩⟩
    · have := List.length_eq_zero_iff.1 (h4 0 rfl)
      exact Or.inl ⟨h3, rfl, this, this⟩
    · exact Or.inr ⟨h3, Or.inl ⟨h3', e, rfl, rfl⟩⟩
    · exact Or.inr ⟨h3, Or.inr (Or.inl ⟨h3', ⟨t, e, (h4 n rfl).symm ▸ hn⟩, rfl, rfl⟩)⟩

/-- C132: what every reading has. No more answers than requests; all are final; answers to HEAD and those with 204 or 304 have no body; no other answer has both
Transfer-Encoding and Content-Length, and one with a Content-Length has a body of this length. -/
theorem C132_shape {ms : List Str} {b : Bytes} {l : List Response} (h : Replies ms b l) : l.length ≤ ms.length ∧ ∀ x ∈ ms.zip l,
    200 ≤ x.2.status ∧ x.2.status ≤ 999 ∧ (x.1 = c! "HEAD" ∨ x.2.status = 204 ∨ x.2.status = 304 → x.2.body = .data []) ∧
    (x.1 ≠ c! "HEAD" → x.2.status ≠ 204 → x.2.status ≠ 304 →
      (Wire.linesOf x.2.headers (c! "transfer-encoding") = [] ∨ Wire.linesOf x.2.headers (c! "content-length") = []) ∧
      ∀ n, Wire.linesOf x.2.headers (c! "content-length") = [utf8 (decimal n)] → ∃ body, x.2.body = .data body ∧ body.length = n) := by
  induction h with
  | nil => simp
  | interim _ _ _ ih => exact ih
  | @answer m ms c k w body rest s l h1 h2 h3 h4 h5 _ ih =>
    refine ⟨by simpa using ih.1, ?_⟩
    intro x hx
    rw [List.zip_cons_cons, List.mem_cons] at hx
    rcases hx with rfl | hx
    · obtain ⟨_, _, _, hst, _⟩ := h1
      refine ⟨h2, hst.2, fun hn => ?_, fun a1 a2 a3 => ?_⟩
      · rcases h3 with ⟨_, _, _, e⟩ | ⟨h3, _⟩
        · show s.body = _
          rw [h5, e]
        · exact absurd hn h3
      · rcases h3 with ⟨h3, _⟩ | ⟨_, ⟨t0, l0, _⟩ | ⟨t0, ⟨t, l0, ht⟩, _, rfl⟩ | ⟨l0, _⟩⟩
        · rcases h3 with h3 | h3 | h3
          · exact absurd h3 a1
          · exact absurd h3 a2
          · exact absurd h3 a3
        · exact ⟨Or.inl t0, fun n hn => by rw [l0] at hn; cases hn⟩
        · exact ⟨Or.inl t0, fun n hn => ⟨w, h5, (C127_length t0 hn w.length).1 ⟨t0, Or.inr ⟨t, l0, ht⟩⟩⟩⟩
        · exact ⟨Or.inr l0, fun n hn => by rw [l0] at hn; cases hn⟩
    · exact ih.2 x hx

/-- C132: an answer that may have a body and has neither Transfer-Encoding nor Content-Length is the last one, and its body is all the rest of the octets. -/
theorem C132_until {ms : List Str} {b : Bytes} {l : List Response} (h : Replies ms b l) {m : Str} {s : Response} {i : Nat} (hm : ms[i]? = some m) (hs : l[i]? = some s)
    (hn : m ≠ c! "HEAD" ∧ s.status ≠ 204 ∧ s.status ≠ 304) (ht : Wire.linesOf s.headers (c! "transfer-encoding") = [])
    (hl : Wire.linesOf s.headers (c! "content-length") = []) :
    i + 1 = l.length ∧ ∃ a c body, ResHead c s.status s.headers ∧ b = a ++ (c ++ body) ∧ s.body = .data body := by
  induction h generalizing i with
  | nil => simp at hs
  | @interim m0 ms c rest n hd l _ _ _ ih =>
    obtain ⟨e, a, c', body, h1, h2, h3⟩ := ih hm hs
    exact ⟨e, c ++ a, c', body, h1, by rw [h2, List.append_assoc], h3⟩
  | @answer m0 ms c k w body rest s0 l h1 h2 h3 h4 h5 h6 ih =>
    cases i with
    | zero =>
      injection hm with hm
      injection hs with hs
      subst hm hs
      rcases h3 with ⟨h3, _⟩ | ⟨_, ⟨_, _, rfl, rfl⟩ | ⟨_, ⟨t, l0, _⟩, _⟩ | ⟨_, ⟨t, t0, _⟩, _⟩⟩
      · rcases h3 with h3 | h3 | h3
        · exact absurd h3 hn.1
        · exact absurd h3 hn.2.1
        · exact absurd h3 hn.2.2
      · rw [replies_nil h6 (h4 rfl)]
        exact ⟨rfl, [], c, w, h1, by rw [h4 rfl]; simp, h5⟩
      · rw [hl] at l0; cases l0
      · rw [ht] at t0; cases t0
    | succ i =>
      obtain ⟨e, a, c', body', g1, g2, g3⟩ := ih hm hs
      exact ⟨by simpa using e, c ++ (w ++ a), c', body', g1, by rw [g2]; simp, g3⟩

/-- C132: what the answers are made of. An answer in chunks has the body that the chunks carry. -/
theorem C132_chunked {ms : List Str} {b : Bytes} {l : List Response} (h : Replies ms b l) {m : Str} {s : Response} {i : Nat} (hm : ms[i]? = some m) (hs : l[i]? = some s)
    (hn : m ≠ c! "HEAD" ∧ s.status ≠ 204 ∧ s.status ≠ 304) (ht : Wire.linesOf s.headers (c! "transfer-encoding") ≠ []) :
    Wire.linesOf s.headers (c! "content-length") = [] ∧ (∃ t : Str, Wire.linesOf s.headers (c! "transfer-encoding") = [utf8 t] ∧ t.map Char.toLower = c! "chunked") ∧
    ∃ a c w z body, ResHead c s.status s.headers ∧ b = a ++ (c ++ (w ++ z)) ∧ Chunked w body ∧ s.body = .data body := by
  induction h generalizing i with
  | nil => simp at hs
  | @interim m0 ms c rest n hd l _ _ _ ih =>
    obtain ⟨e, e', a, c', w, z, body, h1, h2, h3⟩ := ih hm hs
    exact ⟨e, e', c ++ a, c', w, z, body, h1, by rw [h2, List.append_assoc], h3⟩
  | @answer m0 ms c k w body rest s0 l h1 h2 h3 h4 h5 h6 ih =>
    cases i with
    | zero =>
      injection hm with hm
      injection hs with hs
      subst hm hs
      rcases h3 with ⟨h3, _⟩ | ⟨_, ⟨t0, _⟩ | ⟨t0, _⟩ | ⟨l0, t0, _, hc⟩⟩
      · rcases h3 with h3 | h3 | h3
        · exact absurd h3 hn.1
        · exact absurd h3 hn.2.1
        · exact absurd h3 hn.2.2
      · exact absurd t0 ht
      · exact absurd t0 ht
      · exact ⟨l0, t0, [], c, w, rest, body, h1, rfl, hc, h5⟩
    | succ i =>
      obtain ⟨e, e', a, c', w', z, body', g1, g2, g3⟩ := ih hm hs
      exact ⟨e, e', c ++ (w ++ a), c', w', z, body', g1, by rw [g2]; simp, g3⟩

theorem delivered_same {m : Str} {n : Nat} {h h' : Headers} {k : Bool} {w b : Bytes}
    (e1 : Wire.linesOf h' (c! "transfer-encoding") = Wire.linesOf h (c! "transfer-encoding"))
    (e2 : Wire.linesOf h' (c! "content-length") = Wire.linesOf h (c! "content-length")) (hd : Delivered m n h k w b) : Delivered m n h' k w b := by
  unfold Delivered
  rw [e1, e2]
  exact hd

theorem delivered_way {m : Str} {n : Nat} {h h' : Headers} {k : Bool} {w b : Bytes} (hh : List.Forall₂ LineOnWay h h') (hd : Delivered m n h k w b) :
    Delivered m n h' k w b := by
  rcases hd with hd | ⟨h0, hd⟩
  · exact Or.inl hd
  have key : ∀ f : Str, (Wire.linesOf h f = [] ∨ ∃ t : Str, Wire.linesOf h f = [utf8 t] ∧ NoOuter (utf8 t)) → Wire.linesOf h' f = Wire.linesOf h f := by
    intro f hf
    refine onWay_lines hh ?_
    intro kv hkv e
    have hm := mem_linesOf hkv e
    rcases hf with hf | ⟨t, hf, ho⟩
    · rw [hf] at hm; cases hm
    · rw [hf, List.mem_singleton] at hm
      rw [hm]; exact ho
  refine delivered_same (key _ ?_) (key _ ?_) (Or.inr ⟨h0, hd⟩)
  · rcases hd with ⟨t0, _⟩ | ⟨t0, _⟩ | ⟨_, ⟨t, t0, ht⟩, _⟩
    · exact Or.inl t0
    · exact Or.inl t0
    · exact Or.inr ⟨t, t0, chunked_outer ht⟩
  · rcases hd with ⟨_, l0, _⟩ | ⟨_, ⟨t, l0, ht⟩, _⟩ | ⟨l0, _⟩
    · exact Or.inl l0
    · exact Or.inr ⟨t, l0, digits_outer ht.2.1⟩
    · exact Or.inl l0

/-! ### The connection -/

/-- An exchange that can take place. -/
structure Http1.Deal.Good (d : Deal) : Prop where
  sealed : Seal d.client.extra d.ask.headers d.client.params d.client.name d.client.key d.client.checks d.client.now
  sendable : Sendable d.ask
  absolute : Absolute d.ask.uri
  method : d.ask.method ≠ c! "CONNECT"
  covered : ∀ i ∈ d.client.params.covered, Clear (changed d.client.extra d.ask.headers) i ∧ ¬ Lost i
  signs : d.ask.setSignature d.client.params d.client.key d.client.name = (d.asked, .ok ())
  carried : Carried (d.client.extra ++ d.ask.headers) d.client.wire d.client.body
  hints : ∀ x ∈ d.hints, Status x.2.status ∧ Interim x.2.status ∧ (∀ c ∈ x.1, ValueByte c) ∧ WfHeaders x.2.headers ∧ SendableLines x.2.headers
  reason : ∀ c ∈ d.reason, ValueByte c
  status : Status d.answer.status
  finished : 200 ≤ d.answer.status
  sealed' : Seal d.server.extra d.answer.headers d.server.params d.server.name d.server.key d.server.checks d.server.now
  covered' : ∀ i ∈ d.server.params.covered, BothWays (changed d.client.extra d.ask.headers) (changed d.server.extra d.answer.headers) i
  signs' : d.answer.setSignature d.server.params d.server.key d.server.name (some d.got) = (d.answered, .ok ())
  delivered : Delivered d.ask.method d.answer.status (d.server.extra ++ d.answer.headers) d.closed d.server.wire d.server.body

/-- The request of an exchange as something that is sent. -/
def Http1.Deal.sending (d : Deal) : Sending :=
  ⟨⟨d.client.extra, d.ask, d.client.body, [(d.client.params, d.client.key, d.client.name)], d.askLines⟩, d.client.wire⟩

theorem deal_sending {d : Deal} (h : d.Good) : d.sending.Good where
  sendable := h.sendable
  wf := h.sealed.wf
  ok := h.sealed.ok
  signs := by
    have e := h.signs
    unfold Request.setSignature at e
    injection e with e1 e2
    exact Prod.ext (congrArg Request.headers e1) e2
  labels := legal_start h.sealed.label
  carried := h.carried

theorem stream_reads {l : List Sending} (hl : ∀ s ∈ l, s.Good) {rs : List Request} (h : Stream (l.flatMap Sending.octets) rs) :
    List.Forall₂ (fun s r' => Reads (written s.extra s.signed ++ s.wire) r' ∧ r'.body = .data s.body ∧ WfHeaders r'.headers) l rs := by
  have hs := C131_stream hl h
  clear h
  induction hs with
  | nil => exact .nil
  | @cons s r' l rs h1 _ ih =>
    refine .cons ?_ (ih (fun x hx => hl x (by simp [hx])))
    have hg := (hl s (by simp)).toFit
    refine ⟨?_, h1.2.2.1, (readAs_arrives hg h1).2⟩
    obtain ⟨sigs, p1, _, _, _, p5, _⟩ := good_parts hg
    obtain ⟨a1, a2, _, front, sigs', q1, q2, _, q4⟩ := h1
    have es : sigs' = sigs := List.append_cancel_left (q1.symm.trans p1)
    subst es
    obtain ⟨g1, g2, g3⟩ := fit_signed hg
    obtain ⟨h', w1, w2⟩ := C126_head g1 g2 g3
    have hway : List.Forall₂ LineOnWay (s.extra ++ s.signed.headers) r'.headers := by
      show List.Forall₂ LineOnWay (s.extra ++ s.lines) r'.headers
      rw [q1, q2, ← List.append_assoc]
      exact List.rel_append q4 (List.forall₂_same.2 (fun kv hkv => ⟨rfl, [], [], by simp, by simp, by simp, p5 kv hkv⟩))
    have hh : ∀ {a b c : Headers}, List.Forall₂ LineOnWay a b → List.Forall₂ LineOnWay a c → b = c := by
      intro a b c hab
      induction hab generalizing c with
      | nil => intro h; cases h; rfl
      | cons x _ ih =>
        intro h
        cases h with
        | cons y z => rw [ih z]; exact congrArg (· :: _) (Prod.ext (x.1.trans y.1.symm) ((stripped_eq x.2).trans (stripped_eq y.2).symm))
    exact ⟨_, s.wire, by rw [a1, a2, hh hway w1]; exact w2, rfl⟩

/-- C132: every request of the connection is valid at the server, with the body that was sent. -/
theorem C132_requests {l : List Deal} (hl : ∀ d ∈ l, d.Good) {rs : List Request} (h : Stream (l.flatMap Deal.there) rs) :
    List.Forall₂ (fun d r' => r'.verifySignature d.client.now d.client.checks none = .ok (d.client.name.getD (c! "sig")) ∧ r'.body = .data d.client.body) l rs := by
  have e : l.flatMap Deal.there = (l.map Deal.sending).flatMap Sending.octets := by rw [List.flatMap_map]; rfl
  rw [e] at h
  have hs := stream_reads (by intro s hs; obtain ⟨d, hd, rfl⟩ := List.mem_map.1 hs; exact deal_sending (hl d hd)) h
  rw [List.forall₂_map_left_iff] at hs
  clear h e
  induction hs with
  | nil => exact .nil
  | @cons d r' l rs h1 _ ih =>
    refine .cons ⟨?_, h1.2.1⟩ (ih (fun x hx => hl x (by simp [hx])))
    have hg := hl d (by simp)
    exact C128_request hg.sealed hg.sendable hg.absolute hg.method hg.covered hg.signs h1.1

theorem deal_parts {d : Deal} (h : d.Good) (hw : WfHeaders d.got.headers) : ∃ sigs, d.answerLines = d.answer.headers ++ sigs ∧ WfHeaders sigs ∧ SendableLines sigs ∧
    (∀ kv ∈ sigs, NoOuter kv.2) ∧ ∀ kv ∈ sigs, kv.1 = c! "signature-input" ∨ kv.1 = c! "signature" := by
  have hwr : WfHeaders d.answer.headers := fun kv hkv => h.sealed'.wf kv (by simp [hkv])
  have hset : setSignatures (.res d.answer) [(d.server.params, d.server.key, d.server.name)] (some d.got) = (d.answerLines, .ok ()) := by
    have e := h.signs'
    unfold Response.setSignature at e
    injection e with e1 e2
    exact Prod.ext (congrArg Response.headers e1) e2
  obtain ⟨ls, h1, e0⟩ := (C65_sign (m := .res d.answer) hwr (by intro q e; injection e with e; exact e ▸ hw) _ _).1 hset
  obtain ⟨_, c2, c3, c4⟩ := all_added h1 (legal_start h.sealed'.label)
  exact ⟨ls.flatten, e0, c2, c3, c4, added_names h1⟩

theorem deal_head {d : Deal} (h : d.Good) (hw : WfHeaders d.got.headers) : ∃ h', ResHead (writtenRes d.reason d.server.extra d.answered) d.answer.status h' ∧
    Delivered d.ask.method d.answer.status h' d.closed d.server.wire d.server.body := by
  obtain ⟨sigs, e0, c2, c3, _, c5⟩ := deal_parts h hw
  have e' : d.server.extra ++ d.answered.headers = (d.server.extra ++ d.answer.headers) ++ sigs := by
    show d.server.extra ++ d.answerLines = _
    rw [e0, List.append_assoc]
  obtain ⟨h', w1, w2⟩ := C128_head (s := d.answered) (extra := d.server.extra) h.status h.reason (e' ▸ wf_append h.sealed'.wf c2) (e' ▸ lines_append h.sealed'.ok c3)
  refine ⟨h', w2, delivered_way w1 ?_⟩
  rw [e']
  exact delivered_same (signed_lines c5 (by decide) (by decide)) (signed_lines c5 (by decide) (by decide)) h.delivered

theorem skip_hints2 {l : List (Bytes × Response)} (hl : ∀ x ∈ l, Status x.2.status ∧ Interim x.2.status ∧ (∀ c ∈ x.1, ValueByte c) ∧ WfHeaders x.2.headers ∧ SendableLines x.2.headers)
    {m : Str} {ms : List Str} {b : Bytes} {rs : List Response} : Replies (m :: ms) ((l.flatMap fun x => writtenRes x.1 [] x.2) ++ b) rs ↔ Replies (m :: ms) b rs := by
  induction l with
  | nil => exact Iff.rfl
  | cons x l ih =>
    rw [← ih (fun y hy => hl y (by simp [hy]))]
    obtain ⟨h', hx⟩ := hint_head (hl x (by simp))
    rw [List.flatMap_cons, List.append_assoc]
    refine ⟨fun h => ?_, fun h => .interim hx (hl x (by simp)).2.1 h⟩
    generalize hb : writtenRes x.1 [] x.2 ++ ((l.flatMap fun x => writtenRes x.1 [] x.2) ++ b) = b' at h
    cases h with
    | nil => exact absurd (List.append_eq_nil_iff.1 hb).1 (resHead_nonempty hx)
    | interim h1 _ h3 =>
      obtain ⟨_, _, _, e⟩ := C128_unique hx h1 hb
      exact e ▸ h3
    | answer h1 h2 =>
      obtain ⟨e, _⟩ := C128_unique hx h1 hb
      have := (hl x (by simp)).2.1.1
      omega

/-- Only the last answer may end with the connection. -/
def EndsLast (l : List Deal) : Prop := l.Pairwise fun d _ => d.closed = false

theorem replies_read {l : List Deal} (hl : ∀ d ∈ l, d.Good) (hw : ∀ d ∈ l, WfHeaders d.got.headers) (ho : EndsLast l) {rs : List Response}
    (h : Replies (l.map fun d => d.ask.method) (l.flatMap Deal.back) rs) :
    List.Forall₂ (fun d s' => ReadsRes (writtenRes d.reason d.server.extra d.answered ++ d.server.wire) s' ∧ s'.body = .data d.server.body) l rs := by
  induction l generalizing rs with
  | nil => rw [replies_nil h rfl]; exact .nil
  | cons d l ih =>
    have hg := hl d (by simp)
    obtain ⟨o1, o2⟩ := List.pairwise_cons.1 ho
    rw [List.flatMap_cons, Deal.back, List.append_assoc, List.map_cons] at h
    replace h := (skip_hints2 hg.hints).1 h
    obtain ⟨h', hx, hk⟩ := deal_head hg (hw d (by simp))
    rw [List.append_assoc] at h
    generalize hb : writtenRes d.reason d.server.extra d.answered ++ (d.server.wire ++ l.flatMap Deal.back) = b at h
    cases h with
    | nil => exact absurd (List.append_eq_nil_iff.1 hb).1 (resHead_nonempty hx)
    | interim h1 h2 =>
      obtain ⟨e, _⟩ := C128_unique hx h1 hb
      have h3 := hg.finished
      have h4 := h2.1
      omega
    | @answer _ _ c k w body rest s rs h1 h2 h3 h4 h5 h6 =>
      obtain ⟨e1, e2, e3, e4⟩ := C128_unique hx h1 hb
      have hlast : d.closed = true → l.flatMap Deal.back = [] := by
        intro hn
        cases l with
        | nil => rfl
        | cons y l => exact absurd ((o1 y (by simp)).symm.trans hn) (by decide)
      obtain ⟨e5, e6, e7⟩ := delivered_unique hk (by rw [e1, e2]; exact h3) hlast h4 e4
      refine .cons ⟨⟨c, w, h1, by rw [e3, e6]⟩, by rw [h5, e5]⟩ (ih (fun x hx => hl x (by simp [hx])) (fun x hx => hw x (by simp [hx])) o2 ?_)
      rw [e7]; exact h6

/-- C132: a whole connection. The client signs requests and writes them one after the other; the server reads them, signs its answers with the requests that it read,
and writes them one after the other; the client reads them. Then every request is valid at the server, and every answer is valid at the client for the request that
it sent at this place, and all bodies are those that were sent. -/
theorem C132_connection {l : List Deal} (hl : ∀ d ∈ l, d.Good) (ho : EndsLast l) (hreqs : Stream (l.flatMap Deal.there) (l.map Deal.got)) {rs : List Response}
    (h : Replies (l.map fun d => d.ask.method) (l.flatMap Deal.back) rs) :
    (∀ d ∈ l, d.got.verifySignature d.client.now d.client.checks none = .ok (d.client.name.getD (c! "sig")) ∧ d.got.body = .data d.client.body) ∧
    List.Forall₂ (fun d s' => s'.verifySignature d.server.now d.server.checks none (some d.asked) = .ok (d.server.name.getD (c! "sig")) ∧ s'.body = .data d.server.body)
      l rs := by
  have h1 := C132_requests hl hreqs
  rw [List.forall₂_map_right_iff, List.forall₂_same] at h1
  refine ⟨h1, ?_⟩
  have e : l.flatMap Deal.there = (l.map Deal.sending).flatMap Sending.octets := by rw [List.flatMap_map]; rfl
  rw [e] at hreqs
  have hs := stream_reads (by intro s hs; obtain ⟨d, hd, rfl⟩ := List.mem_map.1 hs; exact deal_sending (hl d hd)) hreqs
  rw [List.forall₂_map_left_iff, List.forall₂_map_right_iff, List.forall₂_same] at hs
  have hr := replies_read hl (fun d hd => (hs d hd).2.2) ho h
  clear h hreqs e h1 ho
  induction hr with
  | nil => exact .nil
  | @cons d s' l rs g1 _ ih =>
    refine .cons ⟨?_, g1.2⟩ (ih (fun x hx => hl x (by simp [hx])) (fun x hx => hs x (by simp [hx])))
    have hg := hl d (by simp)
    exact C128_exchange hg.sealed hg.sendable hg.absolute hg.method hg.signs (hs d (by simp)).1 hg.sealed' hg.status hg.reason hg.covered' hg.signs' g1.1

/-- C132: the check of the body of an answer gives the result it has at the server, for the body that was sent. -/
theorem C132_digest {l : List Deal} (hl : ∀ d ∈ l, d.Good) (hw : ∀ d ∈ l, WfHeaders d.got.headers) (ho : EndsLast l) {rs : List Response}
    (h : Replies (l.map fun d => d.ask.method) (l.flatMap Deal.back) rs) :
    List.Forall₂ (fun d s' => c! "content-digest" ∉ changed d.server.extra d.answer.headers →
      ((∃ x, s'.verifyContentDigest = .ok x) ↔ ∃ x, ({ d.answer with body := .data d.server.body } : Response).verifyContentDigest = .ok x) ∧
      ∀ e, s'.verifyContentDigest = .err e ↔ ({ d.answer with body := .data d.server.body } : Response).verifyContentDigest = .err e) l rs := by
  replace h := replies_read hl hw ho h
  clear ho
  induction h with
  | nil => exact .nil
  | @cons d s' l rs h1 _ ih =>
    refine .cons (fun hc => ?_) (ih (fun x hx => hl x (by simp [hx])) (fun x hx => hw x (by simp [hx])))
    have hg := hl d (by simp)
    obtain ⟨sigs, e, c2, c3, c4, c5⟩ := deal_parts hg (hw d (by simp))
    have e' : d.server.extra ++ d.answered.headers = (d.server.extra ++ d.answer.headers) ++ sigs := by
      show d.server.extra ++ d.answerLines = _
      rw [e, List.append_assoc]
    have hw1 : WfHeaders (d.server.extra ++ d.answered.headers) := e' ▸ wf_append hg.sealed'.wf c2
    obtain ⟨_, a3⟩ := readsRes_eq (s := d.answered) (extra := d.server.extra) hg.status hg.reason hw1 (e' ▸ lines_append hg.sealed'.ok c3) h1.1
    have hch : changed d.server.extra d.answered.headers = changed d.server.extra d.answer.headers := by
      show changed d.server.extra d.answerLines = _
      rw [e]; exact changed_signed c4
    have ed : extractDigest s'.headers = extractDigest d.answer.headers := by
      refine extractDigest_lines (fun kv hkv => hg.sealed'.wf kv (List.mem_append_right _ hkv)) (onWay_wf a3 hw1) ?_
      rw [onWay_clear hw1 a3 (hch.symm ▸ hc)]
      show Wire.linesOf d.answerLines _ = _
      rw [e]
      exact signed_lines c5 (by decide) (by decide)
    unfold Response.verifyContentDigest verifyDigest
    rw [ed, h1.2]
    cases hx : extractDigest d.answer.headers with
    | ok te =>
      by_cases hd : isEqualDigest (deriveDigest d.server.body te.1) te.2 = true
      · simp [bind, Res.bind, hd]
      · simp [bind, Res.bind, hd]
    | err e => simp [bind, Res.bind]
    | panic => simp [bind, Res.bind]

/-- C132: the answers can be read. -/
theorem C132_readable {l : List Deal} (hl : ∀ d ∈ l, d.Good) (hw : ∀ d ∈ l, WfHeaders d.got.headers) (ho : EndsLast l) :
    ∃ rs, Replies (l.map fun d => d.ask.method) (l.flatMap Deal.back) rs := by
  induction l with
  | nil => exact ⟨[], .nil⟩
  | cons d l ih =>
    obtain ⟨o1, o2⟩ := List.pairwise_cons.1 ho
    obtain ⟨rs, h⟩ := ih (fun x hx => hl x (by simp [hx])) (fun x hx => hw x (by simp [hx])) o2
    have hg := hl d (by simp)
    obtain ⟨h', hx, hk⟩ := deal_head hg (hw d (by simp))
    have hlast : d.closed = true → l.flatMap Deal.back = [] := by
      intro hn
      cases l with
      | nil => rfl
      | cons y l => exact absurd ((o1 y (by simp)).symm.trans hn) (by decide)
    have := Replies.answer (s := ⟨d.answer.status, h', .data d.server.body⟩) hx hg.finished hk hlast rfl h
    rw [List.flatMap_cons, Deal.back, List.append_assoc, List.append_assoc]
    exact ⟨_, (skip_hints2 hg.hints).2 this⟩

namespace Ex132
open Ex124 Ex126 Ex131

theorem wfNames132 {h : Headers} (hn : ∀ kv ∈ h, kv.1 ∈ [c! "transfer-encoding", c! "date", c! "host", c! "signature", c! "signature-input"]) : WfHeaders h := by
  intro kv hkv
  have := hn kv hkv
  simp only [List.mem_cons, List.not_mem_nil, or_false] at this
  rcases this with e | e | e | e | e <;> rw [e] <;> exact ⟨by decide, by decide, by decide⟩

/-- The exchange of C128 with other bodies. -/
def client (extra : Headers) (wire body : Bytes) : Side := ⟨extra, wire, body, wParams (c! "k") wIds, toySign 7, none, toyVerify 7, 100⟩
def server (extra : Headers) (wire body : Bytes) : Side := ⟨extra, wire, body, exParams Ex128.answerIds, toySign 9, none, toyVerify 9, 100⟩
def gotIt (c : Side) : Request := ⟨sent.method, originForm sent.uri, (c.extra ++ Ex128.sentSigned.headers).map (fun kv => (kv.1, stripOws kv.2)), .data c.body⟩
def deal (c s : Side) (hints : List (Bytes × Response)) (closed : Bool) : Deal :=
  ⟨c, s, sent, Ex128.sentSigned.headers, gotIt c, hints, utf8 (c! "Not Found"), exRes,
    (exRes.setSignature (exParams Ex128.answerIds) (toySign 9) none (some (gotIt c))).1.headers, closed⟩

/-- Chunks both ways; then no body one way, and the other way all octets until the end. -/
def inChunks : Deal := deal (client (hostLine ++ teLine) (chunks hello) hello.flatten) (server teLine (chunks hello) hello.flatten) [Ex130.hint, Ex130.hint] false
def untilEnd : Deal := deal (client hostLine [] []) (server [] (utf8 (c! "HTTP/1.1 500 ")) (utf8 (c! "HTTP/1.1 500 "))) [] true

theorem signsIt : sent.setSignature (wParams (c! "k") wIds) (toySign 7) none = ({ sent with headers := Ex128.sentSigned.headers }, .ok ()) :=
  Prod.ext rfl (by decide +kernel)

theorem clear_host {ch : List Str} (h : c! "date" ∉ ch) : ∀ i ∈ (wParams (c! "k") wIds).covered, Clear ch i ∧ ¬ Lost i := by
  intro i hi
  simp only [wParams, wIds, List.mem_cons, List.not_mem_nil, or_false] at hi
  rcases hi with rfl | rfl
  · refine ⟨⟨?_, by simp⟩, by simp [Lost]⟩
    intro f hf; injection hf with hf; subst hf; exact h
  · exact ⟨by simp [Clear], by simp [Lost]⟩

theorem both {a b : List Str} (ha : c! "signature" ∉ a) (hb : c! "date" ∉ b) : ∀ i ∈ Ex128.answerIds, BothWays a b i := by
  intro i hi
  simp only [Ex128.answerIds, List.mem_cons, List.not_mem_nil, or_false] at hi
  unfold BothWays
  rcases hi with rfl | rfl | rfl | rfl
  · simp [Clear]
  · rw [if_neg (by simp)]
    refine ⟨?_, by simp⟩
    intro f h; injection h with h; subst h; exact hb
  · simp [Clear, Lost]
  · rw [if_pos (by simp)]
    refine ⟨⟨?_, by simp⟩, by simp [Lost]⟩
    intro f h; injection h with h; subst h; exact ha

set_option maxRecDepth 20000 in
theorem inChunksGood : inChunks.Good where
  sealed := ⟨wfNames132 (by decide +kernel), lines_ok (by decide +kernel), by decide +kernel, by decide +kernel, wParams_safe (by decide), wParams_notSelf _, by decide,
    toy_pair 7, by intro e h; injection h with h; subst h; decide⟩
  sendable := sendable _
  absolute := absolute
  method := by decide
  covered := clear_host (by decide +kernel)
  signs := signsIt
  carried := Or.inr ⟨by decide +kernel, ⟨c! "Chunked", by decide +kernel, by decide⟩, C131_written (by decide +kernel)⟩
  hints := Ex130.hintOk
  reason := by decide +kernel
  status := ⟨by decide, by decide⟩
  finished := by decide
  sealed' := ⟨wfNames132 (by decide +kernel), lines_ok (by decide +kernel), by decide +kernel, by decide +kernel, Ex128.answer_safe, Ex128.answer_notSelf, by decide,
    toy_pair 9, by intro e h; cases h⟩
  covered' := both (by decide +kernel) (by decide +kernel)
  signs' := Prod.ext rfl (by decide +kernel)
  delivered := Or.inr ⟨by decide, Or.inr (Or.inr ⟨by decide +kernel, ⟨c! "Chunked", by decide +kernel, by decide⟩, rfl, C131_written (by decide +kernel)⟩)⟩

set_option maxRecDepth 20000 in
theorem untilEndGood : untilEnd.Good where
  sealed := Ex128.requestSeal
  sendable := sendable _
  absolute := absolute
  method := by decide
  covered := clear_host (by decide +kernel)
  signs := signsIt
  carried := Or.inl ⟨⟨by decide +kernel, Or.inl ⟨by decide +kernel, rfl⟩⟩, rfl⟩
  hints := by simp [untilEnd, deal]
  reason := by decide +kernel
  status := ⟨by decide, by decide⟩
  finished := by decide
  sealed' := Ex128.answerSeal
  covered' := Ex128.bothWays
  signs' := Prod.ext rfl (by decide +kernel)
  delivered := Or.inr ⟨by decide, Or.inl ⟨by decide +kernel, by decide +kernel, rfl, rfl⟩⟩

theorem goods : ∀ d ∈ [inChunks, untilEnd], d.Good := by simpa using ⟨inChunksGood, untilEndGood⟩

theorem endsLast : EndsLast [inChunks, untilEnd] := by simp [EndsLast, inChunks, deal]

set_option maxRecDepth 20000 in
theorem requests : Stream ([inChunks, untilEnd].flatMap Deal.there) ([inChunks, untilEnd].map Deal.got) := by
  have key : ∀ {d : Deal}, d.Good → d.got = ⟨d.asked.method, originForm d.asked.uri, (d.client.extra ++ d.askLines).map (fun kv => (kv.1, stripOws kv.2)), .data d.client.body⟩ →
      Carried d.got.headers d.client.wire d.client.body → ∀ {rest : Bytes} {rs : List Request}, Http1.Stream rest rs → Http1.Stream (d.there ++ rest) (d.got :: rs) := by
    intro d hd e hc rest rs h
    obtain ⟨g1, g2, g3⟩ := fit_signed (deal_sending hd).toFit
    obtain ⟨h', w1, w2⟩ := C126_head g1 g2 g3
    have eh : d.got.headers = h' := by
      rw [e]
      have : ∀ {a b : Headers}, List.Forall₂ LineOnWay a b → a.map (fun kv => (kv.1, stripOws kv.2)) = b := by
        intro a b h
        induction h with
        | nil => rfl
        | cons a _ ih => rw [List.map_cons, ih]; exact congrArg (· :: _) (Prod.ext a.1.symm (stripped_eq a.2).symm)
      exact this w1
    have hh : Head (written d.client.extra d.asked) d.got.method d.got.uri d.got.headers := by
      rw [eh, e]; exact w2
    rw [Deal.there, List.append_assoc]
    exact .cons hh (by rw [e]) hc h
  have := key inChunksGood rfl (Or.inr ⟨by decide +kernel, ⟨c! "Chunked", by decide +kernel, by decide⟩, C131_written (by decide +kernel)⟩)
    (key untilEndGood rfl (Or.inl ⟨⟨by decide +kernel, Or.inl ⟨by decide +kernel, rfl⟩⟩, rfl⟩) .nil)
  simpa using this

set_option maxRecDepth 20000 in
/-- The hypotheses of the theorems: two exchanges on one connection. -/
example : ∃ x y, Replies [c! "GET", c! "GET"] ([inChunks, untilEnd].flatMap Deal.back) [x, y] ∧
    inChunks.got.verifySignature 100 (toyVerify 7) none = .ok (c! "sig") ∧ inChunks.got.body = .data (utf8 (c! "Hello, this is it")) ∧
    x.verifySignature 100 (toyVerify 9) none (some inChunks.asked) = .ok (c! "sig") ∧ x.body = .data (utf8 (c! "Hello, this is it")) ∧
    y.verifySignature 100 (toyVerify 9) none (some untilEnd.asked) = .ok (c! "sig") ∧ y.body = .data (utf8 (c! "HTTP/1.1 500 ")) := by
  have hw : ∀ d ∈ [inChunks, untilEnd], WfHeaders d.got.headers := by
    have h1 : WfHeaders inChunks.got.headers := wfNames132 (by decide +kernel)
    have h2 : WfHeaders untilEnd.got.headers := wfNames132 (by decide +kernel)
    simpa using ⟨h1, h2⟩
  obtain ⟨rs, h⟩ := C132_readable goods hw endsLast
  obtain ⟨h1, h2⟩ := C132_connection goods endsLast requests h
  cases h2 with
  | @cons _ x _ _ a b =>
    cases b with
    | @cons _ y _ _ c d =>
      cases d
      exact ⟨x, y, h, (h1 inChunks (by simp)).1, (h1 inChunks (by simp)).2, a.1, a.2, c.1, c.2⟩

/-- The hypotheses of `C132_shape`, `C132_until` and `C132_chunked`: an answer in chunks, then one until the end. -/
example : ∃ b, Replies [c! "GET", c! "GET"] b [⟨200, teLine, .data hello.flatten⟩, ⟨200, [], .data (utf8 (c! "body"))⟩] ∧
    Wire.linesOf teLine (c! "transfer-encoding") ≠ [] := by
  obtain ⟨h1, w1, g1⟩ := C128_head (s := ⟨200, teLine, .fail⟩) (extra := []) (reason := utf8 (c! "OK")) ⟨by decide, by decide⟩ Ex130.okReason
    (wfNames132 (by decide +kernel)) (lines_ok (by decide +kernel))
  obtain ⟨h2, w2, g2⟩ := C128_head (s := ⟨200, [], .fail⟩) (extra := []) (reason := utf8 (c! "OK")) ⟨by decide, by decide⟩ Ex130.okReason
    (wfNames132 (by decide +kernel)) (lines_ok (by decide +kernel))
  have e1 : h1 = teLine := by
    cases w1 with
    | cons a b =>
      cases b
      exact congrArg (· :: []) (Prod.ext a.1 ((stripped_eq a.2).trans (by decide +kernel)))
  have e2 : h2 = [] := by cases w2; rfl
  subst e1 e2
  refine ⟨_, .answer (closed := false) g1 (by decide) (Or.inr ⟨by decide, Or.inr (Or.inr ⟨by decide +kernel, ⟨c! "Chunked", by decide +kernel, by decide⟩, rfl,
    C131_written (by decide +kernel)⟩)⟩) (by simp) rfl (.answer (closed := true) g2 (by decide)
    (Or.inr ⟨by decide, Or.inl ⟨by decide +kernel, by decide +kernel, rfl, rfl⟩⟩) (fun _ => rfl) rfl .nil), by decide +kernel⟩

-- the hypothesis of `C132_digest`
example : ∀ d ∈ [inChunks, untilEnd], c! "content-digest" ∉ changed d.server.extra d.answer.headers := by decide +kernel

end Ex132

end Verif
