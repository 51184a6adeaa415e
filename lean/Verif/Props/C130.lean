import Verif.Spec.Http1Answers
import Verif.Props.C128
import Verif.Props.C19
/-!
C130: signed answers with bodies, one after the other on a connection.
-/
namespace Verif
open Sfv Spec Arrival Http1

theorem resHead_nonempty {b : Bytes} {n : Nat} {h : Headers} (hb : ResHead b n h) : b ≠ [] := by
  obtain ⟨t, ls, rfl, _⟩ := hb
  simp [statusBytes]

theorem framing_unique {m : Str} {n : Nat} {h : Headers} {k k' : Option Nat} (hk : Framing m n h k) (hk' : Framing m n h k') : k = k' := by
  rcases hk with ⟨h0, rfl⟩ | ⟨h0, _, h1⟩ <;> rcases hk' with ⟨h0', rfl⟩ | ⟨h0', _, h1'⟩
  · rfl
  · exact absurd h0 h0'
  · exact absurd h0' h0
  · rcases h1 with ⟨e, rfl⟩ | ⟨t, v, e, ⟨_, _, rfl⟩, rfl⟩ <;> rcases h1' with ⟨e', rfl⟩ | ⟨t', v', e', ⟨_, _, rfl⟩, rfl⟩
    · rfl
    · rw [e] at e'; cases e'
    · rw [e] at e'; cases e'
    · rw [e] at e'
      simp only [List.cons.injEq, and_true] at e'
      rw [utf8_inj e']

theorem answers_nil {ms : List Str} {b : Bytes} {l : List Response} (h : Answers ms b l) (hb : b = []) : l = [] := by
  cases h with
  | nil => rfl
  | interim h1 => exact absurd (List.append_eq_nil_iff.1 hb).1 (resHead_nonempty h1)
  | answer h1 => exact absurd (List.append_eq_nil_iff.1 hb).1 (resHead_nonempty h1)

/-- Two readings of a body. -/
theorem bodies_eq {k : Option Nat} {x y x' y' : Bytes} (e : x ++ y = x' ++ y') (h1 : ∀ n, k = some n → x.length = n) (h1' : ∀ n, k = some n → x'.length = n)
    (h2 : k = none → y = []) (h2' : k = none → y' = []) : x = x' ∧ y = y' := by
  cases k with
  | none => rw [h2 rfl, h2' rfl, List.append_nil, List.append_nil] at e; exact ⟨e, by rw [h2 rfl, h2' rfl]⟩
  | some n => exact List.append_inj e ((h1 n rfl).trans (h1' n rfl).symm)

/-- C130: all readers of a connection that know the methods of the requests see the same answers with the same bodies. -/
theorem C130_unique {ms : List Str} {b : Bytes} {l l' : List Response} (h : Answers ms b l) (h' : Answers ms b l') : l = l' := by
  induction h generalizing l' with
  | nil => exact (answers_nil h' rfl).symm
  | @interim m ms c rest n hd l h1 h2 _ ih =>
    generalize hb : c ++ rest = b at h'
    cases h' with
    | nil => exact absurd (List.append_eq_nil_iff.1 hb).1 (resHead_nonempty h1)
    | interim h1' _ h3' =>
      obtain ⟨_, _, _, e⟩ := C128_unique h1 h1' hb
      exact ih (e ▸ h3')
    | answer h1' h2' =>
      obtain ⟨e, _⟩ := C128_unique h1 h1' hb
      have := h2.1
      omega
  | @answer m ms c body rest s k l h1 h2 h3 h4 h5 h6 _ ih =>
    generalize hb : c ++ (body ++ rest) = b at h'
    cases h' with
    | nil => exact absurd (List.append_eq_nil_iff.1 hb).1 (resHead_nonempty h1)
    | interim h1' h2' =>
      obtain ⟨e, _⟩ := C128_unique h1 h1' hb
      have := h2'.1
      omega
    | @answer _ _ c' body' rest' s' k' l' h1' h2' h3' h4' h5' h6' h7' =>
      obtain ⟨e1, e2, _, e3⟩ := C128_unique h1 h1' hb
      have ek : k = k' := framing_unique h3 (by rw [e1, e2]; exact h3')
      subst ek
      obtain ⟨e4, e5⟩ := bodies_eq e3 h4 h4' h5 h5'
      subst e4 e5
      have er : s = s' := by
        cases s; cases s'
        simp only at e1 e2 h6 h6'
        rw [e1, e2, h6, h6']
      rw [er, ih h7']

/-- C130: an answer that may have a body and has neither Transfer-Encoding nor Content-Length has all octets until the connection is closed as its body. -/
theorem C130_until {m : Str} {ms : List Str} {c body : Bytes} {n : Nat} {h : Headers} (hc : ResHead c n h) (hn : 200 ≤ n) (hm : m ≠ c! "HEAD" ∧ n ≠ 204 ∧ n ≠ 304)
    (ht : Wire.linesOf h (c! "transfer-encoding") = []) (hl : Wire.linesOf h (c! "content-length") = []) (l : List Response) :
    Answers (m :: ms) (c ++ body) l ↔ l = [⟨n, h, .data body⟩] := by
  have key : Answers (m :: ms) (c ++ (body ++ [])) [⟨n, h, .data body⟩] :=
    .answer (k := none) hc hn (Or.inr ⟨fun h => by rcases h with h | h | h; exacts [hm.1 h, hm.2.1 h, hm.2.2 h], ht, Or.inl ⟨hl, rfl⟩⟩) (by intro n h; cases h) (fun _ => rfl) rfl .nil
  rw [List.append_nil] at key
  exact ⟨fun h => C130_unique h key, fun e => e ▸ key⟩

/-- The hypotheses can be met; the octets after the head may look like another answer. -/
example (l : List Response) : Answers [c! "GET", c! "GET"] (writtenRes [] [] ⟨500, [], .data []⟩ ++ utf8 (c! "HTTP/1.1 200 OK\r\n\r\n")) l ↔
    l = [⟨500, [], .data (utf8 (c! "HTTP/1.1 200 OK\r\n\r\n"))⟩] := by
  obtain ⟨h', h1, h2⟩ := C128_head (s := ⟨500, [], .data []⟩) (reason := []) (extra := []) ⟨by decide, by decide⟩ (by simp) (by intro kv h; cases h) (by intro kv h; cases h)
  cases h1
  exact C130_until h2 (by decide) (by decide) (by decide) (by decide) l

/-- C130: what every reading has. No more answers than requests; all are final; answers to HEAD and those with 204 or 304 have no body, and others with a
Content-Length have a body of this length and no Transfer-Encoding. -/
theorem C130_shape {ms : List Str} {b : Bytes} {l : List Response} (h : Answers ms b l) : l.length ≤ ms.length ∧ ∀ x ∈ ms.zip l,
    200 ≤ x.2.status ∧ x.2.status ≤ 999 ∧ (x.1 = c! "HEAD" ∨ x.2.status = 204 ∨ x.2.status = 304 → x.2.body = .data []) ∧
    (x.1 ≠ c! "HEAD" → x.2.status ≠ 204 → x.2.status ≠ 304 → Wire.linesOf x.2.headers (c! "transfer-encoding") = [] ∧
      ∀ n, Wire.linesOf x.2.headers (c! "content-length") = [utf8 (decimal n)] → ∃ body, x.2.body = .data body ∧ body.length = n) := by
  induction h with
  | nil => simp
  | interim _ _ _ ih => exact ih
  | @answer m ms c body rest s k l h1 h2 h3 h4 h5 h6 _ ih =>
    refine ⟨by simpa using ih.1, ?_⟩
    intro x hx
    rw [List.zip_cons_cons, List.mem_cons] at hx
    rcases hx with rfl | hx
    · obtain ⟨_, _, _, hst, _⟩ := h1
      refine ⟨h2, hst.2, fun hn => ?_, fun a1 a2 a3 => ?_⟩
      · rcases h3 with ⟨_, rfl⟩ | ⟨h3, _⟩
        · have := List.length_eq_zero_iff.1 (h4 0 rfl)
          show s.body = _
          rw [h6, this]
        · exact absurd hn h3
      · rcases h3 with ⟨h3, _⟩ | ⟨h3, e0, h3'⟩
        · rcases h3 with h3 | h3 | h3
          · exact absurd h3 a1
          · exact absurd h3 a2
          · exact absurd h3 a3
        · refine ⟨e0, fun n hn => ⟨body, h6, ?_⟩⟩
          rcases h3' with ⟨e, _⟩ | ⟨t, v, e, ht, rfl⟩
          · rw [hn] at e; cases e
          · rw [h4 v rfl]
            exact (C127_length e0 hn v).1 ⟨e0, Or.inr ⟨t, e, ht⟩⟩
    · exact ih.2 x hx

/-! ### What is sent is read -/

/-- What can be signed and sent. -/
structure Http1.Reply.Good (a : Reply) : Prop where
  hints : ∀ x ∈ a.hints, Status x.2.status ∧ Interim x.2.status ∧ (∀ c ∈ x.1, ValueByte c) ∧ WfHeaders x.2.headers ∧ SendableLines x.2.headers
  status : Status a.before.status
  final : 200 ≤ a.before.status
  reason : ∀ c ∈ a.reason, ValueByte c
  wf : WfHeaders (a.extra ++ a.before.headers)
  ok : SendableLines (a.extra ++ a.before.headers)
  got : WfHeaders a.got.headers
  framing : Framing a.method a.before.status (a.extra ++ a.before.headers) a.length
  length : ∀ n, a.length = some n → a.body.length = n
  signs : setSignatures (.res a.before) a.signers (some a.got) = (a.lines, .ok ())
  labels : ∀ x ∈ a.signers, LabelStart x

/-- Only the last answer may end with the connection. -/
def Ordered (l : List Reply) : Prop := l.Pairwise fun a _ => a.length ≠ none

theorem got_wf {a : Reply} (h : a.Good) : ∀ q, some a.got = some q → WfHeaders q.headers := by
  intro q e; injection e with e; exact e ▸ h.got

theorem reply_parts {a : Reply} (h : a.Good) : ∃ sigs, a.lines = a.before.headers ++ sigs ∧ sigs.length = 2 * a.signers.length ∧ WfHeaders sigs ∧ SendableLines sigs ∧
    (∀ kv ∈ sigs, NoOuter kv.2) ∧ ∀ kv ∈ sigs, kv.1 = c! "signature-input" ∨ kv.1 = c! "signature" := by
  have hwr : WfHeaders a.before.headers := fun kv hkv => h.wf kv (by simp [hkv])
  obtain ⟨ls, h1, e⟩ := (C65_sign (m := .res a.before) hwr (got_wf h) a.signers a.lines).1 h.signs
  obtain ⟨c1, c2, c3, c4⟩ := all_added h1 h.labels
  exact ⟨ls.flatten, e, c1, c2, c3, c4, added_names h1⟩

theorem signed_lines {h sigs : Headers} (hs : ∀ kv ∈ sigs, kv.1 = c! "signature-input" ∨ kv.1 = c! "signature") {f : Str}
    (h1 : (c! "signature-input").map Char.toLower ≠ f.map Char.toLower) (h2 : (c! "signature").map Char.toLower ≠ f.map Char.toLower) :
    Wire.linesOf (h ++ sigs) f = Wire.linesOf h f := by
  have : Wire.linesOf sigs f = [] := by
    unfold Wire.linesOf
    rw [List.filter_eq_nil_iff.2, List.map_nil]
    intro kv hkv
    rcases hs kv hkv with e | e <;> rw [e] <;> simpa using by assumption
  rw [linesOf_append, this, List.append_nil]

theorem framing_signed {m : Str} {n : Nat} {h sigs : Headers} {k : Option Nat} (hs : ∀ kv ∈ sigs, kv.1 = c! "signature-input" ∨ kv.1 = c! "signature")
    (hk : Framing m n h k) : Framing m n (h ++ sigs) k := by
  unfold Framing
  rw [signed_lines hs (by decide) (by decide), signed_lines hs (by decide) (by decide)]
  exact hk

theorem framing_way {m : Str} {n : Nat} {h h' : Headers} {k : Option Nat} (hh : List.Forall₂ LineOnWay h h') (hk : Framing m n h k) : Framing m n h' k := by
  rcases hk with hk | ⟨h0, h1, h2⟩
  · exact Or.inl hk
  · have e1 : Wire.linesOf h' (c! "transfer-encoding") = [] := by
      rw [onWay_lines hh, h1]
      intro kv hkv e
      have := mem_linesOf hkv e
      rw [h1] at this; cases this
    have e2 : Wire.linesOf h' (c! "content-length") = Wire.linesOf h (c! "content-length") := by
      refine onWay_lines hh ?_
      intro kv hkv e
      have hm := mem_linesOf hkv e
      rcases h2 with ⟨e0, _⟩ | ⟨t, v, e0, ht, _⟩
      · rw [e0] at hm; cases hm
      · rw [e0, List.mem_singleton] at hm
        rw [hm]
        exact digits_outer ht.2.1
    exact Or.inr ⟨h0, e1, by rwa [e2]⟩

theorem reply_head {a : Reply} (h : a.Good) : ∃ h', ResHead (writtenRes a.reason a.extra a.signed) a.before.status h' ∧ Framing a.method a.before.status h' a.length := by
  obtain ⟨sigs, e, _, c2, c3, _, c5⟩ := reply_parts h
  have e' : a.extra ++ a.signed.headers = (a.extra ++ a.before.headers) ++ sigs := by
    show a.extra ++ a.lines = _
    rw [e, List.append_assoc]
  obtain ⟨h', w1, w2⟩ := C128_head (s := a.signed) (extra := a.extra) h.status h.reason (e' ▸ wf_append h.wf c2) (e' ▸ lines_append h.ok c3)
  exact ⟨h', w2, framing_way w1 (e' ▸ framing_signed c5 h.framing)⟩

theorem hint_head {x : Bytes × Response} (h : Status x.2.status ∧ Interim x.2.status ∧ (∀ c ∈ x.1, ValueByte c) ∧ WfHeaders x.2.headers ∧ SendableLines x.2.headers) :
    ∃ h', ResHead (writtenRes x.1 [] x.2) x.2.status h' := by
  obtain ⟨h', _, w2⟩ := C128_head (s := x.2) (extra := []) h.1 h.2.2.1 h.2.2.2.1 h.2.2.2.2
  exact ⟨h', w2⟩

/-- Answers before the answer are skipped. -/
theorem skip_hints {l : List (Bytes × Response)} (hl : ∀ x ∈ l, Status x.2.status ∧ Interim x.2.status ∧ (∀ c ∈ x.1, ValueByte c) ∧ WfHeaders x.2.headers ∧ SendableLines x.2.headers)
    {m : Str} {ms : List Str} {b : Bytes} {rs : List Response} (h : Answers (m :: ms) ((l.flatMap fun x => writtenRes x.1 [] x.2) ++ b) rs) : Answers (m :: ms) b rs := by
  induction l with
  | nil => exact h
  | cons x l ih =>
    obtain ⟨h', hx⟩ := hint_head (hl x (by simp))
    rw [List.flatMap_cons, List.append_assoc] at h
    generalize hb : writtenRes x.1 [] x.2 ++ ((l.flatMap fun x => writtenRes x.1 [] x.2) ++ b) = b' at h
    cases h with
    | nil => exact absurd (List.append_eq_nil_iff.1 hb).1 (resHead_nonempty hx)
    | interim h1 _ h3 =>
      obtain ⟨_, _, _, e⟩ := C128_unique hx h1 hb
      exact ih (fun y hy => hl y (by simp [hy])) (e ▸ h3)
    | answer h1 h2 =>
      obtain ⟨e, _⟩ := C128_unique hx h1 hb
      have := (hl x (by simp)).2.1.1
      omega

theorem put_hints {l : List (Bytes × Response)} (hl : ∀ x ∈ l, Status x.2.status ∧ Interim x.2.status ∧ (∀ c ∈ x.1, ValueByte c) ∧ WfHeaders x.2.headers ∧ SendableLines x.2.headers)
    {m : Str} {ms : List Str} {b : Bytes} {rs : List Response} (h : Answers (m :: ms) b rs) : Answers (m :: ms) ((l.flatMap fun x => writtenRes x.1 [] x.2) ++ b) rs := by
  induction l with
  | nil => exact h
  | cons x l ih =>
    obtain ⟨h', hx⟩ := hint_head (hl x (by simp))
    rw [List.flatMap_cons, List.append_assoc]
    exact .interim hx (hl x (by simp)).2.1 (ih (fun y hy => hl y (by simp [hy])))

/-- An answer as it is read: its head, and the body that was sent. -/
def GotAs (a : Reply) (s' : Response) : Prop := ReadsRes (writtenRes a.reason a.extra a.signed ++ a.body) s' ∧ s'.body = .data a.body

theorem answers_read {l : List Reply} (hl : ∀ a ∈ l, a.Good) (ho : Ordered l) {rs : List Response} (h : Answers (l.map Reply.method) (l.flatMap Reply.octets) rs) :
    List.Forall₂ GotAs l rs := by
  induction l generalizing rs with
  | nil => rw [answers_nil h rfl]; exact .nil
  | cons a l ih =>
    have hg := hl a (by simp)
    obtain ⟨o1, o2⟩ := List.pairwise_cons.1 ho
    rw [List.flatMap_cons, Reply.octets, List.append_assoc, List.map_cons] at h
    replace h := skip_hints hg.hints h
    obtain ⟨h', hx, hk⟩ := reply_head hg
    rw [List.append_assoc] at h
    generalize hb : writtenRes a.reason a.extra a.signed ++ (a.body ++ l.flatMap Reply.octets) = b at h
    cases h with
    | nil => exact absurd (List.append_eq_nil_iff.1 hb).1 (resHead_nonempty hx)
    | interim h1 h2 =>
      obtain ⟨e, _⟩ := C128_unique hx h1 hb
      have h3 := hg.final
      have h4 := h2.1
      omega
    | @answer _ _ c body rest s k rs h1 h2 h3 h4 h5 h6 h7 =>
      obtain ⟨e1, e2, e3, e4⟩ := C128_unique hx h1 hb
      have ek : a.length = k := framing_unique hk (by rw [e1, e2]; exact h3)
      subst ek
      have hlast : a.length = none → l.flatMap Reply.octets = [] := by
        intro hn
        cases l with
        | nil => rfl
        | cons y l => exact absurd hn (o1 y (by simp))
      obtain ⟨e5, e6⟩ := bodies_eq e4 hg.length h4 hlast h5
      refine .cons ⟨⟨c, body, h1, by rw [e3, e5]⟩, by rw [h6, e5]⟩ (ih (fun x hx => hl x (by simp [hx])) o2 ?_)
      rw [e6]; exact h7

/-- C130: signing keeps the borders between answers. Whatever the signers add, every client reads as many answers as were sent, each with its own status, body and
lines, and after these the lines of its signers; answers such as `103` before them change nothing. -/
theorem C130_stream {l : List Reply} (hl : ∀ a ∈ l, a.Good) (ho : Ordered l) {rs : List Response} (h : Answers (l.map Reply.method) (l.flatMap Reply.octets) rs) :
    List.Forall₂ (fun a s' => s'.status = a.before.status ∧ s'.body = .data a.body ∧ ∃ front sigs, a.lines = a.before.headers ++ sigs ∧ s'.headers = front ++ sigs ∧
      sigs.length = 2 * a.signers.length ∧ List.Forall₂ LineOnWay (a.extra ++ a.before.headers) front) l rs := by
  replace h := answers_read hl ho h
  clear ho
  induction h with
  | nil => exact .nil
  | @cons a s' l rs h1 _ ih =>
    refine .cons ?_ (ih (fun x hx => hl x (by simp [hx])))
    have hg := hl a (by simp)
    obtain ⟨e1, e2⟩ := C128_no_injection (got_wf hg) hg.status hg.reason hg.wf hg.ok hg.signs hg.labels h1.1
    exact ⟨e1, h1.2, e2⟩

/-- C130: and there is such a reading. -/
theorem C130_readable {l : List Reply} (hl : ∀ a ∈ l, a.Good) (ho : Ordered l) : ∃ rs, Answers (l.map Reply.method) (l.flatMap Reply.octets) rs := by
  induction l with
  | nil => exact ⟨[], .nil⟩
  | cons a l ih =>
    obtain ⟨o1, o2⟩ := List.pairwise_cons.1 ho
    obtain ⟨rs, h⟩ := ih (fun x hx => hl x (by simp [hx])) o2
    have hg := hl a (by simp)
    obtain ⟨h', hx, hk⟩ := reply_head hg
    have hlast : a.length = none → l.flatMap Reply.octets = [] := by
      intro hn
      cases l with
      | nil => rfl
      | cons y l => exact absurd hn (o1 y (by simp))
    have := Answers.answer (s := ⟨a.before.status, h', .data a.body⟩) hx hg.final hk hg.length hlast rfl h
    rw [List.flatMap_cons, Reply.octets, List.append_assoc, List.append_assoc]
    exact ⟨_, put_hints hg.hints this⟩

/-- Conditions under which the client verifies an answer as the server does: `asked` is the request as the client has it. -/
structure Http1.Reply.Kept (a : Reply) (there : List Str) (asked : Request) : Prop where
  arrives : Arrives there asked a.got
  absolute : Absolute asked.uri
  method : asked.method ≠ c! "CONNECT"
  wf : WfHeaders asked.headers
  untouched : Untouched (changed a.extra a.before.headers)
  covered : ∀ k, Wire.Carries a.lines k → ∀ kv ∈ k, ∀ i ∈ kv.2.params.covered, BothWays there (changed a.extra a.before.headers) i

/-- C130: the client verifies each answer of the connection with the request that it sent at this place, and gets the result that the server gets with the request
that it read, whatever stands before and after. -/
theorem C130_verify {l : List Reply} (hl : ∀ a ∈ l, a.Good) (ho : Ordered l) {rs : List Response} (h : Answers (l.map Reply.method) (l.flatMap Reply.octets) rs) :
    List.Forall₂ (fun a s' => ∀ there asked, a.Kept there asked → ∀ now keys,
      verifySignatures now (.res s') keys (some asked) = verifySignatures now (.res a.signed) keys (some a.got) ∧
      ∀ k id, verifySignature now (.res s') k id (some asked) = verifySignature now (.res a.signed) k id (some a.got)) l rs := by
  replace h := answers_read hl ho h
  clear ho
  induction h with
  | nil => exact .nil
  | @cons a s' l rs h1 _ ih =>
    refine .cons (fun there asked hk now keys => ?_) (ih (fun x hx => hl x (by simp [hx])))
    have hg := hl a (by simp)
    exact C128_deliver hk.arrives hk.absolute hk.method hk.wf hg.got hg.status hg.reason hg.wf hg.ok hg.signs hg.labels hk.untouched h1.1 hk.covered now keys

theorem reply_digest {a : Reply} (hg : a.Good) {s' : Response} (h : GotAs a s') (hc : c! "content-digest" ∉ changed a.extra a.before.headers) :
    extractDigest s'.headers = extractDigest a.before.headers := by
  obtain ⟨sigs, e, _, c2, c3, c4, c5⟩ := reply_parts hg
  have e' : a.extra ++ a.signed.headers = (a.extra ++ a.before.headers) ++ sigs := by
    show a.extra ++ a.lines = _
    rw [e, List.append_assoc]
  have hw1 : WfHeaders (a.extra ++ a.signed.headers) := e' ▸ wf_append hg.wf c2
  obtain ⟨_, a3⟩ := readsRes_eq (s := a.signed) (extra := a.extra) hg.status hg.reason hw1 (e' ▸ lines_append hg.ok c3) h.1
  have hch : changed a.extra a.signed.headers = changed a.extra a.before.headers := by
    show changed a.extra a.lines = _
    rw [e]; exact changed_signed c4
  refine extractDigest_lines (fun kv hkv => hg.wf kv (List.mem_append_right _ hkv)) (onWay_wf a3 hw1) ?_
  rw [onWay_clear hw1 a3 (hch.symm ▸ hc)]
  show Wire.linesOf a.lines _ = _
  rw [e]
  exact signed_lines c5 (by decide) (by decide)

/-- C130: the check of the body gives the result it has at the server, for the octets that were sent. -/
theorem C130_digest {l : List Reply} (hl : ∀ a ∈ l, a.Good) (ho : Ordered l) {rs : List Response} (h : Answers (l.map Reply.method) (l.flatMap Reply.octets) rs) :
    List.Forall₂ (fun a s' => c! "content-digest" ∉ changed a.extra a.before.headers →
      ((∃ x, s'.verifyContentDigest = .ok x) ↔ ∃ x, ({ a.before with body := .data a.body } : Response).verifyContentDigest = .ok x) ∧
      ∀ e, s'.verifyContentDigest = .err e ↔ ({ a.before with body := .data a.body } : Response).verifyContentDigest = .err e) l rs := by
  replace h := answers_read hl ho h
  clear ho
  induction h with
  | nil => exact .nil
  | @cons a s' l rs h1 _ ih =>
    refine .cons (fun hc => ?_) (ih (fun x hx => hl x (by simp [hx])))
    have e := reply_digest (hl a (by simp)) h1 hc
    unfold Response.verifyContentDigest verifyDigest
    rw [e, h1.2]
    cases hx : extractDigest a.before.headers with
    | ok te =>
      by_cases hd : isEqualDigest (deriveDigest a.body te.1) te.2 = true
      · simp [bind, Res.bind, hd]
      · simp [bind, Res.bind, hd]
    | err e => simp [bind, Res.bind]
    | panic => simp [bind, Res.bind]

/-- C130: an answer whose body is not sent (to HEAD, or `304`). When the server lets the library compute Content-Digest over the body that it does not send, the
client rejects the answer, unless the digest is that of no octets. RFC 9530, appendix B.2, wants the digest of no octets. -/
theorem C130_head {l : List Reply} (hl : ∀ a ∈ l, a.Good) (ho : Ordered l) {rs : List Response} (h : Answers (l.map Reply.method) (l.flatMap Reply.octets) rs) :
    List.Forall₂ (fun a s' => c! "content-digest" ∉ changed a.extra a.before.headers → NoBody a.method a.before.status →
      ∀ (plain : Response) (t : DigestType) (b : Bytes), plain.body = .data b → plain.setContentDigest t = .ok a.before →
      (hashOf t b = hashOf t [] → ∃ x, s'.verifyContentDigest = .ok x) ∧
      (hashOf t b ≠ hashOf t [] → s'.verifyContentDigest = .err .invalidContentDigest)) l rs := by
  have hd := C130_digest hl ho h
  clear h ho
  induction hd with
  | nil => exact .nil
  | @cons a s' l rs h1 _ ih =>
    refine .cons (fun hc hn plain t b hb hset => ?_) (ih (fun x hx => hl x (by simp [hx])))
    have hg := hl a (by simp)
    have hlen : a.body = [] := by
      rcases hg.framing with ⟨_, e⟩ | ⟨e, _⟩
      · exact List.length_eq_zero_iff.1 (hg.length 0 e)
      · exact absurd hn e
    obtain ⟨g1, g2⟩ := h1 hc
    obtain ⟨r'', i1, _, i3, _, v, i4, i5, _⟩ := C21_response_set plain t b hb
    rw [hset] at i1; injection i1 with i1; subst i1
    rw [hlen] at g1 g2
    constructor
    · intro e
      refine g1.2 ⟨_, (C20_response_verify_exact _ _).2 ⟨rfl, [], t, v, rfl, by rw [i4]; rfl, e ▸ i5⟩⟩
    · intro e
      refine (g2 _).2 ?_
      unfold Response.verifyContentDigest
      rw [(((C20_errors a.before.headers (.data [])).2 v (by rw [i4]; rfl)).2.2 t _ i5).2 [] rfl e]
      rfl

/-! ### Examples -/

/-- A Content-Length in decimal. -/
theorem framing_decimal {m : Str} {k : Nat} {h : Headers} (hb : ¬ NoBody m k) (ht : Wire.linesOf h (c! "transfer-encoding") = []) {n : Nat}
    (hl : Wire.linesOf h (c! "content-length") = [utf8 (decimal n)]) : Framing m k h (some n) := by
  obtain ⟨_, ⟨e, _⟩ | ⟨t, e, hn⟩⟩ := (C127_length ht hl n).2 rfl
  · rw [hl] at e; cases e
  · exact Or.inr ⟨hb, ht, Or.inr ⟨t, n, e, hn, rfl⟩⟩

namespace Ex130
open Ex124 Ex126 Ex127

theorem wfNames130 {h : Headers} (hn : ∀ kv ∈ h, kv.1 ∈ [c! "content-length", c! "date", c! "link", c! "content-digest", c! "signature", c! "signature-input"]) : WfHeaders h := by
  intro kv hkv
  have := hn kv hkv
  simp only [List.mem_cons, List.not_mem_nil, or_false] at this
  rcases this with e | e | e | e | e | e <;> rw [e] <;> exact ⟨by decide, by decide, by decide⟩

def statusSigner : Signer := (exParams [⟨.derived .status, []⟩], toySign 9, none)

/-- An answer whose status is signed. -/
def reply (method : Str) (hints : List (Bytes × Response)) (h : Headers) (body : Bytes) (k : Option Nat) : Reply :=
  let s : Response := ⟨200, h, .data body⟩
  ⟨method, sent, hints, utf8 (c! "OK"), [(c! "date", utf8 (c! "Wed"))], s, body, k, [statusSigner], (setSignatures (.res s) [statusSigner] (some sent)).1⟩

/-- `103` with a line. -/
def hint : Bytes × Response := ([], ⟨103, [(c! "link", utf8 (c! "</a>"))], .fail⟩)

/-- The answer to GET: four octets, or until the end. -/
def sized : Reply := reply (c! "GET") [hint, hint] [(c! "content-length", utf8 (decimal 4))] (utf8 (c! "body")) (some 4)
def last : Reply := reply (c! "GET") [] [] (utf8 (c! "HTTP/1.1 500 ")) none

/-- The answer to HEAD, with a length. -/
def short (n : Nat) : Reply := reply (c! "HEAD") [] [(c! "content-length", utf8 (decimal n))] [] (some 0)

theorem okReason : ∀ c ∈ utf8 (c! "OK"), ValueByte c := by decide +kernel

theorem startStatus : ∀ x ∈ [statusSigner], LabelStart x := by
  intro x hx; rw [List.mem_singleton.1 hx]; intro c hc; cases hc; decide

theorem hintOk : ∀ x ∈ [hint, hint], Status x.2.status ∧ Interim x.2.status ∧ (∀ c ∈ x.1, ValueByte c) ∧ WfHeaders x.2.headers ∧ SendableLines x.2.headers := by
  intro x hx
  have : x = hint := by simpa using hx
  rw [this]
  exact ⟨⟨by decide, by decide⟩, ⟨by decide, by decide⟩, by simp [hint], wfNames130 (by decide +kernel), lines_ok (by decide +kernel)⟩

theorem sentWf : WfHeaders sent.headers := wfNames (by decide +kernel)

theorem sizedGood : sized.Good where
  hints := hintOk
  status := ⟨by decide, by decide⟩
  final := by decide
  reason := okReason
  wf := wfNames130 (by decide +kernel)
  ok := lines_ok (by decide +kernel)
  got := sentWf
  framing := framing_decimal (by decide) (by decide +kernel) (by decide +kernel)
  length := by intro n h; injection h with h
  signs := by decide +kernel
  labels := startStatus

theorem lastGood : last.Good where
  hints := by simp [last, reply]
  status := ⟨by decide, by decide⟩
  final := by decide
  reason := okReason
  wf := wfNames130 (by decide +kernel)
  ok := lines_ok (by decide +kernel)
  got := sentWf
  framing := Or.inr ⟨by decide, by decide +kernel, Or.inl ⟨by decide +kernel, rfl⟩⟩
  length := by simp [last, reply]
  signs := by decide +kernel
  labels := startStatus

/-- Octets of the answer that follows. -/
def following : Nat := sized.octets.length

theorem shortGood : (short following).Good where
  hints := by simp [short, reply]
  status := ⟨by decide, by decide⟩
  final := by decide
  reason := okReason
  wf := wfNames130 (by decide +kernel)
  ok := lines_ok (by decide +kernel)
  got := sentWf
  framing := Or.inl ⟨by decide, rfl⟩
  length := by intro n h; injection h with h
  signs := by decide +kernel
  labels := startStatus

/-- The hypotheses of the theorems: three answers, the first to HEAD, the second after two others, the third until the end. The text in its body is no answer. -/
example : ∃ rs, Answers [c! "HEAD", c! "GET", c! "GET"] ([short following, sized, last].flatMap Reply.octets) rs ∧
    rs.map Response.body = [.data [], .data (utf8 (c! "body")), .data (utf8 (c! "HTTP/1.1 500 "))] := by
  have hl : ∀ a ∈ [short following, sized, last], a.Good := by simpa using ⟨shortGood, sizedGood, lastGood⟩
  have ho : Ordered [short following, sized, last] := by simp [Ordered, short, sized, reply]
  obtain ⟨rs, h⟩ := C130_readable hl ho
  refine ⟨rs, h, ?_⟩
  have := C130_stream hl ho h
  cases this with
  | cons a b =>
    cases b with
    | cons c d =>
      cases d with
      | cons e f =>
        cases f
        simp only [List.map_cons, List.map_nil, a.2.1, c.2.1, e.2.1]
        rfl

/-- An answer that covers parts of the request, from the exchange of C128. -/
def bound : Reply := ⟨c! "GET", Ex128.gotRequest, [hint, hint], utf8 (c! "Not Found"), [], exRes, utf8 (c! "body"), none, [(exParams Ex128.answerIds, toySign 9, none)],
  Ex128.answer.headers⟩

theorem gotWf : WfHeaders Ex128.gotRequest.headers := wfNames (by decide +kernel)

set_option maxRecDepth 20000 in
theorem boundSigns : setSignatures (.res exRes) [(exParams Ex128.answerIds, toySign 9, none)] (some Ex128.gotRequest) = (Ex128.answer.headers, .ok ()) :=
  Prod.ext rfl (by decide +kernel)

set_option maxRecDepth 20000 in
theorem boundGood : bound.Good where
  hints := hintOk
  status := ⟨by decide, by decide⟩
  final := by decide
  reason := by decide +kernel
  wf := Ex128.answerSeal.wf
  ok := Ex128.answerSeal.ok
  got := gotWf
  framing := Or.inr ⟨by decide, by decide +kernel, Or.inl ⟨by decide +kernel, rfl⟩⟩
  length := by simp [bound]
  signs := boundSigns
  labels := legal_start Ex128.answerSeal.label

set_option maxRecDepth 20000 in
theorem boundKept : bound.Kept (changed hostLine sent.headers) Ex128.sentSigned where
  arrives := by
    have h := C126_arrives (sendable _) (wfNames (by decide +kernel)) (lines_ok (by decide +kernel)) Ex128.gotReads
    have e : changed hostLine Ex128.sentSigned.headers = changed hostLine sent.headers := by decide +kernel
    exact e ▸ h
  absolute := absolute
  method := by decide
  wf := wfNames (by decide +kernel)
  untouched := seal_untouched Ex128.answerSeal
  covered := by
    intro k hk kv hkv i hi
    obtain ⟨f1, f2⟩ := seal_fresh Ex128.answerSeal
    rw [seal_carries (m := .res exRes) (fun kv hkv => Ex128.answerSeal.wf kv (List.mem_append_right [] hkv)) (got_wf boundGood) f1 f2 Ex128.answer_safe Ex128.answer_notSelf Ex128.answerSeal.label boundSigns
      hk kv hkv] at hi
    exact Ex128.bothWays i hi

set_option maxRecDepth 20000 in
/-- The hypotheses of `C130_verify`: after another answer, the client accepts this one for the request that it sent. -/
example : ∃ x y, Answers [c! "GET", c! "GET"] ([sized, bound].flatMap Reply.octets) [x, y] ∧
    y.verifySignature 100 (toyVerify 9) none (some Ex128.sentSigned) = .ok (c! "sig") := by
  have hl : ∀ a ∈ [sized, bound], a.Good := by simpa using ⟨sizedGood, boundGood⟩
  have ho : Ordered [sized, bound] := by simp [Ordered, sized, reply]
  obtain ⟨rs, h⟩ := C130_readable hl ho
  have hv := C130_verify hl ho h
  cases hv with
  | @cons _ x _ _ _ b =>
    cases b with
    | @cons _ y _ _ c d =>
      cases d
      refine ⟨x, y, h, ((c _ _ boundKept 100 []).2 (toyVerify 9) none).trans ?_⟩
      decide +kernel

/-- A page, and the answer to HEAD with the digest that the library computes for it. -/
def page : Response := ⟨200, [], .data (utf8 (c! "body"))⟩
def paged : Response := ⟨200, [(c! "content-digest", utf8 (digestText .sha256 (utf8 (c! "body"))))], .data (utf8 (c! "body"))⟩
def headed : Reply := ⟨c! "HEAD", sent, [], utf8 (c! "OK"), [], paged, [], some 0, [statusSigner], (setSignatures (.res paged) [statusSigner] (some sent)).1⟩

theorem headedGood : headed.Good where
  hints := by simp [headed]
  status := ⟨by decide, by decide⟩
  final := by decide
  reason := okReason
  wf := wfNames130 (by decide +kernel)
  ok := lines_ok (by decide +kernel)
  got := sentWf
  framing := Or.inl ⟨by decide, rfl⟩
  length := by intro n h; injection h with h
  signs := Prod.ext rfl (by decide +kernel)
  labels := startStatus

/-- The hypotheses of `C130_head`: the client rejects the answer to HEAD, although the server finds its digest right. -/
example : ∃ s', Answers [c! "HEAD"] headed.octets [s'] ∧ s'.verifyContentDigest = .err .invalidContentDigest ∧ page.setContentDigest .sha256 = .ok paged ∧
    paged.verifyContentDigest = .ok paged := by
  have hl : ∀ a ∈ [headed], a.Good := by simpa using headedGood
  have ho : Ordered [headed] := by simp [Ordered]
  obtain ⟨rs, h⟩ := C130_readable hl ho
  have hset : page.setContentDigest .sha256 = .ok paged := by decide +kernel
  have hv := C130_head hl ho h
  cases hv with
  | @cons _ x _ _ a b =>
    cases b
    have h : Answers [headed.method] headed.octets [x] := by simpa using h
    exact ⟨x, h, (a (by decide +kernel) (Or.inl rfl) page .sha256 _ rfl hset).2 (by decide +kernel), hset, by decide +kernel⟩

end Ex130

open Ex124 Ex126 Ex130 in
/-- C130: the methods of the requests are needed. A client that takes the request HEAD for GET reads the same octets as one answer with the next one as its body,
and the signature of the first one is valid for it. -/
theorem C130_confused : ∃ (b : Bytes) (x y z : Response), Answers [c! "HEAD", c! "GET"] b [x, y] ∧ Answers [c! "GET", c! "GET"] b [z] ∧ x.body = .data [] ∧
    z.body = .data sized.octets ∧ (∀ rf, verifySignature 0 (.res z) (toyVerify 9) none rf = verifySignature 0 (.res x) (toyVerify 9) none rf) ∧
    z.verifySignature 0 (toyVerify 9) none (some sent) = .ok (c! "sig") := by
  have hsame : ∀ kv ∈ (short following).extra ++ (short following).signed.headers, NoOuter kv.2 := by decide +kernel
  have hw : WfHeaders ((short following).extra ++ (short following).signed.headers) := wfNames130 (by decide +kernel)
  obtain ⟨h', w1, w2⟩ := C128_head (s := (short following).signed) (extra := (short following).extra) (reason := utf8 (c! "OK")) ⟨by decide, by decide⟩ okReason hw
    (lines_ok (by decide +kernel))
  rw [onWay_same w1 hsame] at w2
  have hl : ∀ a ∈ [sized], a.Good := by simpa using sizedGood
  obtain ⟨rs, h⟩ := C130_readable hl (by simp [Ordered])
  have hs := C130_stream hl (by simp [Ordered]) h
  cases hs with
  | @cons _ y _ _ a b =>
    cases b
    have h : Answers [sized.method] sized.octets [y] := by simpa using h
    refine ⟨_, ⟨200, (short following).extra ++ (short following).signed.headers, .data []⟩, y, ⟨200, (short following).extra ++ (short following).signed.headers, .data sized.octets⟩,
      .answer (k := some 0) (body := []) w2 (by decide) (Or.inl ⟨by decide, rfl⟩) (by simp) (by simp) rfl h, ?_, rfl, rfl, fun rf => ?_, ?_⟩
    · have := Answers.answer (m := c! "GET") (ms := [c! "GET"]) (k := some following) (body := sized.octets) (rest := [])
        (s := ⟨200, (short following).extra ++ (short following).signed.headers, .data sized.octets⟩) w2 (by decide)
        (framing_decimal (by decide) (by decide +kernel) (by decide +kernel)) (by intro n h; injection h) (by simp) rfl .nil
      simpa using this
    · rfl
    · decide +kernel

end Verif
