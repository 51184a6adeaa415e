import Verif.Spec.Http2Streams
import Verif.Props.C129
import Verif.Props.C60
import Verif.Props.C09
import Verif.Props.C19
/-!
C135: many signed exchanges at once on a connection of HTTP/2.
-/
namespace Verif
open Sfv Spec Arrival Http1 Http2

/-! ### Streams -/

/-- C135: on each stream comes what was sent on it, however the streams were mixed, and nothing on other streams. -/
theorem C135_streams {l : List (Nat × List (Piece × Bool))} {c : List Event} (h : Mixed l c) (hn : (l.map Prod.fst).Nodup) :
    (∀ x ∈ l, on x.1 c = x.2) ∧ ∀ n ∉ l.map Prod.fst, on n c = [] := by
  induction h with
  | nil h => exact ⟨fun x hx => (h x hx).symm, fun _ _ => rfl⟩
  | @next l l' n q p c _ ih =>
    have e : (l ++ (n, p) :: l').map Prod.fst = (l ++ (n, q :: p) :: l').map Prod.fst := by simp
    obtain ⟨i1, i2⟩ := ih (by rw [e]; exact hn)
    have other : ∀ m, m ≠ n → on m (⟨n, q.1, q.2⟩ :: c) = on m c := by
      intro m hm
      have : ¬ n = m := fun e => hm e.symm
      simp [on, this]
    have nd : n ∉ l.map Prod.fst ∧ n ∉ l'.map Prod.fst := by
      rw [List.map_append, List.map_cons, List.nodup_append] at hn
      obtain ⟨_, h2, h3⟩ := hn
      exact ⟨fun h => h3 n h n (by simp) rfl, (List.nodup_cons.1 h2).1⟩
    refine ⟨fun x hx => ?_, fun m hm => ?_⟩
    · rw [List.mem_append, List.mem_cons] at hx
      rcases hx with hx | rfl | hx
      · rw [other x.1 (fun e => nd.1 (e ▸ List.mem_map_of_mem hx))]
        exact i1 x (by simp [hx])
      · have := i1 (n, p) (by simp)
        simp only [on] at this ⊢
        simp only [List.filter_cons, decide_true, if_true, List.map_cons, this]
      · rw [other x.1 (fun e => nd.2 (e ▸ List.mem_map_of_mem hx))]
        exact i1 x (by simp [hx])
    · have hmn : m ≠ n := by
        rintro rfl
        exact hm (by simp)
      rw [other m hmn]
      exact i2 m (by rw [e]; exact hm)

/-- The streams one after the other are one way to mix them. -/
theorem mixed_one {l : List (Nat × List (Piece × Bool))} : ∃ c, Mixed l c := by
  have key : ∀ k (l : List (Nat × List (Piece × Bool))), (l.map fun x => x.2.length).sum = k → ∃ c, Mixed l c := by
    intro k
    induction k with
    | zero =>
      intro l hl
      refine ⟨[], .nil fun x hx => ?_⟩
      obtain ⟨a, b, rfl⟩ := List.append_of_mem hx
      simp only [List.map_append, List.map_cons, List.sum_append, List.sum_cons] at hl
      exact List.length_eq_zero_iff.1 (by omega)
    | succ k ih =>
      intro l hl
      by_cases h : ∃ x ∈ l, x.2 ≠ []
      · obtain ⟨⟨n, p⟩, hx, hp⟩ := h
        obtain ⟨a, b, rfl⟩ := List.append_of_mem hx
        cases p with
        | nil => exact absurd rfl hp
        | cons q p =>
          obtain ⟨c, hc⟩ := ih (a ++ (n, p) :: b) (by
            simp only [List.map_append, List.map_cons, List.sum_append, List.sum_cons, List.length_cons] at hl ⊢
            omega)
          exact ⟨_, .next hc⟩
      · refine ⟨[], .nil fun x hx => ?_⟩
        by_contra hne
        exact h ⟨x, hx, hne⟩
  exact key _ l rfl

theorem response_eq {s s' : Response} (h1 : s.status = s'.status) (h2 : s.headers = s'.headers) (h3 : s.body = s'.body) : s = s' := by
  cases s; cases s'
  simp_all

theorem rest_unique {e : Bool} {p : List (Piece × Bool)} {b b' : Bytes} (h : Rest e p b) (h' : Rest e p b') : b = b' := by
  induction h generalizing b' with
  | ended => cases h'; rfl
  | data _ ih => cases h' with | data h' => rw [ih h']
  | trailers => cases h'; rfl

/-- C135: a stream is read as one request, and as one answer. -/
theorem C135_unique {p : List (Piece × Bool)} : (∀ r r', Asked p r → Asked p r' → r = r') ∧ ∀ m s s', Told m p s → Told m p s' → s = s' := by
  constructor
  · rintro r r' ⟨fs, e, q, body, rfl, h1, h2, _, h4⟩ ⟨fs', e', q', body', he, h1', h2', _, h4'⟩
    simp only [List.cons.injEq, Prod.mk.injEq, Piece.fields.injEq] at he
    obtain ⟨⟨rfl, rfl⟩, rfl⟩ := he
    obtain ⟨e1, e2, e3⟩ := C129_unique h1 h1'
    have := rest_unique h2 h2'
    cases r; cases r'
    simp_all
  · intro m s s' h h'
    induction h generalizing s' with
    | interim h1 h2 _ ih =>
      cases h' with
      | interim h1' h2' h3' => exact ih s' h3'
      | final h1' h2' _ _ _ =>
        obtain ⟨e1, _⟩ := C129_unique_response h1 h1'
        have := h2.1
        omega
    | final h1 h2 h3 h4 h5 =>
      cases h' with
      | interim h1' h2' _ =>
        obtain ⟨e1, _⟩ := C129_unique_response h1 h1'
        have := h2'.1
        omega
      | final h1' h2' h3' h4' h5' =>
        obtain ⟨e1, e2⟩ := C129_unique_response h1 h1'
        have := rest_unique h3 h3'
        subst this
        exact response_eq e1 e2 (h5.trans h5'.symm)

/-- The octets of a piece of a body. -/
def pieceOctets : Piece × Bool → Bytes
  | (.data d, _) => d
  | (.fields _, _) => []

theorem rest_shape {e : Bool} {q : List (Piece × Bool)} {body : Bytes} (h : Rest e q body) :
    body = q.flatMap pieceOctets ∧ (e :: q.map Prod.snd) = List.replicate q.length false ++ [true] ∧ ∀ h e, (Piece.fields h, e) ∈ q → e = true ∧ ∀ kv ∈ h, Line kv := by
  induction h with
  | ended => exact ⟨rfl, rfl, by simp⟩
  | @data d e p b _ ih =>
    obtain ⟨i1, i2, i3⟩ := ih
    refine ⟨by rw [i1]; rfl, by rw [List.map_cons, i2]; rfl, fun h e' hm => ?_⟩
    rcases List.mem_cons.1 hm with hm | hm
    · cases hm
    · exact i3 h e' hm
  | @trailers h hl =>
    refine ⟨rfl, rfl, fun h' e' hm => ?_⟩
    rw [List.mem_singleton] at hm
    injection hm with h1 h2
    injection h1 with h1
    subst h1
    exact ⟨h2, hl⟩

/-- C135: a stream that is read as a request begins with field lines, ends with its last piece and nowhere before, has further field lines only there, and its octets in their
order are the body, whose length is the one in the lines. -/
theorem C135_shape {p : List (Piece × Bool)} {r : Request} (h : Asked p r) : r.body = .data (p.flatMap pieceOctets) ∧
    p.map Prod.snd = List.replicate (p.length - 1) false ++ [true] ∧ (∃ fs, (p.map Prod.fst).head? = some (.fields fs)) ∧
    (∀ h e, (Piece.fields h, e) ∈ p.tail → e = true ∧ ∀ kv ∈ h, Line kv) ∧
    ∀ v ∈ Wire.linesOf r.headers (c! "content-length"), ∃ t, v = utf8 t ∧ Number t (p.flatMap pieceOctets).length := by
  obtain ⟨fs, e, q, body, rfl, _, h2, h3, h4⟩ := h
  obtain ⟨g1, g2, g3⟩ := rest_shape h2
  have : ((Piece.fields fs, e) :: q).flatMap pieceOctets = body := by rw [g1]; rfl
  rw [this]
  exact ⟨h4, g2, ⟨fs, rfl⟩, g3, h3⟩

/-- C135: and so does one that is read as an answer, after lists of field lines with a status below 200. -/
theorem C135_shape_answer {m : Str} {p : List (Piece × Bool)} {s : Response} (h : Told m p s) : 200 ≤ s.status ∧ s.body = .data (p.flatMap pieceOctets) ∧
    p.map Prod.snd = List.replicate (p.length - 1) false ++ [true] ∧
    (∃ (hints : List Headers) (fs : Headers) (e : Bool) (q : List (Piece × Bool)), p = hints.map (fun h => (Piece.fields h, false)) ++ (.fields fs, e) :: q ∧ ResFields fs s ∧
      (∀ h ∈ hints, ∃ s0, ResFields h s0 ∧ s0.status < 200 ∧ s0.status ≠ 101) ∧ ∀ h e, (Piece.fields h, e) ∈ q → e = true ∧ ∀ kv ∈ h, Line kv) ∧
    (NoBody m s.status → p.flatMap pieceOctets = []) ∧
    (¬ NoBody m s.status → ∀ v ∈ Wire.linesOf s.headers (c! "content-length"), ∃ t, v = utf8 t ∧ Number t (p.flatMap pieceOctets).length) := by
  induction h with
  | @interim fs s0 p s h1 h2 _ ih =>
    obtain ⟨i0, i1, i2, ⟨hints, fs', e, q, i3, i4, i5, i6⟩, i7, i8⟩ := ih
    have ho : ((Piece.fields fs, false) :: p).flatMap pieceOctets = p.flatMap pieceOctets := rfl
    rw [ho]
    refine ⟨i0, i1, ?_, ⟨fs :: hints, fs', e, q, by rw [i3]; rfl, i4, ?_, i6⟩, i7, i8⟩
    · have hp : p.length = p.length - 1 + 1 := by
        have : p.length = hints.length + (q.length + 1) := by rw [i3]; simp
        omega
      rw [List.map_cons, i2, List.length_cons, Nat.add_sub_cancel]
      conv_rhs => rw [hp, List.replicate_succ]
      rfl
    · intro h hm
      rcases List.mem_cons.1 hm with rfl | hm
      · exact ⟨s0, h1, h2.1, h2.2⟩
      · exact i5 h hm
  | @final fs e q body s h1 h2 h3 h4 h5 =>
    obtain ⟨g1, g2, g3⟩ := rest_shape h3
    have : ((Piece.fields fs, e) :: q).flatMap pieceOctets = body := by rw [g1]; rfl
    rw [this]
    refine ⟨h2, h5, g2, ⟨[], fs, e, q, rfl, h1, by simp, g3⟩, fun hn => ?_, fun hn => ?_⟩
    · rcases h4 with h4 | h4
      · exact h4.2
      · exact absurd hn h4.1
    · rcases h4 with h4 | h4
      · exact absurd h4.1 hn
      · exact h4.2

/-- C135: a body can be cut in any way, into one piece or more. -/
theorem C135_cut (ds : List Bytes) (d : Bytes) : Rest false (ds.map (fun d => (.data d, false)) ++ [(.data d, true)]) (ds.flatten ++ d) := by
  induction ds with
  | nil => simpa using Rest.data (d := d) Rest.ended
  | cons a ds ih =>
    rw [List.map_cons, List.cons_append, List.flatten_cons, List.append_assoc]
    exact .data ih

/-- What the program reads from the pieces. -/
theorem polled_content {e : Bool} {p : List (Piece × Bool)} {b : Bytes} {s : Verif.Stream} (h : Rest e p b) (hs : Polled p s) : content s = b ∧ BodyPoll.error ∉ s := by
  induction hs generalizing e b with
  | nil => cases h; exact ⟨rfl, by simp⟩
  | wait _ ih => obtain ⟨i1, i2⟩ := ih h; exact ⟨by simpa [content, dataOf] using i1, by simp [i2]⟩
  | data _ ih =>
    cases h with
    | data h =>
      obtain ⟨i1, i2⟩ := ih h
      exact ⟨by rw [← i1]; simp [content, dataOf], by simp [i2]⟩
  | trailers hp ih =>
    cases h with
    | trailers h =>
      obtain ⟨i1, i2⟩ := ih .ended
      exact ⟨by simpa [content, dataOf] using i1, by simp [i2]⟩

/-! ### Requests -/

theorem lengthFits_sent {extra h h' : Headers} {body : Bytes} (hw : WfHeaders h) (hl : Lines h h') (hf : LengthFits (extra ++ h) body) : LengthFits (extra ++ h') body := by
  intro v hv
  rw [linesOf_append, lines_same hl (by decide) (by decide) hw, ← linesOf_append] at hv
  exact hf v hv

/-- C135: a request that can be sent is read. -/
theorem C135_readable {extra : Headers} {r : Request} {fs : Headers} {e : Bool} {q : List (Piece × Bool)} {body : Bytes} (hr : Sendable r)
    (hc : Carriable (extra ++ r.headers)) (hx : ∀ kv ∈ extra, kv.1 ∉ connectionNames) (hs : SentAs extra r fs) (hb : r.body = .data body) (hq : Rest e q body)
    (hl : ∀ v ∈ Wire.linesOf (extra ++ r.headers) (c! "content-length"), ∃ t, v = utf8 t ∧ Number t body.length) : ∃ r', Asked ((.fields fs, e) :: q) r' ∧ r'.body = r.body := by
  obtain ⟨h', h1, h2⟩ := C129_sent hr hc hx hs
  exact ⟨_, ⟨fs, e, q, body, rfl, h2 (.data body), hq, lengthFits_sent (fun x hx => hc.wf x (by simp [hx])) h1 hl, rfl⟩, hb.symm⟩

/-- C135: an answer that can be sent, after any interim ones, is read. -/
theorem C135_readable_answer {m : Str} {extra : Headers} {s : Response} {fs : Headers} {e : Bool} {q : List (Piece × Bool)} {body : Bytes} {hints : List Headers}
    (hn : Status s.status) (hf : 200 ≤ s.status) (hc : Carriable (extra ++ s.headers)) (hx : ∀ kv ∈ extra, kv.1 ∉ connectionNames) (hs : AnsweredAs extra s fs)
    (hh : ∀ h ∈ hints, ∃ s0, ResFields h s0 ∧ Interim s0.status) (hb : s.body = .data body) (hq : Rest e q body)
    (hl : (NoBody m s.status ∧ body = []) ∨
      (¬ NoBody m s.status ∧ ∀ v ∈ Wire.linesOf (extra ++ s.headers) (c! "content-length"), ∃ t, v = utf8 t ∧ Number t body.length)) :
    ∃ s', Told m (hints.map (fun h => (.fields h, false)) ++ (.fields fs, e) :: q) s' ∧ s'.body = s.body := by
  obtain ⟨h', h1, h2, h3⟩ := C129_answered hn hc hx hs
  refine ⟨⟨s.status, extra ++ h', .data body⟩, ?_, hb.symm⟩
  induction hints with
  | nil =>
    refine .final (body := body) (h3 (.data body)) hf hq ?_ rfl
    rcases hl with hl | ⟨hl, hl'⟩
    · exact Or.inl hl
    · exact Or.inr ⟨hl, lengthFits_sent (fun x hx => hc.wf x (by simp [hx])) h1 hl'⟩
  | cons h hints ih =>
    obtain ⟨s0, g1, g2⟩ := hh h (by simp)
    exact .interim g1 g2 (ih (fun h hm => hh h (by simp [hm])))

/-- C135: the digest of a request is verified over all pieces of its stream, wherever the program waits and whatever trailers come. -/
theorem C135_digest {extra : Headers} {r r' : Request} {fs : Headers} {e : Bool} {q : List (Piece × Bool)} {body : Bytes} {st : Verif.Stream} {n : Nat} (hr : Sendable r)
    (hc : Carriable (extra ++ r.headers)) (hx : ∀ kv ∈ extra, kv.1 ∉ connectionNames) (hd : c! "content-digest" ∉ extra.map Prod.fst) (hs : SentAs extra r fs)
    (hq : Rest e q body) (hread : Asked ((.fields fs, e) :: q) r') (hp : Polled q st) (hn : waits st < n) :
    r'.body = .data body ∧ ∀ x, verifyDigestF n r'.headers st = some (.ok x) ↔ x = (r'.headers, if body = [] then [] else [.frame (.data body)]) ∧
      ∃ t v, (Wire.linesOf r.headers (c! "content-digest")).head? = some v ∧ States v t (hashOf t body) := by
  obtain ⟨fs', e', q', body', he, h1, h2, _, h4⟩ := hread
  simp only [List.cons.injEq, Prod.mk.injEq, Piece.fields.injEq] at he
  obtain ⟨⟨rfl, rfl⟩, rfl⟩ := he
  have hb := rest_unique h2 hq
  subst hb
  obtain ⟨g1, g2⟩ := polled_content hq hp
  obtain ⟨hcar, s, a, r0, _, _, rfl, harr⟩ := C129_arrives hr hc hx hs h1
  have hl : Wire.linesOf r0.headers (c! "content-digest") = Wire.linesOf r.headers (c! "content-digest") := by
    refine harr.fields _ ?_
    simp only [changed2, List.mem_append, List.mem_cons, not_or]
    exact ⟨⟨by decide, by decide⟩, hd⟩
  refine ⟨h4, fun x => ?_⟩
  obtain ⟨x1, x2⟩ := x
  have hl' : lines (restored s a r0).headers (c! "content-digest") = Wire.linesOf r.headers (c! "content-digest") := (lines_fieldLines hcar.wf).trans hl
  rw [C60_verify_exact _ _ _ _ _ hn, g1, hl']
  simp only [g2, not_false_eq_true, true_and, Prod.mk.injEq, and_assoc]

/-- C135: so it is verified if and only if the client's whole request would be. -/
theorem C135_digest_kept {extra : Headers} {r r' : Request} {fs : Headers} {e : Bool} {q : List (Piece × Bool)} {body : Bytes} {st : Verif.Stream} {n : Nat}
    (hr : Sendable r) (hc : Carriable (extra ++ r.headers)) (hx : ∀ kv ∈ extra, kv.1 ∉ connectionNames) (hd : c! "content-digest" ∉ extra.map Prod.fst)
    (hs : SentAs extra r fs) (hb : r.body = .data body) (hq : Rest e q body) (hread : Asked ((.fields fs, e) :: q) r') (hp : Polled q st) (hn : waits st < n) :
    (∃ x, verifyDigestF n r'.headers st = some (.ok x)) ↔ ∃ x, verifyDigest r.headers r.body = .ok x := by
  have hw : WfHeaders r.headers := fun x hx => hc.wf x (by simp [hx])
  have hl : lines r.headers (c! "content-digest") = Wire.linesOf r.headers (c! "content-digest") := lines_fieldLines hw
  have key := (C135_digest hr hc hx hd hs hq hread hp hn).2
  constructor
  · rintro ⟨x, h⟩
    obtain ⟨_, t, v, h1, h2⟩ := (key x).1 h
    exact ⟨(r.headers, r.body), (verifyDigest_ok _ _ _ _).2 ⟨rfl, rfl, body, t, v, hb, by rw [hl]; exact h1, h2⟩⟩
  · rintro ⟨⟨h', b'⟩, h⟩
    obtain ⟨_, _, b, t, v, h1, h2, h3⟩ := (verifyDigest_ok _ _ _ _).1 h
    rw [hb] at h1
    injection h1 with h1
    subst h1
    exact ⟨_, (key _).2 ⟨rfl, t, v, by rw [← hl]; exact h2, h3⟩⟩

/-- C135: a stream that is broken off is never accepted, whatever came before and even if the digest is that of the pieces that came: the program gets an error from the
body, and so from the functions for digests. -/
theorem C135_reset {st rest : Verif.Stream} {n : Nat} (hn : waits (st ++ .error :: rest) < n) (h : Headers) :
    (∀ x, verifyDigestF n h (st ++ .error :: rest) ≠ some (.ok x)) ∧ ∀ t, setDigestF n t h (st ++ .error :: rest) = some (.err .httpBody) := by
  have he : BodyPoll.error ∈ st ++ .error :: rest := by simp
  refine ⟨fun ⟨h', s'⟩ hv => ((C60_verify_exact _ _ _ _ _ hn).1 hv).1 he, fun t => ?_⟩
  rw [C60_set t h _ n hn]
  unfold asBody
  rw [if_pos he]
  rfl

/-- The hypotheses of C135_reset: one piece came. -/
example (h : Headers) (b : Bytes) : ∀ x, verifyDigestF 1 h [.frame (.data b), .error] ≠ some (.ok x) :=
  (C135_reset (st := [.frame (.data b)]) (rest := []) (by simp [waits]) h).1

/-! ### Exchanges -/

theorem asked_first {fs : Headers} {e : Bool} {q : List (Piece × Bool)} {body : Bytes} {r : Request} (hq : Rest e q body) (h : Asked ((.fields fs, e) :: q) r) :
    ReqFields fs r ∧ r.body = .data body := by
  obtain ⟨fs', e', q', body', he, h1, h2, _, h4⟩ := h
  simp only [List.cons.injEq, Prod.mk.injEq, Piece.fields.injEq] at he
  obtain ⟨⟨rfl, rfl⟩, rfl⟩ := he
  exact ⟨h1, by rw [h4, rest_unique hq h2]⟩

theorem told_final {m : Str} {fs : Headers} {e : Bool} {q : List (Piece × Bool)} {body : Bytes} {s s0 : Response} {hints : List Headers} (hq : Rest e q body)
    (hh : ∀ h ∈ hints, ∃ s0, ResFields h s0 ∧ Interim s0.status) (h0 : ResFields fs s0) (hf : 200 ≤ s0.status)
    (h : Told m (hints.map (fun h => (.fields h, false)) ++ (.fields fs, e) :: q) s) : ResFields fs s ∧ s.body = .data body := by
  induction hints with
  | nil =>
    cases h with
    | interim h1 h2 _ =>
      have := (C129_unique_response h1 h0).1
      have := h2.1
      omega
    | final h1 _ h3 _ h5 => exact ⟨h1, by rw [h5, rest_unique hq h3]⟩
  | cons h' hints ih =>
    cases h with
    | interim _ _ h3 => exact ih (fun h hm => hh h (by simp [hm])) h3
    | final h1 h2 _ _ _ =>
      obtain ⟨s1, g1, g2⟩ := hh h' (by simp)
      have := (C129_unique_response h1 g1).1
      have := g2.1
      omega

/-- C135: the digest of an answer is verified by the client over all pieces after the interim answers, if and only if it would be for the server's whole answer. -/
theorem C135_digest_answer {m : Str} {extra : Headers} {s s' : Response} {fs : Headers} {e : Bool} {q : List (Piece × Bool)} {body : Bytes} {hints : List Headers}
    {st : Verif.Stream} {n : Nat} (hs : Status s.status) (hf : 200 ≤ s.status) (hc : Carriable (extra ++ s.headers)) (hx : ∀ kv ∈ extra, kv.1 ∉ connectionNames)
    (hd : c! "content-digest" ∉ extra.map Prod.fst) (ha : AnsweredAs extra s fs) (hh : ∀ h ∈ hints, ∃ s0, ResFields h s0 ∧ Interim s0.status)
    (hb : s.body = .data body) (hq : Rest e q body) (hread : Told m (hints.map (fun h => (.fields h, false)) ++ (.fields fs, e) :: q) s') (hp : Polled q st)
    (hn : waits st < n) :
    s'.body = s.body ∧ ((∃ x, verifyDigestF n s'.headers st = some (.ok x)) ↔ ∃ x, verifyDigest s.headers s.body = .ok x) := by
  obtain ⟨h', h1, h2, h3⟩ := C129_answered hs hc hx ha
  obtain ⟨b1, b2⟩ := told_final hq hh (h3 s.body) hf hread
  have eh : s'.headers = extra ++ h' := (C129_unique_response b1 (h3 s.body)).2
  obtain ⟨g1, g2⟩ := polled_content hq hp
  have hw : WfHeaders s.headers := fun x hx => hc.wf x (by simp [hx])
  have hl : lines s'.headers (c! "content-digest") = lines s.headers (c! "content-digest") := by
    refine (lines_fieldLines (eh ▸ h2.wf)).trans (Eq.trans ?_ (lines_fieldLines hw).symm)
    rw [eh]
    refine changed2_same h1 hc.wf ?_
    simp only [changed2, List.mem_append, List.mem_cons, not_or]
    exact ⟨⟨by decide, by decide⟩, hd⟩
  refine ⟨b2.trans hb.symm, ?_⟩
  constructor
  · rintro ⟨⟨x1, x2⟩, h⟩
    obtain ⟨_, _, _, t, v, k1, k2⟩ := (C60_verify_exact _ _ _ _ _ hn).1 h
    exact ⟨(s.headers, s.body), (verifyDigest_ok _ _ _ _).2 ⟨rfl, rfl, body, t, v, hb, hl ▸ k1, g1 ▸ k2⟩⟩
  · rintro ⟨⟨x1, x2⟩, h⟩
    obtain ⟨_, _, b, t, v, k1, k2, k3⟩ := (verifyDigest_ok _ _ _ _).1 h
    rw [hb] at k1
    injection k1 with k1
    subst k1
    exact ⟨(_, _), (C60_verify_exact _ _ _ _ _ hn).2 ⟨g2, rfl, rfl, t, v, hl ▸ k2, g1.symm ▸ k3⟩⟩

/-- C135: of many requests and answers that are mixed on a connection, each one that was signed is valid on the other side, with its whole body: the request as the
server reads it from its stream, and the answer as the client reads it from the same stream, for the request that was sent there. -/
theorem C135_exchange {l l' : List (Nat × List (Piece × Bool))} {c c' : List Event} (hmix : Mixed l c) (hids : (l.map Prod.fst).Nodup) (hmix' : Mixed l' c')
    (hids' : (l'.map Prod.fst).Nodup) {n : Nat} {fs fs' : Headers} {e e' : Bool} {q q' : List (Piece × Bool)} {hints : List Headers}
    (hin : (n, (.fields fs, e) :: q) ∈ l) (hin' : (n, hints.map (fun h => (.fields h, false)) ++ (.fields fs', e') :: q') ∈ l')
    {r : Request} {s : Response} {body body' : Bytes} {p p' : SigParams} {name name' : Option Str} {sk sk' : SigningKey} {vk vk' : VerifyingKey} {now now' : UInt64}
    {extra extra' : Headers} (hq : Seal extra r.headers p name sk vk now) (ho : ∀ kv ∈ extra ++ r.headers, NoOuter kv.2) (hx : ∀ kv ∈ extra, kv.1 ∉ connectionNames)
    (hr : Sendable r) (hu : Absolute r.uri) (hm : r.method ≠ c! "CONNECT") (hc : ∀ i ∈ p.covered, Clear (changed2 extra) i)
    {r1 r2 : Request} (hsign : r.setSignature p sk name = (r1, .ok ())) (hsent : SentAs extra r1 fs) (hb : r.body = .data body) (hrest : Rest e q body)
    (hread : Asked (on n c) r2)
    (ha : Seal extra' s.headers p' name' sk' vk' now') (ho' : ∀ kv ∈ extra' ++ s.headers, NoOuter kv.2) (hx' : ∀ kv ∈ extra', kv.1 ∉ connectionNames)
    (hn : Status s.status) (hfin : 200 ≤ s.status) (hc' : ∀ i ∈ p'.covered, BothWays2 (changed2 extra) (changed2 extra') i)
    {s1 s2 : Response} (hsign' : s.setSignature p' sk' name' (some r2) = (s1, .ok ())) (hsent' : AnsweredAs extra' s1 fs') (hb' : s.body = .data body')
    (hrest' : Rest e' q' body') (hh : ∀ h ∈ hints, ∃ s0, ResFields h s0 ∧ Interim s0.status) (hread' : Told r1.method (on n c') s2) :
    (r2.verifySignature now vk none = .ok (name.getD (c! "sig")) ∧ r2.body = r.body) ∧
      s2.verifySignature now' vk' none (some r1) = .ok (name'.getD (c! "sig")) ∧ s2.body = s.body := by
  rw [(C135_streams hmix hids).1 _ hin] at hread
  rw [(C135_streams hmix' hids').1 _ hin'] at hread'
  obtain ⟨a1, a2⟩ := asked_first hrest hread
  have hst : s1.status = s.status := by
    injection hsign' with d1 _
    rw [← d1]
  have hhead : ∃ s0, ResFields fs' s0 ∧ 200 ≤ s0.status := by
    have hws : WfHeaders s.headers := fun kv hkv => ha.wf kv (by simp [hkv])
    have hc1 : Carriable (extra ++ r.headers) := ⟨hq.wf, hq.ok, ho⟩
    have hcs : Carriable (extra' ++ s.headers) := ⟨ha.wf, ha.ok, ho'⟩
    have hw2 : WfHeaders r2.headers := by
      have hwr : WfHeaders r.headers := fun kv hkv => hq.wf kv (by simp [hkv])
      injection hsign with e1 e2
      have hset : setSignatures (.req r) [(p, sk, name)] none = ((setSignatures (.req r) [(p, sk, name)] none).1, .ok ()) := Prod.ext rfl e2
      obtain ⟨ls, g1, g2⟩ := (C65_sign (m := .req r) hwr (by simp) _ _).1 hset
      have hc2 : Carriable (extra ++ r1.headers) := by
        rw [← e1]
        show Carriable (extra ++ (setSignatures (.req r) [(p, sk, name)] none).1)
        rw [g2]
        exact carriable_signed (m := .req r) g1 (legal_start hq.label) hc1
      have hr1 : Sendable r1 := by
        rw [← e1]
        exact ⟨hr.method, hr.path, hr.mark, hr.pathChars, hr.queryChars⟩
      exact (C129_arrives hr1 hc2 hx hsent a1).1.wf
    injection hsign' with d1 d2
    have hset : setSignatures (.res s) [(p', sk', name')] (some r2) = ((setSignatures (.res s) [(p', sk', name')] (some r2)).1, .ok ()) := Prod.ext rfl d2
    obtain ⟨ls, g1, g2⟩ := (C65_sign (m := .res s) hws (by intro q e; injection e with e; exact e ▸ hw2) _ _).1 hset
    have hc2 : Carriable (extra' ++ s1.headers) := by
      rw [← d1]
      show Carriable (extra' ++ (setSignatures (.res s) [(p', sk', name')] (some r2)).1)
      rw [g2]
      exact carriable_signed (m := .res s) g1 (legal_start ha.label) hcs
    obtain ⟨h', _, _, h3⟩ := C129_answered (hst ▸ hn) hc2 hx' hsent'
    exact ⟨_, h3 s.body, by show 200 ≤ s1.status; omega⟩
  obtain ⟨s0, z1, z2⟩ := hhead
  obtain ⟨b1, b2⟩ := told_final hrest' hh z1 z2 hread'
  obtain ⟨v1, v2⟩ := C129_exchange hq ho hx hr hu hm hc hsign hsent a1 ha ho' hx' hn hc' hsign' hsent' b1
  exact ⟨⟨v1, a2.trans hb.symm⟩, v2, b2.trans hb'.symm⟩

/-! ### Examples -/

namespace Ex135
open Ex124 Ex126 Ex128 Ex129

/-- The request of C129 with a body, and its answer with one. -/
def asks : Request := { full with body := .data (utf8 (c! "hey")) }
def asksSigned : Request := { fullSigned with body := .data (utf8 (c! "hey")) }
def asksGot : Request := { fullGot with body := .data (utf8 (c! "hey")) }
def tells : Response := { exRes with body := .data (utf8 (c! "no")) }
def saysSigned : Response := { back with body := .data (utf8 (c! "no")) }

/-- Its pieces: the body comes in two, and trailers follow. -/
def asksRest : List (Piece × Bool) := [(.data (utf8 (c! "h")), false), (.data (utf8 (c! "ey")), false), (.fields [(c! "x", [])], true)]
/-- Those of the answer, after an interim one. -/
def hint : Headers := [(c! ":status", utf8 (c! "103"))]
def saysRest : List (Piece × Bool) := [(.data (utf8 (c! "no")), true)]

/-- Two streams each way, and the connection. -/
def there : List (Nat × List (Piece × Bool)) := [(1, (.fields fullFields, false) :: asksRest), (3, [(.fields fullFields, true)])]
def thereEvents : List Event :=
  [⟨1, .fields fullFields, false⟩, ⟨1, .data (utf8 (c! "h")), false⟩, ⟨3, .fields fullFields, true⟩, ⟨1, .data (utf8 (c! "ey")), false⟩, ⟨1, .fields [(c! "x", [])], true⟩]
def here : List (Nat × List (Piece × Bool)) := [(3, [(.fields backFields, true)]), (1, (.fields hint, false) :: (.fields backFields, false) :: saysRest)]
def hereEvents : List Event :=
  [⟨1, .fields hint, false⟩, ⟨3, .fields backFields, true⟩, ⟨1, .fields backFields, false⟩, ⟨1, .data (utf8 (c! "no")), true⟩]

theorem thereMixed : Mixed there thereEvents :=
  .next (l := []) (q := (_, _)) (.next (l := []) (q := (_, _)) (.next (l := [(1, _)]) (l' := []) (q := (_, _)) (.next (l := []) (q := (_, _))
    (.next (l := []) (q := (_, _)) (.nil (by decide))))))

theorem hereMixed : Mixed here hereEvents :=
  .next (l := [(3, _)]) (l' := []) (q := (_, _)) (.next (l := []) (q := (_, _)) (.next (l := [(3, _)]) (l' := []) (q := (_, _))
    (.next (l := [(3, _)]) (l' := []) (q := (_, _)) (.nil (by decide)))))

theorem asksRest_ok : Rest false asksRest (utf8 (c! "hey")) := by
  have : Rest false asksRest (utf8 (c! "h") ++ (utf8 (c! "ey") ++ [])) := .data (.data (.trailers (by
    intro kv hkv
    simp only [List.mem_cons, List.not_mem_nil, or_false] at hkv
    subst hkv
    exact ⟨⟨by decide, by simp [TChar, Grammar.Alpha]⟩, by decide, by decide, by simp, by decide⟩)))
  have e : utf8 (c! "h") ++ (utf8 (c! "ey") ++ []) = utf8 (c! "hey") := by decide
  exact e ▸ this

theorem saysRest_ok : Rest false saysRest (utf8 (c! "no")) := by
  have := Rest.data (d := utf8 (c! "no")) Rest.ended
  rwa [List.append_nil] at this

theorem hintReads : ResFields hint ⟨103, [], .data []⟩ := ⟨by decide +kernel, ⟨by decide, by decide⟩, by simp⟩

theorem noLength {h : Headers} {b : Bytes} (hl : Wire.linesOf h (c! "content-length") = []) : LengthFits h b := by
  intro v hv
  rw [hl] at hv
  cases hv

theorem asksRead : Asked (on 1 thereEvents) asksGot :=
  ⟨fullFields, false, asksRest, _, by decide +kernel, fullReads, asksRest_ok, noLength (by decide +kernel), rfl⟩

set_option maxRecDepth 20000 in
theorem saysRead : Told (c! "GET") (on 1 hereEvents) saysSigned := by
  have e : on 1 hereEvents = (.fields hint, false) :: (.fields backFields, false) :: saysRest := by decide +kernel
  rw [e]
  refine .interim hintReads ⟨by decide, by decide⟩ (.final backReads (by decide +kernel) saysRest_ok (Or.inr ⟨?_, ?_⟩) rfl)
  · have : saysSigned.status = 404 := by decide +kernel
    rw [this]
    unfold NoBody
    decide
  · exact noLength (by decide +kernel)

set_option maxRecDepth 20000 in
/-- The hypotheses of the theorems on shapes are asksRead and saysRead. Those of C135_exchange, with two streams that are mixed both ways. -/
example : (asksGot.verifySignature 100 (toyVerify 7) none = .ok (c! "sig") ∧ asksGot.body = asks.body) ∧
    saysSigned.verifySignature 100 (toyVerify 9) none (some asksSigned) = .ok (c! "sig") ∧ saysSigned.body = tells.body := by
  have hs1 : asks.setSignature (exParams fullIds) (toySign 7) none = (asksSigned, .ok ()) := Prod.ext rfl (by decide +kernel)
  have hs2 : tells.setSignature (exParams backIds) (toySign 9) none (some asksGot) = (saysSigned, .ok ()) := Prod.ext (by decide +kernel) (by decide +kernel)
  exact C135_exchange (r := asks) (s := tells) (r1 := asksSigned) (s1 := saysSigned) (n := 1) (hints := [hint]) thereMixed (by decide) hereMixed (by decide) (List.mem_cons_self ..)
    (List.mem_cons_of_mem _ (List.mem_cons_self ..)) fullSeal (outer_ok (by decide +kernel)) (by decide +kernel)
    ⟨(sendable []).method, (sendable []).path, (sendable []).mark, (sendable []).pathChars, (sendable []).queryChars⟩ absolute (by decide) fullClear hs1 fullSent rfl asksRest_ok asksRead
    backSeal (outer_ok (by decide +kernel)) (by decide) ⟨by decide +kernel, by decide +kernel⟩ (by decide +kernel) backClear hs2
    ⟨_, keepAll (by decide +kernel), by decide +kernel⟩ rfl saysRest_ok
    (by intro h hh; simp only [List.mem_cons, List.not_mem_nil, or_false] at hh; subst hh; exact ⟨_, hintReads, by decide, by decide⟩) saysRead

/-- A request with a digest. -/
def dig : Request := { sent with headers := [(c! "content-digest", utf8 (c! "sha-256=:AA==:"))], body := .data (utf8 (c! "hey")) }
def digFields : Headers := reqControl (c! "GET") (c! "https") (c! "Example.com") (c! "/a?b") ++ dig.headers

theorem wf_dig : WfHeaders dig.headers := by
  intro kv hkv
  have e : kv.1 = c! "content-digest" := by
    simp only [dig, List.mem_cons, List.not_mem_nil, or_false] at hkv
    rw [hkv]
  rw [e]
  exact ⟨by decide, by decide, by decide⟩

set_option maxRecDepth 20000 in
/-- The hypotheses of C135_digest_kept: the body comes in pieces, and the program waits. -/
example : ∃ r', Asked ((.fields digFields, false) :: asksRest) r' ∧
    ((∃ x, verifyDigestF 3 r'.headers [.pending, .frame (.data (utf8 (c! "h"))), .frame (.data (utf8 (c! "ey"))), .pending, .frame (.trailers [(c! "x", [])])] =
      some (.ok x)) ↔ ∃ x, verifyDigest dig.headers dig.body = .ok x) := by
  have hr : Sendable dig := ⟨(sendable []).method, (sendable []).path, (sendable []).mark, (sendable []).pathChars, (sendable []).queryChars⟩
  have hc : Carriable ([] ++ dig.headers) := ⟨wf_dig, lines_ok (by decide +kernel), outer_ok (by decide +kernel)⟩
  have hs : SentAs [] dig digFields := by
    refine ⟨_, c! "https", c! "Example.com", dig.headers, rfl, rfl, keepAll (by decide +kernel), List.Perm.refl _, ?_⟩
    decide +kernel
  obtain ⟨r', h1, _⟩ := C135_readable hr hc (by simp) hs rfl asksRest_ok (noLength (by decide +kernel))
  exact ⟨r', h1, C135_digest_kept hr hc (by simp) (by simp) hs rfl asksRest_ok h1 (.wait (.data (.data (.wait (.trailers .nil))))) (by decide)⟩

set_option maxRecDepth 20000 in
/-- The same of the answer. -/
example : saysSigned.body = tells.body ∧ ((∃ x, verifyDigestF 2 saysSigned.headers [.frame (.data (utf8 (c! "no"))), .pending] = some (.ok x)) ↔
    ∃ x, verifyDigest { back with body := .data (utf8 (c! "no")) }.headers tells.body = .ok x) :=
  C135_digest_answer (s := { back with body := .data (utf8 (c! "no")) }) (m := c! "GET") (extra := []) (hints := [hint]) (fs := backFields) (e := false) (q := saysRest)
    ⟨by decide +kernel, by decide +kernel⟩ (by decide +kernel) ⟨names2 (by decide +kernel), lines_ok (by decide +kernel), outer_ok (by decide +kernel)⟩
    (by simp) (by simp) ⟨_, keepAll (by decide +kernel), by decide +kernel⟩
    (by intro h hh; simp only [List.mem_cons, List.not_mem_nil, or_false] at hh; subst hh; exact ⟨_, hintReads, by decide, by decide⟩) rfl saysRest_ok
    (by have e : on 1 hereEvents = (.fields hint, false) :: (.fields backFields, false) :: saysRest := by decide +kernel
        have := saysRead
        rw [e] at this
        exact this) (.data (.wait .nil)) (by decide)

/-- Another request, and answers that cover the target of the request or nothing of it. -/
def other : Request := { sent with uri := { sent.uri with pathData := c! "/z" } }
def bound : Response := (exRes.setSignature (exParams backIds) sumSign none (some sent)).1
def loose : Response := (exRes.setSignature (exParams [⟨.derived .status, []⟩]) sumSign none (some sent)).1

end Ex135

set_option maxRecDepth 20000 in
open Ex124 Ex126 Ex129 Ex135 in
/-- C135: an answer that comes on the stream of another request is noticed if its signature covers something in which the requests differ, and not if it covers nothing
of the request. -/
theorem C135_swapped : bound.verifySignature 100 sumVerify none (some sent) = .ok (c! "sig") ∧
    bound.verifySignature 100 sumVerify none (some other) = .err .invalidSignature ∧
    loose.verifySignature 100 sumVerify none (some sent) = .ok (c! "sig") ∧ loose.verifySignature 100 sumVerify none (some other) = .ok (c! "sig") := by
  decide +kernel

end Verif
