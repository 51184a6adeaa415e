import Verif.Spec.Message
import Verif.Proofs.Http
import Verif.Proofs.ParamsText
import Verif.Props.C39
/-!
C19, C20, C21: content digests.
-/
namespace Verif
open Spec Sfv

theorem getAll_digest (h : Headers) : h.getAll hContentDigest = lines h (c! "content-digest") := by
  rw [getAll_of_key (k := hContentDigest) (by decide)]
  unfold lines
  congr 1
  apply List.filter_congr
  intro a _
  simp [hContentDigest, Bool.beq_eq_decide_eq]

theorem digestText_eq (t : DigestType) (b : Bytes) :
    digestText t b = serMember (digestLabel t, .item ⟨.bytes (hashOf t b), []⟩) := by
  rw [serMember_other _ (by intro p; simp)]
  cases t <;> simp [digestText, serEntry, serItem, serBare, serParams, DigestType.toStr, digestLabel, deriveDigest, hashOf]

theorem digestText_printable (t : DigestType) (b : Bytes) : ∀ c ∈ digestText t b, Printable c := by
  intro c hc
  unfold digestText at hc
  have h1 : ∀ c ∈ t.toStr, Printable c := by cases t <;> decide
  have h2 := base64_safe (deriveDigest b t)
  simp only [List.mem_append, List.mem_cons, List.not_mem_nil, or_false] at hc
  rcases hc with hc | rfl | rfl | hc | rfl
  · exact h1 c hc
  · decide
  · decide
  · exact (h2 c hc).1
  · decide

theorem digestText_parse (t : DigestType) (b : Bytes) :
    parseDict (digestText t b) = some [(digestLabel t, .item ⟨.bytes (hashOf t b), []⟩)] := by
  rw [digestText_eq]
  have := parseDict_members (l := [(digestLabel t, .item ⟨.bytes (hashOf t b), []⟩)]) (by
    intro kv hkv
    simp only [List.mem_singleton] at hkv; subst hkv
    exact ⟨show LegalKey (digestLabel t) by cases t <;> decide, trivial, by simp [LegalParams]⟩)
  rw [List.map_singleton] at this
  exact this

theorem setDigest_data (t : DigestType) (h : Headers) (b : Bytes) :
    setDigest t h (.data b) = .ok (h.insert hContentDigest (utf8 (digestText t b)), .data b) := by
  unfold setDigest
  simp only
  rw [hvOfStr_printable (digestText_printable t b)]

theorem typeOfLabel (t : DigestType) : DigestType.ofStr (digestLabel t) = .ok t := by cases t <;> rfl

theorem typeOfLabel_ok {s : Str} {t : DigestType} (h : DigestType.ofStr s = .ok t) : s = digestLabel t := by
  unfold DigestType.ofStr at h
  split at h
  · rename_i hh; injection h with h; subst h; exact hh
  split at h
  · rename_i hh; injection h with h; subst h; exact hh
  · cases h

theorem entryBytes_some {e : Entry} {b : Bytes} (h : entryBytes e = some b) : ∃ ps, e = .item ⟨.bytes b, ps⟩ := by
  unfold entryBytes at h
  split at h
  · injection h with h; subst h; exact ⟨_, rfl⟩
  · cases h

/-- What the header says: exactly the first line counts. -/
theorem extractDigest_ok (h : Headers) (t : DigestType) (d : Bytes) :
    extractDigest h = .ok (t, d) ↔ ∃ v, (lines h (c! "content-digest")).head? = some v ∧ States v t d := by
  unfold extractDigest Headers.get
  rw [getAll_digest]
  cases hl : (lines h (c! "content-digest")).head? with
  | none => simp
  | some v =>
    simp only [Res.ofOption_some, Res.bind_ok, Option.some.injEq, exists_eq_left', States]
    cases hs : hvToStr v with
    | none => simp
    | some s =>
      simp only [Res.ofOption_some, Res.bind_ok, Option.some.injEq, exists_and_left, exists_eq_left']
      cases hd : parseDict s with
      | none => simp
      | some dict =>
        simp only [Res.ofOption_some, Res.bind_ok, Option.some.injEq]
        match dict with
        | [] => simp
        | [(k, e)] =>
          simp only [List.length_singleton, ne_eq, not_true, if_false]
          constructor
          · intro hh
            obtain ⟨t', ht', h2⟩ := Res.bind_eq_ok.1 hh
            split at h2
            · cases h2
            split at h2
            · rename_i b hb
              injection h2 with h2
              injection h2 with h3 h4
              subst h3 h4
              have := typeOfLabel_ok (Res.mapErr_eq_ok.1 ht')
              obtain ⟨ps, rfl⟩ := entryBytes_some hb
              exact ⟨ps, by rw [this]⟩
            · cases h2
          · rintro ⟨ps, hh⟩
            rw [List.cons.injEq, Prod.mk.injEq] at hh
            obtain ⟨⟨rfl, rfl⟩, _⟩ := hh
            rw [typeOfLabel]
            simp [entryBytes]
        | x :: y :: z => simp

theorem deriveDigest_hashOf (b : Bytes) (t : DigestType) : deriveDigest b t = hashOf t b := by cases t <;> rfl

theorem isEqualDigest_iff (a b : Bytes) : isEqualDigest a b = true ↔ a = b := by
  unfold isEqualDigest
  split
  · rename_i h; constructor
    · simp
    · rintro rfl; exact absurd rfl h
  · simp

theorem verifyDigest_ok (h h' : Headers) (body body' : Body) :
    verifyDigest h body = .ok (h', body') ↔
      h' = h ∧ body' = body ∧ ∃ b t v, body = .data b ∧ (lines h (c! "content-digest")).head? = some v ∧ States v t (hashOf t b) := by
  unfold verifyDigest
  constructor
  · intro hh
    obtain ⟨⟨t, d⟩, h1, h2⟩ := Res.bind_eq_ok.1 hh
    obtain ⟨v, hv, hs⟩ := (extractDigest_ok h t d).1 h1
    cases body with
    | fail => cases h2
    | data b =>
      simp only at h2
      split at h2
      · rename_i he
        injection h2 with h2
        injection h2 with h3 h4
        rw [isEqualDigest_iff, deriveDigest_hashOf] at he
        exact ⟨h3.symm, h4.symm, b, t, v, rfl, hv, by rw [he]; exact hs⟩
      · cases h2
  · rintro ⟨rfl, rfl, b, t, v, rfl, hv, hs⟩
    rw [(extractDigest_ok h' t _).2 ⟨v, hv, hs⟩]
    simp only [Res.bind_ok]
    rw [if_pos (by rw [isEqualDigest_iff, deriveDigest_hashOf])]

/-! ### C20 -/

/-- C20, requests: verification succeeds exactly when the first Content-Digest line states the hash of the body, and then returns the
request unchanged. -/
theorem C20_request_verify_exact (r r' : Request) :
    r.verifyContentDigest = .ok r' ↔
      r' = r ∧ ∃ b t v, r.body = .data b ∧ (lines r.headers (c! "content-digest")).head? = some v ∧ States v t (hashOf t b) := by
  unfold Request.verifyContentDigest
  constructor
  · intro h
    obtain ⟨⟨h', b'⟩, h1, h2⟩ := Res.bind_eq_ok.1 h
    obtain ⟨e1, e2, h3⟩ := (verifyDigest_ok _ _ _ _).1 h1
    injection h2 with h2
    subst e1 e2
    exact ⟨h2.symm, h3⟩
  · rintro ⟨rfl, h⟩
    rw [(verifyDigest_ok r'.headers r'.headers r'.body r'.body).2 ⟨rfl, rfl, h⟩]
    rfl

/-- C20, responses. -/
theorem C20_response_verify_exact (r r' : Response) :
    r.verifyContentDigest = .ok r' ↔
      r' = r ∧ ∃ b t v, r.body = .data b ∧ (lines r.headers (c! "content-digest")).head? = some v ∧ States v t (hashOf t b) := by
  unfold Response.verifyContentDigest
  constructor
  · intro h
    obtain ⟨⟨h', b'⟩, h1, h2⟩ := Res.bind_eq_ok.1 h
    obtain ⟨e1, e2, h3⟩ := (verifyDigest_ok _ _ _ _).1 h1
    injection h2 with h2
    subst e1 e2
    exact ⟨h2.symm, h3⟩
  · rintro ⟨rfl, h⟩
    rw [(verifyDigest_ok r'.headers r'.headers r'.body r'.body).2 ⟨rfl, rfl, h⟩]
    rfl

/-- A header line states at most one digest. -/
theorem States_unique {v : Bytes} {t t' : DigestType} {d d' : Bytes} (h : States v t d) (h' : States v t' d') : t = t' ∧ d = d' := by
  obtain ⟨s, ps, h1, h2⟩ := h
  obtain ⟨s', ps', h3, h4⟩ := h'
  rw [h1] at h3; injection h3 with h3; subst h3
  rw [h2] at h4
  injection h4 with h4
  rw [List.cons.injEq, Prod.mk.injEq, Entry.item.injEq, Item.mk.injEq, Bare.bytes.injEq] at h4
  refine ⟨?_, h4.1.2.1⟩
  have := h4.1.1
  cases t <;> cases t' <;> first | rfl | exact absurd this (by decide)

/-- C20, the error cases, each with its error. `h` are the headers of a request or of a response. -/
theorem C20_errors (h : Headers) (body : Body) :
    (lines h (c! "content-digest") = [] → verifyDigest h body = .err .noDigestHeader) ∧
    (∀ v, (lines h (c! "content-digest")).head? = some v →
      (hvToStr v = none → verifyDigest h body = .err .toStr) ∧
      (hvToStr v ≠ none → (∀ t d, ¬ States v t d) → verifyDigest h body = .err .invalidHeaderValue) ∧
      (∀ t d, States v t d →
        (body = .fail → verifyDigest h body = .err .httpBody) ∧
        (∀ b, body = .data b → d ≠ hashOf t b → verifyDigest h body = .err .invalidContentDigest))) := by
  refine ⟨?_, ?_⟩
  · intro hl
    unfold verifyDigest extractDigest Headers.get
    rw [getAll_digest, hl]
    rfl
  intro v hv
  refine ⟨?_, ?_, ?_⟩
  · intro hn
    unfold verifyDigest extractDigest Headers.get
    rw [getAll_digest, hv]
    simp [hn]
  · intro hn hs
    have hx : extractDigest h = .err .invalidHeaderValue := by
      have no : ∀ t d, extractDigest h ≠ .ok (t, d) := by
        intro t d hh
        obtain ⟨v', hv', hs'⟩ := (extractDigest_ok h t d).1 hh
        rw [hv] at hv'; injection hv' with hv'; subst hv'
        exact hs t d hs'
      unfold extractDigest Headers.get at no ⊢
      rw [getAll_digest, hv] at no ⊢
      simp only [Res.ofOption_some, Res.bind_ok] at no ⊢
      cases ht : hvToStr v with
      | none => exact absurd ht hn
      | some s =>
        rw [ht] at no
        simp only [Res.ofOption_some, Res.bind_ok] at no ⊢
        cases hd : parseDict s with
        | none => rfl
        | some dict =>
          rw [hd] at no
          simp only [Res.ofOption_some, Res.bind_ok] at no ⊢
          match dict, no with
          | [], _ => rfl
          | [(k, e)], no =>
            simp only [List.length_singleton, ne_eq, not_true, if_false] at no ⊢
            cases hk : DigestType.ofStr k with
            | panic => unfold DigestType.ofStr at hk; split at hk <;> [cases hk; (split at hk <;> cases hk)]
            | err _ => rfl
            | ok t =>
              rw [hk] at no
              simp only [Res.mapErr_ok, Res.bind_ok] at no ⊢
              cases he : entryBytes e with
              | none => simp
              | some b => rw [he] at no; exact absurd rfl (no t b)
          | x :: y :: z, _ => rfl
    unfold verifyDigest
    rw [hx]; rfl
  · intro t d hs
    have hx := (extractDigest_ok h t d).2 ⟨v, hv, hs⟩
    refine ⟨?_, ?_⟩
    · rintro rfl
      unfold verifyDigest; rw [hx]; rfl
    · rintro b rfl hne
      unfold verifyDigest; rw [hx]
      simp only [Res.bind_ok]
      rw [if_neg]
      rw [isEqualDigest_iff, deriveDigest_hashOf]
      exact fun e => hne e.symm

/-- C20: verification never panics (in particular neither `unwrap` nor `unreachable!` in it is reached, see also C18). -/
theorem C20_never_panics (h : Headers) (body : Body) : verifyDigest h body ≠ .panic := by
  have key := C20_errors h body
  cases hl : lines h (c! "content-digest") with
  | nil => rw [key.1 hl]; simp
  | cons v t =>
    have hv : (lines h (c! "content-digest")).head? = some v := by rw [hl]; rfl
    obtain ⟨k1, k2, k3⟩ := key.2 v hv
    by_cases hn : hvToStr v = none
    · rw [k1 hn]; simp
    by_cases hs : ∃ t d, States v t d
    · obtain ⟨t, d, hs⟩ := hs
      cases hb : body with
      | fail => rw [← hb, (k3 t d hs).1 hb]; simp
      | data b =>
        by_cases hd : d = hashOf t b
        · rw [(verifyDigest_ok h h (.data b) (.data b)).2 ⟨rfl, rfl, b, t, v, rfl, hv, by rw [← hd]; exact hs⟩]; simp
        · rw [← hb, (k3 t d hs).2 b hb hd]; simp
    · rw [k2 hn (fun t d h => hs ⟨t, d, h⟩)]; simp

/-- C20: only the first line is looked at: what later lines state makes no difference. -/
theorem C20_first_line_only (h h' : Headers) (body : Body)
    (he : (lines h (c! "content-digest")).head? = (lines h' (c! "content-digest")).head?) :
    (∃ x, verifyDigest h body = .ok x) ↔ ∃ x, verifyDigest h' body = .ok x := by
  constructor
  · rintro ⟨⟨a, b⟩, hx⟩
    obtain ⟨_, _, h3⟩ := (verifyDigest_ok _ _ _ _).1 hx
    exact ⟨(h', body), (verifyDigest_ok _ _ _ _).2 ⟨rfl, rfl, he ▸ h3⟩⟩
  · rintro ⟨⟨a, b⟩, hx⟩
    obtain ⟨_, _, h3⟩ := (verifyDigest_ok _ _ _ _).1 hx
    exact ⟨(h, body), (verifyDigest_ok _ _ _ _).2 ⟨rfl, rfl, he ▸ h3⟩⟩

/-! ### C21 -/

theorem lines_insert (h : Headers) (v : Bytes) : lines (h.insert hContentDigest v) (c! "content-digest") = [v] := by
  rw [← getAll_digest, getAll_insert_same (by decide)]

theorem otherLines_insert (h : Headers) (v : Bytes) :
    otherLines (h.insert hContentDigest v) (c! "content-digest") = otherLines h (c! "content-digest") := by
  unfold otherLines Headers.insert
  rw [List.filter_append, List.filter_filter]
  rw [show ([(hContentDigest, v)] : Headers).filter (fun kv => kv.1 ≠ c! "content-digest") = [] from by simp [hContentDigest], List.append_nil]
  apply List.filter_congr
  intro a _
  simp only [hContentDigest]
  by_cases ha : a.1 = c! "content-digest" <;> simp [ha]

/-- C21, requests: `set_content_digest` leaves exactly one Content-Digest line, which states the hash of the body; all other lines keep
their order, method, target and body stay; and the text of the line is `alg=:base64:`. -/
theorem C21_request_set (r : Request) (t : DigestType) (b : Bytes) (hb : r.body = .data b) :
    ∃ r', r.setContentDigest t = .ok r' ∧ r'.method = r.method ∧ r'.uri = r.uri ∧ r'.body = r.body ∧
      otherLines r'.headers (c! "content-digest") = otherLines r.headers (c! "content-digest") ∧
      ∃ v, lines r'.headers (c! "content-digest") = [v] ∧ States v t (hashOf t b) ∧
        hvToStr v = some (digestLabel t ++ c! "=:" ++ Base64.encode (hashOf t b) ++ c! ":") := by
  unfold Request.setContentDigest
  rw [hb, setDigest_data]
  have ht := hvToStr_utf8 (digestText_printable t b)
  refine ⟨_, rfl, rfl, rfl, rfl, otherLines_insert _ _, _, lines_insert _ _, ⟨_, [], ht, digestText_parse t b⟩, ?_⟩
  rw [ht]
  unfold digestText
  rw [deriveDigest_hashOf]
  cases t <;> simp [DigestType.toStr, digestLabel]

/-- C21, responses. -/
theorem C21_response_set (r : Response) (t : DigestType) (b : Bytes) (hb : r.body = .data b) :
    ∃ r', r.setContentDigest t = .ok r' ∧ r'.status = r.status ∧ r'.body = r.body ∧
      otherLines r'.headers (c! "content-digest") = otherLines r.headers (c! "content-digest") ∧
      ∃ v, lines r'.headers (c! "content-digest") = [v] ∧ States v t (hashOf t b) ∧
        hvToStr v = some (digestLabel t ++ c! "=:" ++ Base64.encode (hashOf t b) ++ c! ":") := by
  unfold Response.setContentDigest
  rw [hb, setDigest_data]
  have ht := hvToStr_utf8 (digestText_printable t b)
  refine ⟨_, rfl, rfl, rfl, otherLines_insert _ _, _, lines_insert _ _, ⟨_, [], ht, digestText_parse t b⟩, ?_⟩
  rw [ht]
  unfold digestText
  rw [deriveDigest_hashOf]
  cases t <;> simp [DigestType.toStr, digestLabel]

/-- C21: a body that cannot be read gives the body error. -/
theorem C21_body_error (r : Request) (s : Response) (t : DigestType) :
    (r.body = .fail → r.setContentDigest t = .err .httpBody) ∧ (s.body = .fail → s.setContentDigest t = .err .httpBody) := by
  constructor
  · intro h; unfold Request.setContentDigest; rw [h]; rfl
  · intro h; unfold Response.setContentDigest; rw [h]; rfl

/-! ### C19 -/

/-- C19, requests: set then verify succeeds and returns the same request. -/
theorem C19_request_round_trip (r : Request) (t : DigestType) (hb : r.body ≠ .fail) :
    ∃ r', r.setContentDigest t = .ok r' ∧ r'.body = r.body ∧ r'.verifyContentDigest = .ok r' := by
  cases h : r.body with
  | fail => exact absurd h hb
  | data b =>
    obtain ⟨r', h1, _, _, h2, _, v, h3, h4, _⟩ := C21_request_set r t b h
    exact ⟨r', h1, by rw [h2, h], (C20_request_verify_exact r' r').2 ⟨rfl, b, t, v, by rw [h2, h], by rw [h3]; rfl, h4⟩⟩

/-- C19, responses. -/
theorem C19_response_round_trip (r : Response) (t : DigestType) (hb : r.body ≠ .fail) :
    ∃ r', r.setContentDigest t = .ok r' ∧ r'.body = r.body ∧ r'.verifyContentDigest = .ok r' := by
  cases h : r.body with
  | fail => exact absurd h hb
  | data b =>
    obtain ⟨r', h1, _, h2, _, v, h3, h4, _⟩ := C21_response_set r t b h
    exact ⟨r', h1, by rw [h2, h], (C20_response_verify_exact r' r').2 ⟨rfl, b, t, v, by rw [h2, h], by rw [h3]; rfl, h4⟩⟩

/-- C19: a later change of the body is noticed unless it has the same hash. -/
theorem C19_changed_body (r r' : Request) (t : DigestType) (b b' : Bytes) (hb : r.body = .data b)
    (hs : r.setContentDigest t = .ok r') (hne : hashOf t b ≠ hashOf t b') :
    ({ r' with body := .data b' } : Request).verifyContentDigest = .err .invalidContentDigest := by
  obtain ⟨r'', h1, _, _, _, _, v, h3, h4, _⟩ := C21_request_set r t b hb
  rw [hs] at h1; injection h1 with h1; subst h1
  unfold Request.verifyContentDigest
  rw [(((C20_errors r'.headers (.data b')).2 v (by rw [h3]; rfl)).2.2 t _ h4).2 b' rfl hne]
  rfl

-- a request with an old digest line
example : ∃ r' : Request, Request.setContentDigest
      ⟨c! "POST", ⟨none, none, c! "/", none⟩, [(c! "content-digest", utf8 (c! "sha-256=:AAAA:")), (c! "a", [65])], .data [1, 2]⟩ .sha256 = .ok r' ∧
    r'.verifyContentDigest = .ok r' := by
  obtain ⟨r', h1, _, h2⟩ := C19_request_round_trip
    ⟨c! "POST", ⟨none, none, c! "/", none⟩, [(c! "content-digest", utf8 (c! "sha-256=:AAAA:")), (c! "a", [65])], .data [1, 2]⟩ .sha256 (by simp)
  exact ⟨r', h1, h2⟩
example : States (utf8 (c! "sha-512=:AQID:;x=1")) .sha512 [1, 2, 3] :=
  ⟨c! "sha-512=:AQID:;x=1", [(c! "x", .int 1)], by decide, by decide⟩
-- two members, a wrong label, a string instead of bytes
example : verifyDigest [(c! "content-digest", utf8 (c! "sha-256=:AQID:, sha-512=:AQID:"))] (.data []) = .err .invalidHeaderValue := by decide
example : verifyDigest [(c! "content-digest", utf8 (c! "md5=:AQID:"))] (.data []) = .err .invalidHeaderValue := by decide
example : verifyDigest [(c! "content-digest", utf8 (c! "sha-256=\"AQID\""))] (.data []) = .err .invalidHeaderValue := by decide

end Verif
