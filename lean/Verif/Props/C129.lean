import Verif.Spec.Http2
import Verif.Props.C128
/-!
C129: signed requests and answers over HTTP/2. Scheme and authority are sent, so no component is lost that is lost over HTTP/1.1 (C124).
-/
namespace Verif
open Sfv Spec Arrival Http1 Http2

/-! ### The lists are unambiguous -/

theorem token_colon {n : Str} (h : Token n) : n.head? ≠ some ':' := by
  intro e
  obtain ⟨t, rfl⟩ : ∃ t, n = ':' :: t := by cases n with
    | nil => cases e
    | cons a t => injection e with e; exact ⟨t, by rw [e]⟩
  exact (tchar_visible (h.2 ':' (by simp))).2.2 rfl

theorem control_colon {ctl : Headers} {m s a t : Str} (h : ctl.Perm (reqControl m s a t)) : ∀ kv ∈ ctl, kv.1.head? = some ':' := by
  intro kv hkv
  have := h.mem_iff.1 hkv
  simp only [reqControl, List.mem_cons, List.not_mem_nil, or_false] at this
  rcases this with rfl | rfl | rfl | rfl <;> rfl

/-- Control data and lines fall apart in one way. -/
theorem control_split : ∀ {c c' h h' : Headers}, (∀ kv ∈ c, kv.1.head? = some ':') → (∀ kv ∈ c', kv.1.head? = some ':') → (∀ kv ∈ h, Line kv) →
    (∀ kv ∈ h', Line kv) → c ++ h = c' ++ h' → c = c' ∧ h = h'
  | [], [], _, _, _, _, _, _, e => ⟨rfl, e⟩
  | [], y :: c', h, h', _, hc', hh, _, e => by
    have : y ∈ h := by rw [List.nil_append] at e; rw [e]; simp
    exact absurd (hc' y (by simp)) (token_colon (hh y this).token)
  | x :: c, [], h, h', hc, _, _, hh', e => by
    have : x ∈ h' := by rw [List.nil_append] at e; rw [← e]; simp
    exact absurd (hc x (by simp)) (token_colon (hh' x this).token)
  | x :: c, y :: c', h, h', hc, hc', hh, hh', e => by
    simp only [List.cons_append, List.cons.injEq] at e
    obtain ⟨e1, e2⟩ := control_split (fun kv hkv => hc kv (by simp [hkv])) (fun kv hkv => hc' kv (by simp [hkv])) hh hh' e.2
    exact ⟨by rw [e.1, e1], e2⟩

theorem control_eq {m m' s s' a a' t t' : Str} (h : (reqControl m s a t).Perm (reqControl m' s' a' t')) : m = m' ∧ s = s' ∧ a = a' ∧ t = t' := by
  have key : ∀ kv ∈ reqControl m s a t, kv ∈ reqControl m' s' a' t' := fun kv hkv => h.mem_iff.1 hkv
  simp only [reqControl, List.forall_mem_cons] at key
  obtain ⟨k1, k2, k3, k4, _⟩ := key
  refine ⟨?_, ?_, ?_, ?_⟩
  · simp at k1; exact utf8_inj k1
  · simp at k2; exact utf8_inj k2
  · simp at k3; exact utf8_inj k3
  · simp at k4; exact utf8_inj k4

/-- C129: a list is that of one request only. -/
theorem C129_unique {fs : Headers} {r r' : Request} (h : ReqFields fs r) (h' : ReqFields fs r') : r.method = r'.method ∧ r.uri = r'.uri ∧ r.headers = r'.headers := by
  obtain ⟨c, s, a, t, u, e1, h1, _, h2, h3, h4⟩ := h
  obtain ⟨c', s', a', t', u', e1', h1', _, h2', h3', h4'⟩ := h'
  obtain ⟨rfl, e2⟩ := control_split (control_colon h1) (control_colon h1') h4 h4' (e1 ▸ e1')
  obtain ⟨em, rfl, rfl, rfl⟩ := control_eq (h1.symm.trans h1')
  obtain rfl := origin_unique h2 h2'
  exact ⟨em, by rw [h3, h3'], e2⟩

/-- C129: a list is that of one response only. -/
theorem C129_unique_response {fs : Headers} {s s' : Response} (h : ResFields fs s) (h' : ResFields fs s') : s.status = s'.status ∧ s.headers = s'.headers := by
  have e := h.1.symm.trans h'.1
  simp only [List.cons.injEq, Prod.mk.injEq, true_and] at e
  have e1 := utf8_inj e.1
  rw [decimal_eq, decimal_eq] at e1
  exact ⟨natStr_inj e1, e.2⟩

/-- C129: a list with a line of the connection, with a control character in a value, with blanks at the ends of a value or with capitals in a name is that of no
request and of no response. -/
theorem C129_malformed {fs : Headers} (h : (∃ r, ReqFields fs r) ∨ ∃ s, ResFields fs s) : ∀ kv ∈ fs, kv.1.head? ≠ some ':' →
    kv.1 ∉ [c! "connection", c! "proxy-connection", c! "keep-alive", c! "transfer-encoding", c! "upgrade"] ∧ kv.1 ≠ [] ∧ kv.1.map Char.toLower = kv.1 ∧
    (∀ c ∈ kv.1, TChar c) ∧ (∀ b ∈ kv.2, b ≠ 0 ∧ b ≠ 10 ∧ b ≠ 13 ∧ b ≠ 127) ∧ kv.2.head? ≠ some 32 ∧ kv.2.head? ≠ some 9 ∧ kv.2.getLast? ≠ some 32 ∧ kv.2.getLast? ≠ some 9 := by
  have key : ∀ {kv : Str × Bytes}, Line kv → kv.1 ∉ [c! "connection", c! "proxy-connection", c! "keep-alive", c! "transfer-encoding", c! "upgrade"] ∧ kv.1 ≠ [] ∧
      kv.1.map Char.toLower = kv.1 ∧ (∀ c ∈ kv.1, TChar c) ∧ (∀ b ∈ kv.2, b ≠ 0 ∧ b ≠ 10 ∧ b ≠ 13 ∧ b ≠ 127) ∧ kv.2.head? ≠ some 32 ∧ kv.2.head? ≠ some 9 ∧
      kv.2.getLast? ≠ some 32 ∧ kv.2.getLast? ≠ some 9 := by
    intro kv hl
    refine ⟨hl.connection, hl.token.1, hl.lower, hl.token.2, fun b hb => ?_, fun e => hl.outer.1 _ e (Or.inl rfl), fun e => hl.outer.1 _ e (Or.inr rfl),
      fun e => hl.outer.2 _ e (Or.inl rfl), fun e => hl.outer.2 _ e (Or.inr rfl)⟩
    have := hl.value b hb
    refine ⟨?_, ?_, ?_, ?_⟩ <;> (rintro rfl; revert this; unfold ValueByte; decide)
  intro kv hkv hc
  rcases h with ⟨r, ctl, s, a, t, u, rfl, hp, _, _, _, hl⟩ | ⟨s, rfl, _, hl⟩
  · rcases List.mem_append.1 hkv with h1 | h1
    · exact absurd (control_colon hp kv h1) hc
    · exact key (hl kv h1)
  · rcases List.mem_cons.1 hkv with rfl | h1
    · exact absurd rfl hc
    · exact key (hl kv h1)

/-! ### Sending -/

variable {r r' : Request} {s s' : Response} {extra fs : Headers}

/-- Lines that HTTP/2 can carry once those of the connection are left out. -/
structure Carriable (h : Headers) : Prop where
  wf : WfHeaders h
  ok : SendableLines h
  outer : ∀ kv ∈ h, NoOuter kv.2

theorem carriable_append {a b : Headers} (ha : Carriable a) (hb : Carriable b) : Carriable (a ++ b) where
  wf := wf_append ha.wf hb.wf
  ok := lines_append ha.ok hb.ok
  outer kv hkv := (List.mem_append.1 hkv).elim (ha.outer kv) (hb.outer kv)

theorem carriable_cons {kv : Str × Bytes} {h : Headers} : Carriable (kv :: h) ↔ Carriable [kv] ∧ Carriable h :=
  ⟨fun c => ⟨⟨fun x hx => c.wf x (by simpa using Or.inl (List.mem_singleton.1 hx)), fun x hx => c.ok x (by simpa using Or.inl (List.mem_singleton.1 hx)),
      fun x hx => c.outer x (by simpa using Or.inl (List.mem_singleton.1 hx))⟩,
    ⟨fun x hx => c.wf x (by simp [hx]), fun x hx => c.ok x (by simp [hx]), fun x hx => c.outer x (by simp [hx])⟩⟩, fun c => carriable_append c.1 c.2⟩

theorem carriable_cut {a b : Bytes} (h : Carriable [(c! "cookie", a ++ 59 :: 32 :: b)]) (ha : NoOuter a) (hb : NoOuter b) :
    Carriable [(c! "cookie", a)] ∧ Carriable [(c! "cookie", b)] := by
  have hw : WfName (c! "cookie") := h.wf (c! "cookie", _) (List.mem_singleton.2 rfl)
  have hs := h.ok (c! "cookie", _) (List.mem_singleton.2 rfl)
  refine ⟨⟨?_, ?_, ?_⟩, ⟨?_, ?_, ?_⟩⟩ <;> intro x hx <;> rw [List.mem_singleton.1 hx]
  · exact hw
  · exact fun c hc => hs c (by simp [show c ∈ a from hc])
  · exact ha
  · exact hw
  · exact fun c hc => hs c (by simp [show c ∈ b from hc])
  · exact hb

/-- Lines that can be carried are sent as lines of a message that is not malformed. -/
theorem lines_line {h h' : Headers} (hl : Lines h h') : Carriable h → Carriable h' ∧ ∀ kv ∈ h', kv.1 ∉ connectionNames := by
  induction hl with
  | nil => exact fun c => ⟨c, fun _ h => (by cases h)⟩
  | @keep kv h h' hn _ ih =>
    intro c
    obtain ⟨c1, c2⟩ := carriable_cons.1 c
    obtain ⟨i1, i2⟩ := ih c2
    refine ⟨carriable_cons.2 ⟨c1, i1⟩, ?_⟩
    intro x hx
    rcases List.mem_cons.1 hx with rfl | hx
    · exact hn
    · exact i2 x hx
  | drop _ _ ih => exact fun c => ih (carriable_cons.1 c).2
  | cut ha hb _ ih =>
    intro c
    obtain ⟨c1, c2⟩ := carriable_cons.1 c
    obtain ⟨d1, d2⟩ := carriable_cut c1 ha hb
    exact ih (carriable_cons.2 ⟨d1, carriable_cons.2 ⟨d2, c2⟩⟩)

theorem carriable_lines {h : Headers} (hc : Carriable h) (hn : ∀ kv ∈ h, kv.1 ∉ connectionNames) : ∀ kv ∈ h, Line kv :=
  fun kv hkv => ⟨wfName_token (hc.wf kv hkv), (hc.wf kv hkv).lower, hn kv hkv, hc.ok kv hkv, hc.outer kv hkv⟩

/-- Lines of other names arrive as they are. -/
theorem lines_same {h h' : Headers} (hl : Lines h h') {f : Str} (hc : f.map Char.toLower ≠ c! "cookie") (hf : f.map Char.toLower ∉ connectionNames) :
    WfHeaders h → Wire.linesOf h' f = Wire.linesOf h f := by
  have e1 : ∀ (kv : Str × Bytes) (l : Headers), Wire.linesOf (kv :: l) f = Wire.linesOf [kv] f ++ Wire.linesOf l f := fun kv l => linesOf_append [kv] l f
  have lc : ∀ v : Bytes, Wire.linesOf [(c! "cookie", v)] f = [] := by
    intro v
    have : (c! "cookie").map Char.toLower ≠ f.map Char.toLower := fun e => hc (by rw [← e]; decide)
    unfold Wire.linesOf
    rw [List.filter_cons_of_neg (by simpa using this)]
    rfl
  induction hl with
  | nil => exact fun _ => rfl
  | @keep kv h h' _ _ ih =>
    intro hw
    rw [e1 kv h', e1 kv h, ih (fun x hx => hw x (by simp [hx]))]
  | @drop kv h h' hn _ ih =>
    intro hw
    rw [ih (fun x hx => hw x (by simp [hx]))]
    have hk : kv.1.map Char.toLower = kv.1 := (hw kv (by simp)).lower
    have : kv.1.map Char.toLower ≠ f.map Char.toLower := fun e => hf (by rw [← e, hk]; exact hn)
    simp [Wire.linesOf, this]
  | @cut a b h h' _ _ _ ih =>
    intro hw
    rw [ih (fun x hx => ?_), e1, e1 _ h, lc, lc, e1 (_, a ++ _) h, lc]
    · rfl
    · have hn : WfName (c! "cookie") := hw (c! "cookie", _) (List.mem_cons_self ..)
      rcases List.mem_cons.1 hx with rfl | hx
      · exact hn
      rcases List.mem_cons.1 hx with rfl | hx
      · exact hn
      · exact hw x (by simp [hx])

theorem changed2_same {h h' : Headers} (hl : Lines h h') (hw : WfHeaders (extra ++ h)) {f : Str} (hf : f.map Char.toLower ∉ changed2 extra) :
    Wire.linesOf (extra ++ h') f = Wire.linesOf h f := by
  simp only [changed2, List.cons_append, List.mem_cons, List.mem_append, not_or] at hf
  rw [linesOf_append, lines_same hl hf.1 hf.2.1 (fun x hx => hw x (by simp [hx]))]
  have : Wire.linesOf extra f = [] := by
    unfold Wire.linesOf
    rw [List.filter_eq_nil_iff.2 (fun kv hkv => ?_), List.map_nil]
    have hk : kv.1.map Char.toLower = kv.1 := (hw kv (by simp [hkv])).lower
    have : kv.1.map Char.toLower ≠ f.map Char.toLower := fun e => hf.2.2 (by rw [← e, hk]; exact List.mem_map_of_mem hkv)
    simpa using this
  rw [this, List.nil_append]

theorem sentAs_target (hr : Sendable r) : OriginTarget ((originForm r.uri).pathData ++ Wire.queryText r.uri) (originForm r.uri) := by
  refine ⟨rfl, rfl, rfl, ?_, ?_, ?_⟩
  · rcases hr.path with e | e
    · simp [originForm, e]
    · have : r.uri.pathData ≠ [] := by intro h; rw [h] at e; cases e
      simp [originForm, this, e]
  · unfold originForm
    dsimp only
    split
    · decide
    · exact hr.mark
  · intro c hc
    rcases List.mem_append.1 hc with hc | hc
    · unfold originForm at hc
      dsimp only at hc
      split at hc
      · simp only [List.mem_singleton] at hc; subst hc; unfold Visible; decide
      · exact hr.pathChars c hc
    · unfold Wire.queryText at hc
      cases hq : r.uri.query with
      | none => rw [hq] at hc; cases hc
      | some q =>
        rw [hq] at hc
        rcases List.mem_cons.1 hc with rfl | hc
        · unfold Visible; decide
        · exact hr.queryChars q hq c hc

/-- C129: what a client sends is the list of a request, with method, scheme, authority, path and query, and the lines that were sent. -/
theorem C129_sent (hr : Sendable r) (hc : Carriable (extra ++ r.headers)) (hx : ∀ kv ∈ extra, kv.1 ∉ connectionNames) (h : SentAs extra r fs) :
    ∃ h', Lines r.headers h' ∧ ∀ d, ReqFields fs ⟨r.method, { originForm r.uri with scheme := r.uri.scheme, authority := r.uri.authority }, extra ++ h', d⟩ := by
  obtain ⟨ctl, s, a, h', e1, e2, h1, h2, rfl⟩ := h
  have c1 : Carriable extra := ⟨fun x hx => hc.wf x (by simp [hx]), fun x hx => hc.ok x (by simp [hx]), fun x hx => hc.outer x (by simp [hx])⟩
  have c2 : Carriable r.headers := ⟨fun x hx => hc.wf x (by simp [hx]), fun x hx => hc.ok x (by simp [hx]), fun x hx => hc.outer x (by simp [hx])⟩
  obtain ⟨c3, c4⟩ := lines_line h1 c2
  refine ⟨h', h1, fun d => ⟨ctl, s, a, _, originForm r.uri, rfl, h2, hr.method, sentAs_target hr, by rw [e1, e2], ?_⟩⟩
  exact carriable_lines (carriable_append c1 c3) (fun kv hkv => (List.mem_append.1 hkv).elim (hx kv) (c4 kv))

/-- C129: the server has the request as over HTTP/1.1, but with scheme and authority. -/
theorem C129_arrives (hr : Sendable r) (hc : Carriable (extra ++ r.headers)) (hx : ∀ kv ∈ extra, kv.1 ∉ connectionNames) (h : SentAs extra r fs)
    (h' : ReqFields fs r') : Carriable r'.headers ∧ ∃ s a r0, r.uri.scheme = some s ∧ r.uri.authority = some a ∧ r' = restored s a r0 ∧ Arrives (changed2 extra) r r0 := by
  have ⟨_, s, a, _, hs, ha, _⟩ := h
  obtain ⟨l, h1, h2⟩ := C129_sent hr hc hx h
  obtain ⟨e1, e2, e3⟩ := C129_unique h' (h2 r'.body)
  have c1 : Carriable extra := ⟨fun x hx => hc.wf x (by simp [hx]), fun x hx => hc.ok x (by simp [hx]), fun x hx => hc.outer x (by simp [hx])⟩
  have c2 : Carriable r.headers := ⟨fun x hx => hc.wf x (by simp [hx]), fun x hx => hc.ok x (by simp [hx]), fun x hx => hc.outer x (by simp [hx])⟩
  refine ⟨e3 ▸ carriable_append c1 (lines_line h1 c2).1, s, a, { r' with uri := originForm r.uri }, hs, ha, ?_, ⟨e1, rfl, fun f hf => ?_⟩⟩
  · have : r'.uri = { originForm r.uri with scheme := some s, authority := some a } := by rw [e2, hs, ha]
    cases r'
    simp only [restored]
    simp only at this
    rw [this]
  · show Wire.linesOf r'.headers f = _
    rw [e3]
    exact changed2_same h1 hc.wf hf

/-- C129: every component is worth the same on both sides, if it is not taken from the cookies, from the fields of the connection or from a line that the client's
program added. -/
theorem C129_value (hr : Sendable r) (hu : Absolute r.uri) (hm : r.method ≠ c! "CONNECT") (hc : Carriable (extra ++ r.headers))
    (hx : ∀ kv ∈ extra, kv.1 ∉ connectionNames) (h : SentAs extra r fs) (h' : ReqFields fs r') {i : CId} (hi : Clear (changed2 extra) i) (v : Str) :
    Wire.ValueIn (.req r') i v ↔ Wire.ValueIn (.req r) i v := by
  obtain ⟨_, s, a, r0, hs, ha, rfl, harr⟩ := C129_arrives hr hc hx h h'
  exact C124_restored harr hu hm hs ha hi v

/-- Signing adds lines that HTTP/2 can carry. -/
theorem carriable_signed {m : Msg} {rf : Option Request} {l : List Signer} {ls : List Headers} (h : List.Forall₂ (Wire.Added m rf) l ls)
    (hl : ∀ x ∈ l, LabelStart x) (hc : Carriable (extra ++ m.headers)) : Carriable (extra ++ (m.headers ++ ls.flatten)) := by
  obtain ⟨_, c2, c3, c4⟩ := all_added h hl
  rw [← List.append_assoc]
  exact carriable_append hc ⟨c2, c3, c4⟩

/-- C129: a client signs a request and sends it. Some server can read it, and whatever a server reads, it verifies with the result that the client gets, whatever
of scheme and authority is covered. -/
theorem C129_deliver {l : List Signer} {h : Headers} (hr : Sendable r) (hu : Absolute r.uri) (hm : r.method ≠ c! "CONNECT") (hc : Carriable (extra ++ r.headers))
    (hx : ∀ kv ∈ extra, kv.1 ∉ connectionNames) (ht : Untouched (changed2 extra)) (hsign : setSignatures (.req r) l none = (h, .ok ()))
    (hl : ∀ x ∈ l, LabelStart x) (hs : SentAs extra { r with headers := h } fs) :
    (∃ r', ReqFields fs r') ∧ ∀ r', ReqFields fs r' →
      (∀ k, Wire.Carries h k → ∀ kv ∈ k, ∀ i ∈ kv.2.params.covered, Clear (changed2 extra) i) → ∀ (now : UInt64) (keys : List (VerifyingKey × Option Str)),
      verifySignatures now (.req r') keys none = verifySignatures now (.req { r with headers := h }) keys none ∧
      ∀ k id, verifySignature now (.req r') k id none = verifySignature now (.req { r with headers := h }) k id none := by
  have hwr : WfHeaders r.headers := fun kv hkv => hc.wf kv (by simp [hkv])
  obtain ⟨ls, h1, rfl⟩ := (C65_sign (m := .req r) hwr (by simp) l h).1 hsign
  have hc1 : Carriable (extra ++ ((Msg.req r).headers ++ ls.flatten)) := carriable_signed h1 hl hc
  have hr1 : Sendable { r with headers := (Msg.req r).headers ++ ls.flatten } := ⟨hr.method, hr.path, hr.mark, hr.pathChars, hr.queryChars⟩
  constructor
  · obtain ⟨_, _, h2⟩ := C129_sent hr1 hc1 hx hs
    exact ⟨_, h2 (.data [])⟩
  · intro r' h' hcl now keys
    obtain ⟨hw', s, a, r0, e1, e2, rfl, harr⟩ := C129_arrives hr1 hc1 hx hs h'
    exact C124_restored_verify harr hu hm ht e1 e2 (fun kv hkv => hc1.wf kv (List.mem_append_right _ hkv)) hw'.wf hcl now keys

/-! ### Answers -/

/-- C129: what a server sends is the list of a response with its status and the lines that were sent. -/
theorem C129_answered (hn : Status s.status) (hc : Carriable (extra ++ s.headers)) (hx : ∀ kv ∈ extra, kv.1 ∉ connectionNames) (h : AnsweredAs extra s fs) :
    ∃ h', Lines s.headers h' ∧ Carriable (extra ++ h') ∧ ∀ d, ResFields fs ⟨s.status, extra ++ h', d⟩ := by
  obtain ⟨h', h1, rfl⟩ := h
  have c1 : Carriable extra := ⟨fun x hx => hc.wf x (by simp [hx]), fun x hx => hc.ok x (by simp [hx]), fun x hx => hc.outer x (by simp [hx])⟩
  have c2 : Carriable s.headers := ⟨fun x hx => hc.wf x (by simp [hx]), fun x hx => hc.ok x (by simp [hx]), fun x hx => hc.outer x (by simp [hx])⟩
  obtain ⟨c3, c4⟩ := lines_line h1 c2
  exact ⟨h', h1, carriable_append c1 c3, fun d => ⟨rfl, hn, carriable_lines (carriable_append c1 c3) (fun kv hkv => (List.mem_append.1 hkv).elim (hx kv) (c4 kv))⟩⟩

/-- Components of a response that are the same on both sides. -/
def BothWays2 (there back : List Str) (i : CId) : Prop := if CParam.req ∈ i.params then Clear there i else Clear back i

/-- C129: the server verifies its own answer with the request as it came; the client verifies what it gets with the request as it was sent. Both get the same result,
also if components of the request are covered. -/
theorem C129_answer {there : List Str} (hval : ∀ i, Clear there i → ∀ v, Wire.ValueIn (.req r') i v ↔ Wire.ValueIn (.req r) i v) (hwr : WfHeaders r.headers)
    (hwr' : WfHeaders r'.headers) {l : List Signer} {h : Headers} (hn : Status s.status) (hc : Carriable (extra ++ s.headers))
    (hx : ∀ kv ∈ extra, kv.1 ∉ connectionNames) (hsign : setSignatures (.res s) l (some r') = (h, .ok ())) (hl : ∀ x ∈ l, LabelStart x)
    (ht : Untouched (changed2 extra)) (hs : AnsweredAs extra { s with headers := h } fs) (hread : ResFields fs s')
    (hcl : ∀ k, Wire.Carries h k → ∀ kv ∈ k, ∀ i ∈ kv.2.params.covered, BothWays2 there (changed2 extra) i)
    (now : UInt64) (keys : List (VerifyingKey × Option Str)) :
    verifySignatures now (.res s') keys (some r) = verifySignatures now (.res { s with headers := h }) keys (some r') ∧
    ∀ k id, verifySignature now (.res s') k id (some r) = verifySignature now (.res { s with headers := h }) k id (some r') := by
  have hws : WfHeaders s.headers := fun kv hkv => hc.wf kv (by simp [hkv])
  have hf : ∀ q, some r = some q → WfHeaders q.headers := by intro q e; injection e with e; exact e ▸ hwr
  have hf' : ∀ q, some r' = some q → WfHeaders q.headers := by intro q e; injection e with e; exact e ▸ hwr'
  obtain ⟨ls, h1, e0⟩ := (C65_sign (m := .res s) hws hf' l h).1 hsign
  have hc1 : Carriable (extra ++ h) := e0 ▸ carriable_signed (m := .res s) h1 hl hc
  obtain ⟨lt, g1, g2, g3⟩ := C129_answered (s := { s with headers := h }) hn hc1 hx hs
  obtain ⟨a1, a3⟩ := C129_unique_response hread (g3 s'.body)
  have hlines : ∀ f : Str, f.map Char.toLower ∉ changed2 extra → Wire.linesOf s'.headers f = Wire.linesOf h f :=
    fun f hf => by rw [a3]; exact changed2_same g1 hc1.wf hf
  have hw' : WfHeaders s'.headers := a3 ▸ g2.wf
  have hwh : WfHeaders h := fun kv hkv => hc1.wf kv (List.mem_append_right _ hkv)
  have he := extract_of_lines (m := .res { s with headers := h }) (m' := .res s') hwh hw' (hlines (c! "signature-input") ht.1).symm (hlines (c! "signature") ht.2).symm
  obtain ⟨g1, g2⟩ := verify_congr_base (m := .res { s with headers := h }) (m' := .res s') hwh hw' hf' hf he (fun l hl kv hkv t => by
    have hb := hcl l (wireCarries_iff.2 ((extractSignatureHeaders_ok (m := .res { s with headers := h }) hwh l).1 hl)) kv hkv
    rw [← wireBaseOf_iff, ← wireBaseOf_iff]
    refine wireBase_congr (fun i hi v => ?_) t
    have hb := hb i hi
    unfold BothWays2 at hb
    unfold Wire.HasValue
    by_cases hq : CParam.req ∈ i.params
    · rw [if_pos hq] at hb
      have := hval i hb v
      simp [hq, this]
    · rw [if_neg hq] at hb
      have := response_value (s := { s with headers := h }) (s' := s') a1 hlines hb v
      simp [hq, this]) now keys
  exact ⟨g1.symm, fun k id => (g2 k id).symm⟩

/-! ### The whole exchange -/

theorem seal_untouched2 {h : Headers} {p : SigParams} {name : Option Str} {sk : SigningKey} {vk : VerifyingKey} {now : UInt64} (hs : Seal extra h p name sk vk now) :
    Untouched (changed2 extra) := by
  have key : ∀ f : Str, f.map Char.toLower = f → f ∉ c! "cookie" :: connectionNames → Wire.linesOf (extra ++ h) f = [] → f ∉ changed2 extra := by
    intro f hf hn he hm
    rcases List.mem_append.1 hm with hm | hm
    · exact hn hm
    obtain ⟨kv, hkv, rfl⟩ := List.mem_map.1 hm
    have := mem_linesOf (List.mem_append_left h hkv) rfl
    rw [he] at this; cases this
  exact ⟨key _ (by decide) (by decide) hs.noInput, key _ (by decide) (by decide) hs.noSignature⟩

/-- C129: a whole exchange over HTTP/2. The client signs a request and sends it; the server finds it valid, signs an answer and sends it; the client finds the answer
valid for the request that it sent. Scheme, authority and target URI may be covered by both. -/
theorem C129_exchange {p p' : SigParams} {name name' : Option Str} {sk sk' : SigningKey} {vk vk' : VerifyingKey} {now now' : UInt64} {extra' : Headers}
    (hq : Seal extra r.headers p name sk vk now) (ho : ∀ kv ∈ extra ++ r.headers, NoOuter kv.2) (hx : ∀ kv ∈ extra, kv.1 ∉ connectionNames)
    (hr : Sendable r) (hu : Absolute r.uri) (hm : r.method ≠ c! "CONNECT") (hc : ∀ i ∈ p.covered, Clear (changed2 extra) i)
    {r1 r2 : Request} (hsign : r.setSignature p sk name = (r1, .ok ())) (hsent : SentAs extra r1 fs) (hread : ReqFields fs r2)
    (ha : Seal extra' s.headers p' name' sk' vk' now') (ho' : ∀ kv ∈ extra' ++ s.headers, NoOuter kv.2) (hx' : ∀ kv ∈ extra', kv.1 ∉ connectionNames)
    (hn : Status s.status) (hc' : ∀ i ∈ p'.covered, BothWays2 (changed2 extra) (changed2 extra') i)
    {s1 s2 : Response} (hsign' : s.setSignature p' sk' name' (some r2) = (s1, .ok ())) {fs' : Headers} (hsent' : AnsweredAs extra' s1 fs') (hread' : ResFields fs' s2) :
    r2.verifySignature now vk none = .ok (name.getD (c! "sig")) ∧ s2.verifySignature now' vk' none (some r1) = .ok (name'.getD (c! "sig")) := by
  have hcr : Carriable (extra ++ r.headers) := ⟨hq.wf, hq.ok, ho⟩
  have hcs : Carriable (extra' ++ s.headers) := ⟨ha.wf, ha.ok, ho'⟩
  have hw : WfHeaders r.headers := fun kv hkv => hq.wf kv (by simp [hkv])
  have hws : WfHeaders s.headers := fun kv hkv => ha.wf kv (by simp [hkv])
  obtain ⟨f1, f2⟩ := seal_fresh hq
  have h1 := C01_request (now := now) r hw f1 f2 hq.params hq.notSelf hq.label hq.pair hsign hq.fresh (id := none) (Or.inl rfl)
  injection hsign with e1 e2
  subst e1
  have hset : setSignatures (.req r) [(p, sk, name)] none = ((setSignatures (.req r) [(p, sk, name)] none).1, .ok ()) := Prod.ext rfl e2
  have h2 := ((C129_deliver hr hu hm hcr hx (seal_untouched2 hq) hset (legal_start hq.label) hsent).2 r2 hread
    (fun k hk kv hkv i hi => hc i (by rwa [seal_carries (m := .req r) hw (by simp) f1 f2 hq.params hq.notSelf hq.label hset hk kv hkv] at hi)) now []).2 vk none
  refine ⟨h2.trans h1, ?_⟩
  obtain ⟨ls, g1, g2⟩ := (C65_sign (m := .req r) hw (by simp) _ _).1 hset
  have hc1 : Carriable (extra ++ (setSignatures (.req r) [(p, sk, name)] none).1) := by rw [g2]; exact carriable_signed (m := .req r) g1 (legal_start hq.label) hcr
  have hr1 : Sendable { r with headers := (setSignatures (.req r) [(p, sk, name)] none).1 } := ⟨hr.method, hr.path, hr.mark, hr.pathChars, hr.queryChars⟩
  have hw2 : WfHeaders r2.headers := (C129_arrives hr1 hc1 hx hsent hread).1.wf
  have hf2 : ∀ q, some r2 = some q → WfHeaders q.headers := by intro q e; injection e with e; exact e ▸ hw2
  obtain ⟨k1, k2⟩ := seal_fresh ha
  have h3 := C02_response (now := now') s hws hf2 k1 k2 ha.params ha.notSelf ha.label ha.pair hsign' ha.fresh (id := none) (Or.inl rfl)
  injection hsign' with d1 d2
  subst d1
  have hset' : setSignatures (.res s) [(p', sk', name')] (some r2) = ((setSignatures (.res s) [(p', sk', name')] (some r2)).1, .ok ()) := Prod.ext rfl d2
  have h4 := (C129_answer (there := changed2 extra) (fun i hi v => C129_value hr1 hu hm hc1 hx hsent hread hi v)
    (fun kv hkv => hc1.wf kv (List.mem_append_right _ hkv)) hw2 hn hcs hx' hset' (legal_start ha.label) (seal_untouched2 ha) hsent' hread'
    (fun k hk kv hkv i hi => hc' i (by rwa [seal_carries (m := .res s) hws hf2 k1 k2 ha.params ha.notSelf ha.label hset' hk kv hkv] at hi)) now' []).2 vk' none
  exact h4.trans h3

/-! ### Examples -/

namespace Ex129
open Ex124 Ex126 Ex128

/-- Components that are lost over HTTP/1.1, and a field. -/
def fullIds : List CId := [⟨.derived .targetUri, []⟩, ⟨.derived .authority, []⟩, ⟨.derived .scheme, []⟩, ⟨.field (c! "date"), []⟩]
/-- The same in an answer. -/
def backIds : List CId := [⟨.derived .status, []⟩, ⟨.derived .targetUri, [.req]⟩]

theorem full_safe : SafeParams (exParams fullIds) where
  created := by intro t h; cases h
  expires := by intro t h; cases h
  nonce := by intro t h; cases h
  alg := by intro t h; cases h
  keyid := by intro t h; cases h
  tag := by intro t h; cases h
  ids := by
    intro i hi
    simp only [exParams, fullIds, List.mem_cons, List.not_mem_nil, or_false] at hi
    rcases hi with rfl | rfl | rfl | rfl
    · exact ⟨⟨by simp, by simp, by simp, by intro f h; cases h⟩, (by intro f h; cases h), by simp, by simp⟩
    · exact ⟨⟨by simp, by simp, by simp, by intro f h; cases h⟩, (by intro f h; cases h), by simp, by simp⟩
    · exact ⟨⟨by simp, by simp, by simp, by intro f h; cases h⟩, (by intro f h; cases h), by simp, by simp⟩
    · exact ⟨⟨by simp, by simp, by simp, by intro f h; injection h with h; subst h; decide⟩,
        (by intro f h; injection h with h; subst h; decide), by simp, by simp⟩
  distinct := by simp [exParams, fullIds, SameId]

theorem back_safe : SafeParams (exParams backIds) where
  created := by intro t h; cases h
  expires := by intro t h; cases h
  nonce := by intro t h; cases h
  alg := by intro t h; cases h
  keyid := by intro t h; cases h
  tag := by intro t h; cases h
  ids := by
    intro i hi
    simp only [exParams, backIds, List.mem_cons, List.not_mem_nil, or_false] at hi
    rcases hi with rfl | rfl
    · exact ⟨⟨by simp, by simp, by simp, by intro f h; cases h⟩, (by intro f h; cases h), by simp, by simp⟩
    · exact ⟨⟨by simp, by simp, by simp, by intro f h; cases h⟩, (by intro f h; cases h), by simp, by simp⟩
  distinct := by simp [exParams, backIds, SameId]

/-- A line that the client's program adds. -/
def agent : Headers := [(c! "user-agent", utf8 (c! "x"))]
/-- The client's request, with a field of the connection and a cookie. -/
def full : Request := { sent with headers := [(c! "date", utf8 (c! "Tue")), (c! "connection", utf8 (c! "close")), (c! "cookie", utf8 (c! "a=1; b=2"))] }

theorem names2 {h : Headers} (hn : ∀ kv ∈ h, kv.1 ∈ [c! "date", c! "user-agent", c! "connection", c! "cookie", c! "signature", c! "signature-input"]) : WfHeaders h := by
  intro kv hkv
  have := hn kv hkv
  simp only [List.mem_cons, List.not_mem_nil, or_false] at this
  rcases this with e | e | e | e | e | e <;> rw [e] <;> exact ⟨by decide, by decide, by decide⟩

theorem fullSeal : Seal agent full.headers (exParams fullIds) none (toySign 7) (toyVerify 7) 100 := by
  refine ⟨names2 (by decide +kernel), lines_ok (by decide +kernel), by decide +kernel, by decide +kernel, full_safe, ?_, by decide, toy_pair 7, by intro e h; cases h⟩
  intro i hi _
  simp only [exParams, fullIds, List.mem_cons, List.not_mem_nil, or_false] at hi
  rcases hi with rfl | rfl | rfl | rfl
  · exact ⟨by simp, by intro f h; cases h⟩
  · exact ⟨by simp, by intro f h; cases h⟩
  · exact ⟨by simp, by intro f h; cases h⟩
  · exact ⟨by simp, by intro f h; injection h with h; subst h; decide⟩

theorem backSeal : Seal [] exRes.headers (exParams backIds) none (toySign 9) (toyVerify 9) 100 := by
  refine ⟨wfNames (by decide +kernel), lines_ok (by decide +kernel), by decide +kernel, by decide +kernel, back_safe, ?_, by decide, toy_pair 9, by intro e h; cases h⟩
  intro i hi hr
  simp only [exParams, backIds, List.mem_cons, List.not_mem_nil, or_false] at hi
  rcases hi with rfl | rfl
  · exact ⟨by simp, by intro f h; cases h⟩
  · exact absurd (by simp) hr

/-- How the request and the answer are sent. -/
def fullSigned : Request := (full.setSignature (exParams fullIds) (toySign 7) none).1
def fullFields : Headers :=
  [(c! ":method", utf8 (c! "GET")), (c! ":path", utf8 (c! "/a?b")), (c! ":authority", utf8 (c! "Example.com")), (c! ":scheme", utf8 (c! "https")),
    (c! "user-agent", utf8 (c! "x")), (c! "date", utf8 (c! "Tue")), (c! "cookie", utf8 (c! "a=1")), (c! "cookie", utf8 (c! "b=2"))] ++ fullSigned.headers.drop 3
def fullGot : Request := ⟨c! "GET", sent.uri, fullFields.drop 4, .data []⟩
def back : Response := (exRes.setSignature (exParams backIds) (toySign 9) none (some fullGot)).1
def backFields : Headers := (c! ":status", utf8 (c! "404")) :: back.headers

theorem keepAll : ∀ {h : Headers}, (∀ kv ∈ h, kv.1 ∉ connectionNames) → Lines h h
  | [], _ => .nil
  | _ :: _, hn => .keep (hn _ (by simp)) (keepAll (fun kv hkv => hn kv (by simp [hkv])))

theorem fullSent : SentAs agent fullSigned fullFields := by
  have e : fullSigned.headers = [(c! "date", utf8 (c! "Tue")), (c! "connection", utf8 (c! "close")), (c! "cookie", utf8 (c! "a=1") ++ 59 :: 32 :: utf8 (c! "b=2"))] ++
      fullSigned.headers.drop 3 := by decide +kernel
  refine ⟨fullFields.take 4, c! "https", c! "Example.com", (fullFields.drop 5), rfl, rfl, ?_, ?_, by decide +kernel⟩
  · rw [e]
    refine .keep (by decide) (.drop (by decide) (.cut (by decide +kernel) (by decide +kernel) (.keep (by decide) (.keep (by decide) ?_))))
    exact keepAll (by decide +kernel)
  · have : reqControl fullSigned.method (c! "https") (c! "Example.com") ((originForm fullSigned.uri).pathData ++ Wire.queryText fullSigned.uri) =
        [(c! ":method", utf8 (c! "GET")), (c! ":scheme", utf8 (c! "https")), (c! ":authority", utf8 (c! "Example.com")), (c! ":path", utf8 (c! "/a?b"))] := by decide +kernel
    rw [this]
    decide +kernel

theorem outer_ok {h : Headers} (hn : ∀ kv ∈ h, NoOuter kv.2) : ∀ kv ∈ h, NoOuter kv.2 := hn

theorem fullReads : ReqFields fullFields fullGot := by
  refine ⟨fullFields.take 4, c! "https", c! "Example.com", c! "/a?b", originForm sent.uri, (List.take_append_drop 4 fullFields).symm, ?_, (sendable []).method, ?_,
    by decide +kernel, ?_⟩
  · have : reqControl fullGot.method (c! "https") (c! "Example.com") (c! "/a?b") =
        [(c! ":method", utf8 (c! "GET")), (c! ":scheme", utf8 (c! "https")), (c! ":authority", utf8 (c! "Example.com")), (c! ":path", utf8 (c! "/a?b"))] := by decide +kernel
    rw [this]
    decide +kernel
  · have := sentAs_target (sendable [])
    have e : (originForm sent.uri).pathData ++ Wire.queryText sent.uri = c! "/a?b" := by decide +kernel
    exact e ▸ this
  · exact carriable_lines ⟨names2 (by decide +kernel), lines_ok (by decide +kernel), outer_ok (by decide +kernel)⟩ (by decide +kernel)

theorem backReads : ResFields backFields back :=
  ⟨by decide +kernel, ⟨by decide +kernel, by decide +kernel⟩,
    carriable_lines ⟨names2 (by decide +kernel), lines_ok (by decide +kernel), outer_ok (by decide +kernel)⟩ (by decide +kernel)⟩

theorem fullClear : ∀ i ∈ fullIds, Clear (changed2 agent) i := by
  intro i hi
  simp only [fullIds, List.mem_cons, List.not_mem_nil, or_false] at hi
  rcases hi with rfl | rfl | rfl | rfl
  · exact ⟨(by intro f h; cases h), by intro h; cases h⟩
  · exact ⟨(by intro f h; cases h), by intro h; cases h⟩
  · exact ⟨(by intro f h; cases h), by intro h; cases h⟩
  · exact ⟨(by intro f h; injection h with h; subst h; decide), by intro h; cases h⟩

theorem backClear : ∀ i ∈ backIds, BothWays2 (changed2 agent) (changed2 []) i := by
  intro i hi
  simp only [backIds, List.mem_cons, List.not_mem_nil, or_false] at hi
  unfold BothWays2
  rcases hi with rfl | rfl
  · rw [if_neg (by simp)]
    exact ⟨(by intro f h; cases h), by intro h; cases h⟩
  · rw [if_pos (by simp)]
    exact ⟨(by intro f h; cases h), by intro h; cases h⟩

/-- The hypotheses of the theorems: an exchange whose signatures cover scheme, authority and target URI; a line of the connection is left out and the cookie is cut. -/
example : fullGot.verifySignature 100 (toyVerify 7) none = .ok (c! "sig") ∧ back.verifySignature 100 (toyVerify 9) none (some fullSigned) = .ok (c! "sig") := by
  have hs1 : full.setSignature (exParams fullIds) (toySign 7) none = (fullSigned, .ok ()) := Prod.ext rfl (by decide +kernel)
  have hs2 : exRes.setSignature (exParams backIds) (toySign 9) none (some fullGot) = (back, .ok ()) := Prod.ext rfl (by decide +kernel)
  exact C129_exchange fullSeal (outer_ok (by decide +kernel)) (by decide +kernel) (sendable _) absolute (by decide) fullClear hs1 fullSent fullReads
    backSeal (outer_ok (by decide +kernel)) (by decide) ⟨by decide +kernel, by decide +kernel⟩ backClear hs2
    ⟨_, keepAll (by decide +kernel), by decide +kernel⟩ backReads

/-- Keys that sign the sum of the octets; the sum tells a semicolon from a comma. -/
def sumSign : SigningKey := ⟨fun d => .ok [d.sum], c! "sum", .ed25519⟩
def sumVerify : VerifyingKey := ⟨fun d s => if s = [d.sum] then .ok () else .err .invalidSignature, c! "sum", .ed25519⟩

/-- A request whose signature covers the cookie. -/
def cookieReq : Request := { sent with headers := [(c! "cookie", utf8 (c! "a=1; b=2"))] }
def cookieSigned : Request := (cookieReq.setSignature (exParams [⟨.field (c! "cookie"), []⟩]) sumSign none).1
def cookieFields : Headers :=
  reqControl (c! "GET") (c! "https") (c! "Example.com") (c! "/a?b") ++ [(c! "cookie", utf8 (c! "a=1")), (c! "cookie", utf8 (c! "b=2"))] ++ cookieSigned.headers.drop 1
def cookieGot : Request := ⟨c! "GET", sent.uri, cookieFields.drop 4, .data []⟩

end Ex129

set_option maxRecDepth 20000 in
open Ex124 Ex126 Ex129 in
/-- C129: a cookie that is cut on the way, as RFC 9113 section 8.2.3 allows, makes the signature over it invalid: the parts are not put together with a semicolon before
they are read. -/
theorem C129_cookie : SentAs [] cookieSigned cookieFields ∧ ReqFields cookieFields cookieGot ∧ cookieSigned.verifySignature 0 sumVerify none = .ok (c! "sig") ∧
    cookieGot.verifySignature 0 sumVerify none = .err .invalidSignature := by
  have e : cookieSigned.headers = (c! "cookie", utf8 (c! "a=1") ++ 59 :: 32 :: utf8 (c! "b=2")) :: cookieSigned.headers.drop 1 := by decide +kernel
  have et : (originForm sent.uri).pathData ++ Wire.queryText sent.uri = c! "/a?b" := by decide +kernel
  have htgt : OriginTarget (c! "/a?b") (originForm sent.uri) := by
    have := sentAs_target (sendable [])
    exact et ▸ this
  refine ⟨⟨cookieFields.take 4, c! "https", c! "Example.com", cookieFields.drop 4, rfl, rfl, ?_, ?_, by decide +kernel⟩,
    ⟨cookieFields.take 4, c! "https", c! "Example.com", c! "/a?b", originForm sent.uri, (List.take_append_drop 4 _).symm, ?_, (sendable []).method,
      htgt, by decide +kernel, ?_⟩, by decide +kernel, by decide +kernel⟩
  · rw [e]
    exact .cut (by decide +kernel) (by decide +kernel) (.keep (by decide) (.keep (by decide) (keepAll (by decide +kernel))))
  · have : cookieFields.take 4 = reqControl cookieSigned.method (c! "https") (c! "Example.com") ((originForm cookieSigned.uri).pathData ++ Wire.queryText cookieSigned.uri) := by
      decide +kernel
    rw [this]
  · have : cookieFields.take 4 = reqControl cookieGot.method (c! "https") (c! "Example.com") (c! "/a?b") := by decide +kernel
    rw [this]
  · exact carriable_lines ⟨names2 (by decide +kernel), lines_ok (by decide +kernel), outer_ok (by decide +kernel)⟩ (by decide +kernel)

end Verif
