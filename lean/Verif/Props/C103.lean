import Verif.Proofs.ErrVerify
import Verif.Proofs.ErrSigning
import Verif.Props.C75
/-!
C103: what the errors say. For every failure of C75 the exact message; what a message of an error may contain and what it does not tell.
-/
namespace Verif
open Sfv Spec Grammar

section
variable {L : ErrLib} {m : Msg} {rf : Option Request}

/-! ### The messages -/

/-- C103: without the messages the functions are those of the other properties, so every failure has a message and messages change nothing else. -/
theorem C103_same (L : ErrLib) :
    (∀ m rf i, (extractForT L m rf i).mapErr HyperErrT.kind = extractFor m rf i) ∧
    (∀ m p rf, (buildBaseT L m p rf).mapErr HyperErrT.kind = buildBase m p rf) ∧
    (∀ m l rf, (setSignaturesT L m l rf).1 = (setSignatures m l rf).1 ∧ (setSignaturesT L m l rf).2.mapErr HyperErrT.kind = (setSignatures m l rf).2) ∧
    (∀ s, (CId.ofStrT L s).mapErr SigErrT.kind = CId.ofStr s) ∧
    (∀ s, (Component.ofStrT L s).mapErr SigErrT.kind = Component.ofStr s) ∧
    (∀ s, (SigParams.ofStrT L s).mapErr SigErrT.kind = SigParams.ofStr s) ∧
    (∀ s t, (SigHeaders.tryParseT L s t).mapErr SigErrT.kind = SigHeaders.tryParse s t) ∧
    (∀ m, (extractSignatureHeadersT L m).mapErr HyperErrT.kind = extractSignatureHeaders m) ∧
    (∀ now m k id rf, (verifySignatureT L now m k id rf).mapErr HyperErrT.kind = verifySignature now m k id rf) ∧
    ∀ h b, (verifyDigestT L h b).mapErr DigestErrT.kind = verifyDigest h b :=
  ⟨extractForT_kind L, buildBaseT_kind L, setSignaturesT_kind L, ofStrT_kind L, componentOfStrT_kind L, paramsOfStrT_kind L, tryParseT_kind L,
    extractSignatureHeadersT_kind L, verifySignatureT_kind L, verifyDigestT_kind L⟩

/-- C103: a component has no value, and what is said. -/
theorem C103_value (hw : WfHeaders m.headers) (hf : ∀ r, rf = some r → WfHeaders r.headers) (i : CId) (e : HyperErr) (t : Str) :
    extractForT L m rf i = .err ⟨e, t⟩ ↔ Wire.ValueSays L m rf i e t := extractForT_err hw hf

/-- C103: a base cannot be built; the message is that of the first component without a value. -/
theorem C103_base (hw : WfHeaders m.headers) (hf : ∀ r, rf = some r → WfHeaders r.headers) (p : SigParams) (e : HyperErr) (t : Str) :
    buildBaseT L m p rf = .err ⟨e, t⟩ ↔ Wire.BaseSays L m rf p e t := buildBaseT_err hw hf

/-- C103: signing fails. -/
theorem C103_sign (hw : WfHeaders m.headers) (hf : ∀ r, rf = some r → WfHeaders r.headers)
    (l : List (SigParams × SigningKey × Option Str)) (e : HyperErr) (t : Str) :
    (setSignaturesT L m l rf).2 = .err ⟨e, t⟩ ↔ Wire.SigningSays L m rf l e t := signingT_err hw hf l e t

/-- C103: a text is no identifier. -/
theorem C103_id (s : Str) (e : SigErr) (t : Str) : CId.ofStrT L s = .err ⟨e, t⟩ ↔ Wire.IdTextSays L s e t := ofStrT_err

/-- C103: a text is no component line. -/
theorem C103_line (s : Str) (e : SigErr) (t : Str) : Component.ofStrT L s = .err ⟨e, t⟩ ↔ Wire.LineSays L s e t := componentOfStrT_err

/-- C103: a text is no set of parameters. -/
theorem C103_params (s : Str) (e : SigErr) (t : Str) : SigParams.ofStrT L s = .err ⟨e, t⟩ ↔ Wire.ParamsTextSays L s e t := paramsTextT_err

/-- C103: two texts are no Signature and Signature-Input. -/
theorem C103_headers (s i : Str) (e : SigErr) (t : Str) : SigHeaders.tryParseT L s i = .err ⟨e, t⟩ ↔ Wire.HeadersSay L s i e t := headersT_err

/-- C103: a message carries no readable signatures. -/
theorem C103_carries (hw : WfHeaders m.headers) (e : HyperErr) (t : Str) :
    extractSignatureHeadersT L m = .err ⟨e, t⟩ ↔ Wire.CarriesSay L m.headers e t := carriesT_err hw

/-- C103: verification fails. -/
theorem C103_verify (hw : WfHeaders m.headers) (hf : ∀ r, rf = some r → WfHeaders r.headers) (now : UInt64) (k : VerifyingKey) (id : Option Str)
    (e : HyperErr) (t : Str) : verifySignatureT L now m k id rf = .err ⟨e, t⟩ ↔ Wire.VerifySays L now m rf k id e t := verifyT_err hw hf

/-- C103: a digest is not confirmed. -/
theorem C103_digest (h : Headers) (body : Body) (e : DigestErr) (t : Str) :
    verifyDigestT L h body = .err ⟨e, t⟩ ↔ Wire.DigestSays L h body e t := digestT_err

/-! ### What a message of an error does not tell -/

/-- C103: the error of verification does not depend on the key nor on the time: who does not hold the key learns nothing from it about the key, and
an expired signature is not told from a wrong one. -/
theorem C103_blind (hw : WfHeaders m.headers) (hf : ∀ r, rf = some r → WfHeaders r.headers) {now now' : UInt64} {k k' : VerifyingKey}
    {id : Option Str} {e e' : HyperErrT} (h : verifySignatureT L now m k id rf = .err e) (h' : verifySignatureT L now' m k' id rf = .err e') : e = e' := by
  obtain ⟨a, x⟩ := e
  obtain ⟨b, y⟩ := e'
  rw [C103_verify hw hf] at h h'
  have only : ∀ {now : UInt64} {k : VerifyingKey} {a : HyperErr} {x : Str}, Wire.VerifySays L now m rf k id a x →
      (Wire.linesOf m.headers (c! "signature-input") = [] ∨ Wire.linesOf m.headers (c! "signature") = []) ∧ a = .noSignatureHeaders ∧
        x = (if m.isReq then c! "The request does not have signature and signature-input headers"
          else c! "The response does not have signature and signature-input headers") ∨
      (Wire.linesOf m.headers (c! "signature-input") ≠ [] ∧ Wire.linesOf m.headers (c! "signature") ≠ []) ∧
        (extractSignatureHeadersT L m = .err ⟨a, x⟩ ∨ ∃ l, extractSignatureHeaders m = .ok l ∧
          ((∀ kv ∈ l, ¬ Wire.Candidate m rf id kv.2) ∧ a = .noSignatureHeaders ∧ x = c! "No signature as appropriate target for verification" ∨
            (∃ kv ∈ l, Wire.Candidate m rf id kv.2) ∧ a = .invalidSignature ∧ x = c! "Invalid signature for the verifying key")) := by
    intro now k a x h
    have hcar : ∀ l, Wire.Carries m.headers l → Wire.linesOf m.headers (c! "signature-input") ≠ [] ∧ Wire.linesOf m.headers (c! "signature") ≠ [] := by
      rintro l ⟨ts, us, h1, h2, h3, h4, _⟩
      constructor
      · intro h; unfold Wire.LinesText at h1; rw [h] at h1; cases h1; exact h3 rfl
      · intro h; unfold Wire.LinesText at h2; rw [h] at h2; cases h2; exact h4 rfl
    have hok : ∀ l, Wire.Carries m.headers l → extractSignatureHeaders m = .ok l :=
      fun l hl => (extractSignatureHeaders_ok hw l).2 (wireCarries_iff.1 hl)
    cases h with
    | request h1 h2 => subst h1; exact Or.inl ⟨h2, rfl, rfl⟩
    | response h1 h2 => subst h1; exact Or.inl ⟨h2, rfl, rfl⟩
    | carries h1 h2 h3 => exact Or.inr ⟨⟨h1, h2⟩, Or.inl ((carriesT_err hw).2 h3)⟩
    | none h1 h2 => exact Or.inr ⟨hcar _ h1, Or.inr ⟨_, hok _ h1, Or.inl ⟨h2, rfl, rfl⟩⟩⟩
    | invalid h1 h2 h3 => exact Or.inr ⟨hcar _ h1, Or.inr ⟨_, hok _ h1, Or.inr ⟨⟨_, h2, h3⟩, rfl, rfl⟩⟩⟩
  have clash : ∀ l z, extractSignatureHeaders m = .ok l → extractSignatureHeadersT L m ≠ .err z := by
    intro l z h1 h2
    have := extractSignatureHeadersT_kind L m
    rw [h1, h2] at this; cases this
  rcases only h with ⟨p, rfl, rfl⟩ | ⟨p, h1⟩ <;> rcases only h' with ⟨q, rfl, rfl⟩ | ⟨q, h2⟩
  · rfl
  · exact absurd p (not_or.2 q)
  · exact absurd q (not_or.2 p)
  · rcases h1 with h1 | ⟨l, h1, h3⟩ <;> rcases h2 with h2 | ⟨l', h2, h4⟩
    · rw [h1] at h2; injection h2
    · exact absurd h1 (clash _ _ h2)
    · exact absurd h2 (clash _ _ h1)
    · rw [h1] at h2; injection h2 with h2; subst h2
      rcases h3 with ⟨n, rfl, rfl⟩ | ⟨⟨kv, c, d⟩, rfl, rfl⟩ <;> rcases h4 with ⟨n', rfl, rfl⟩ | ⟨⟨kv', c', d'⟩, rfl, rfl⟩
      · rfl
      · exact absurd d' (n _ c')
      · exact absurd d (n' _ c)
      · rfl

/-- C103: nor does the error of a digest depend on what the body is, if there is one. -/
theorem C103_digest_blind {h : Headers} {b b' : Bytes} {e e' : DigestErrT} (h1 : verifyDigestT L h (.data b) = .err e)
    (h2 : verifyDigestT L h (.data b') = .err e') : e = e' := by
  unfold verifyDigestT at h1 h2
  cases hx : extractDigestT L h with
  | panic => rw [hx] at h1; cases h1
  | err x => rw [hx] at h1 h2; cases h1; cases h2; rfl
  | ok p =>
    rw [hx] at h1 h2
    simp only [Res.bind_ok] at h1 h2
    split at h1
    · cases h1
    · split at h2
      · cases h2
      · cases h1; cases h2; rfl

/-! ### What it may contain -/

/-- C103: the other crates' messages are printable. -/
structure PrintableLib (L : ErrLib) : Prop where
  item : ∀ s, ∀ c ∈ L.item s, Printable c
  list : ∀ s, ∀ c ∈ L.list s, Printable c
  dict : ∀ s, ∀ c ∈ L.dict s, Printable c
  bare : ∀ b, LegalBare b → ∀ c ∈ L.bare b, Printable c
  toStr : ∀ c ∈ L.toStr, Printable c

theorem printable_app {s t : Str} (h : ∀ c ∈ s, Printable c) (h' : ∀ c ∈ t, Printable c) : ∀ c ∈ s ++ t, Printable c := by
  intro c hc
  rcases List.mem_append.1 hc with hc | hc
  · exact h c hc
  · exact h' c hc

theorem quoted_printable {s : Str} (h : ∀ c ∈ s, Printable c) : ∀ c ∈ quoted s, Printable c :=
  printable_app (printable_app (by decide) h) (by decide)

theorem idSays_printable (hL : PrintableLib L) {it : Item} (hl : LegalItem it) {e : SigErr} {t : Str} (h : Wire.IdSays L it e t) :
    ∀ c ∈ t, Printable c := by
  cases h with
  | name => exact printable_app (by decide) (hL.bare _ hl.1)
  | param h1 h2 h3 =>
    obtain ⟨a, x, b, h4, ⟨_, rfl⟩, _⟩ := h3
    refine printable_app (by decide) (legalKey_printable (hl.2.2 x ?_).1)
    rw [h4]; simp
  | @place n c ps p h1 h2 h3 =>
    refine printable_app (by decide) (printable_app (quoted_printable ?_) ?_)
    · have hb := hl.1
      rw [h1] at hb
      cases h2 with
      | field => exact hb
      | @derived d =>
        show ∀ c ∈ (derivedText d).toList, Printable c
        clear h1 hb; cases d <;> decide
    · intro x hx
      obtain ⟨y, hy, hx⟩ := List.mem_flatten.1 hx
      obtain ⟨q, hq, rfl⟩ := List.mem_map.1 hy
      obtain ⟨kv, hkv, hof⟩ := forall₂_mem_right h3 q hq
      have hb := (hl.2.2 kv hkv).2
      cases hof with
      | sf => exact (by decide : ∀ x ∈ paramText .sf, Printable x) x hx
      | bs => exact (by decide : ∀ x ∈ paramText .bs, Printable x) x hx
      | tr => exact (by decide : ∀ x ∈ paramText .tr, Printable x) x hx
      | req => exact (by decide : ∀ x ∈ paramText .req, Printable x) x hx
      | key => exact printable_app (by decide) (quoted_printable hb) x hx
      | name => exact printable_app (by decide) (quoted_printable hb) x hx

theorem innerSays_printable (hL : PrintableLib L) {l : InnerList} (hl : LegalEntry (.inner l)) {e : SigErr} {t : Str} (h : Wire.InnerSays L l e t) :
    ∀ c ∈ t, Printable c := by
  cases h with
  | item h =>
    obtain ⟨a, x, b, h4, ⟨_, _, _, h5⟩, _⟩ := h
    exact idSays_printable hL (hl.1 x (by rw [h4]; simp)) h5
  | twice => decide

theorem headersSay_printable (hL : PrintableLib L) {s i : Str} {e : SigErr} {t : Str} (h : Wire.HeadersSay L s i e t) :
    ∀ c ∈ t, Printable c := by
  cases h with
  | input => exact hL.dict _
  | signature => exact hL.dict _
  | pair _ _ h => cases h <;> decide
  | params _ hb _ h =>
    obtain ⟨a, x, b', h4, ⟨il, h5, h6⟩, _⟩ := h
    have hleg := ((parseDict_legal ((C63_dict _ _).2 hb)).2 x (by rw [h4]; simp)).2
    rw [h5] at hleg
    exact innerSays_printable hL hleg h6

theorem carriesSay_printable (hL : PrintableLib L) {h : Headers} {e : HyperErr} {t : Str} (hh : Wire.CarriesSay L h e t) : ∀ c ∈ t, Printable c := by
  cases hh with
  | missing => decide
  | line => exact hL.toStr
  | parse _ _ _ _ h => exact headersSay_printable hL h

theorem sigLabel_printable (e : SigErr) : ∀ c ∈ e.label, Printable c := by cases e <;> decide
theorem hyperLabel_printable (e : HyperErr) : ∀ c ∈ e.label, Printable c := by
  cases e with
  | httpSig e => exact printable_app (by decide) (sigLabel_printable e)
  | _ => decide
theorem digestLabel_printable (e : DigestErr) : ∀ c ∈ e.label, Printable c := by cases e <;> decide

/-- C103: whatever message is received and asked about, the error that verification displays is printable ASCII, hence one line. -/
theorem C103_printable (hL : PrintableLib L) (hw : WfHeaders m.headers) (hf : ∀ r, rf = some r → WfHeaders r.headers) {now : UInt64} {k : VerifyingKey}
    {id : Option Str} {e : HyperErrT} (h : verifySignatureT L now m k id rf = .err e) : ∀ c ∈ e.disp, Printable c := by
  obtain ⟨a, t⟩ := e
  refine printable_app (hyperLabel_printable a) ?_
  rw [C103_verify hw hf] at h
  cases h with
  | carries _ _ h => exact carriesSay_printable hL h
  | _ => decide

/-- C103: the same of the errors of Signature and Signature-Input. -/
theorem C103_headers_printable (hL : PrintableLib L) {s i : Str} {e : SigErrT} (h : SigHeaders.tryParseT L s i = .err e) : ∀ c ∈ e.disp, Printable c := by
  obtain ⟨a, t⟩ := e
  exact printable_app (sigLabel_printable a) (headersSay_printable hL ((C103_headers _ _ _ _).1 h))

/-- C103: the same of the errors of a digest. -/
theorem C103_digest_printable (hL : PrintableLib L) {h : Headers} {body : Body} {e : DigestErrT} (hh : verifyDigestT L h body = .err e) :
    ∀ c ∈ e.disp, Printable c := by
  obtain ⟨a, t⟩ := e
  refine printable_app (digestLabel_printable a) ?_
  rw [C103_digest] at hh
  cases hh with
  | line => exact hL.toStr
  | parse => exact hL.dict _
  | kind h1 =>
    obtain ⟨_, _, _, _, h2⟩ := h1
    exact printable_app (by decide) (legalKey_printable ((parseDict_legal ((C63_dict _ _).2 h2)).2 _ (List.mem_singleton.2 rfl)).1)
  | _ => decide

/-- C103: the parameters that a caller makes. -/
theorem C103_new (now : UInt64) (ids : List CId) (hset : ∀ i ∈ ids, i.params.Nodup) (e : SigErr) (t : Str) :
    SigParams.tryNewT now ids = .err ⟨e, t⟩ ↔ Wire.NewSays ids e t := by
  unfold SigParams.tryNewT
  have hu := hasUnique_iff hset
  constructor
  · intro h
    split at h
    · rename_i hn
      injection h with h; injection h with h1 h2; subst h1; subst h2
      exact .twice (by rw [hu] at hn; exact hn)
    · cases h
  · rintro ⟨h⟩
    rw [if_pos (by rw [hu]; exact h)]

/-- C103: the base that a caller makes of lines. -/
theorem C103_lines (ls : List Component) (p : SigParams) (hset : ∀ c ∈ ls, c.id.params.Nodup) (e : SigErr) (t : Str) :
    SigBase.tryNewT ls p = .err ⟨e, t⟩ ↔ Wire.LinesSay ls p e t := by
  have hk := baseTryNewT_kind ls p
  have h37 := C37_try_new ls p hset
  unfold SigBase.tryNewT at hk ⊢
  split
  · rename_i hl
    constructor
    · intro h; injection h with h; injection h with h1 h2; subst h1; subst h2; exact .number hl
    · intro h
      cases h with
      | number => rfl
      | order h => exact absurd h hl
  · rename_i hl
    rw [not_not] at hl
    rw [if_neg (by simpa using hl)] at hk
    split
    · rename_i ha
      rw [if_pos ha] at hk
      have hn : ¬ List.Forall₂ (fun (c : Component) i => SameId c.id i) ls p.covered := by
        rw [← h37, ← hk]; simp [Res.mapErr]
      constructor
      · intro h; injection h with h; injection h with h1 h2; subst h1; subst h2; exact .order hl hn
      · intro h
        cases h with
        | number h => exact absurd hl h
        | order => rfl
    · rename_i ha
      rw [if_neg ha] at hk
      constructor
      · intro h; cases h
      · intro h
        cases h with
        | number h => exact absurd hl h
        | order _ h => exact absurd (h37.1 (by rw [← hk]; rfl)) h

/-- C103: this is not so of a line that a caller reads: it is repeated as it is, with its line breaks. -/
theorem C103_line_repeated (s : Str) (h : ':' ∉ s) :
    ∃ e, Component.ofStrT L s = .err e ∧ e.disp = c! "Invalid http message component: Invalid http message component: " ++ s :=
  ⟨_, (C103_line _ _ _).2 (.colon h), rfl⟩

/-! ### What a displayed error tells -/

theorem prefix_free {α : Type} {f : α → Str} (hf : ∀ a b, f a <+: f b → a = b) {a b : α} {s t : Str} (h : f a ++ s = f b ++ t) : a = b ∧ s = t := by
  have : a = b := by
    rcases List.prefix_or_prefix_of_prefix (List.prefix_append (f a) s) (h ▸ List.prefix_append (f b) t) with h | h
    · exact hf a b h
    · exact (hf b a h).symm
  subst this
  exact ⟨rfl, List.append_cancel_left h⟩

set_option maxRecDepth 20000 in
theorem sigLabel_free (a b : SigErr) : a.label <+: b.label → a = b := by
  cases a <;> cases b <;> decide +kernel

set_option maxRecDepth 20000 in
theorem hyperLabel_free (a b : HyperErr) : a.label <+: b.label → a = b := by
  intro h
  have other : ∀ (a : HyperErr) (e : SigErr), (∀ x, a ≠ .httpSig x) →
      ¬ a.label <+: (HyperErr.httpSig e).label ∧ ¬ (HyperErr.httpSig e).label <+: a.label := by
    intro a e ha
    cases a with
    | httpSig x => exact absurd rfl (ha x)
    | _ => cases e <;> decide +kernel
  cases a with
  | httpSig x =>
    cases b with
    | httpSig y => rw [sigLabel_free x y ((List.prefix_append_right_inj _).1 h)]
    | _ => exact absurd h (other _ x (by simp)).2
  | _ =>
    cases b with
    | httpSig y => exact absurd h (other _ y (by simp)).1
    | _ => revert h; decide +kernel

set_option maxRecDepth 20000 in
theorem digestLabel_free (a b : DigestErr) : a.label <+: b.label → a = b := by
  cases a <;> cases b <;> decide +kernel

/-- C103: from what is displayed, kind and message can be told; no two errors of one type are displayed alike. -/
theorem C103_told : (∀ e e' : SigErrT, e.disp = e'.disp → e = e') ∧ (∀ e e' : HyperErrT, e.disp = e'.disp → e = e') ∧
    ∀ e e' : DigestErrT, e.disp = e'.disp → e = e' := by
  refine ⟨?_, ?_, ?_⟩ <;> rintro ⟨a, x⟩ ⟨b, y⟩ h
  · obtain ⟨rfl, rfl⟩ := prefix_free sigLabel_free h; rfl
  · obtain ⟨rfl, rfl⟩ := prefix_free hyperLabel_free h; rfl
  · obtain ⟨rfl, rfl⟩ := prefix_free digestLabel_free h; rfl

/-- C103: every error of the core is displayed by the upper crate with one prefix, and by nothing else with this prefix. -/
theorem C103_up (e : HyperErrT) : c! "HttpSigError: " <+: e.disp ↔ ∃ x : SigErrT, e = x.up ∧ e.disp = c! "HttpSigError: " ++ x.disp := by
  obtain ⟨a, t⟩ := e
  constructor
  · intro h
    cases a with
    | httpSig x => exact ⟨⟨x, t⟩, rfl, by simp [HyperErrT.disp, SigErrT.disp, HyperErr.label]⟩
    | _ => simp [HyperErrT.disp, HyperErr.label, List.prefix_iff_eq_take] at h
  · rintro ⟨x, _, h⟩
    rw [h]
    exact List.prefix_append _ _

/-- C103: setting a digest fails only when the body cannot be read. -/
theorem C103_digest_set (t : DigestType) (h : Headers) (body : Body) (e : DigestErr) (s : Str) :
    setDigestT t h body = .err ⟨e, s⟩ ↔ Wire.DigestSetSays body e s := by
  unfold setDigestT
  constructor
  · intro hx
    split at hx
    · cases hx; exact .body rfl
    · split at hx <;> cases hx
  · rintro ⟨h⟩
    rw [h]

/-- C103: of a response without signatures reading the signatures says that a request has none; verification names the right kind. -/
theorem C103_response (L : ErrLib) {s : Response} (hw : WfHeaders s.headers)
    (h : Wire.linesOf s.headers (c! "signature-input") = [] ∨ Wire.linesOf s.headers (c! "signature") = []) (now : UInt64) (k : VerifyingKey)
    (id : Option Str) (hf : ∀ r, rf = some r → WfHeaders r.headers) :
    extractSignatureHeadersT L (.res s) = .err ⟨.noSignatureHeaders, c! "The request does not have signature and signature-input headers"⟩ ∧
    verifySignatureT L now (.res s) k id rf = .err ⟨.noSignatureHeaders, c! "The response does not have signature and signature-input headers"⟩ :=
  ⟨(C103_carries (m := .res s) hw _ _).2 (.missing h), (C103_verify (m := .res s) hw hf _ _ _ _ _).2 (.response rfl h)⟩

end

/-! ### Examples -/

example : SigParams.tryNewT 0 [⟨.field (c! "a"), []⟩, ⟨.field (c! "a"), []⟩] = .err ⟨.invalidSignatureParams, c! "duplicate covered component ids"⟩ :=
  (C103_new 0 _ (by simp) _ _).2 (.twice (by simp))
example : SigBase.tryNewT [⟨⟨.field (c! "a"), []⟩, .plain (c! "1")⟩] { covered := [⟨.field (c! "b"), []⟩] } = .err ⟨.buildSignatureBase,
    c! "The order of component lines is not the same as the order of covered message component ids"⟩ :=
  (C103_lines _ _ (by simp) _ _).2 (.order rfl (by simp))

/-- Messages of other crates for the examples. -/
def exErrLib : ErrLib where
  item := fun _ => c! "item?"
  list := fun _ => c! "list?"
  dict := fun _ => c! "dictionary?"
  bare := fun _ => c! "Token(..)"
  toStr := c! "failed to convert header to a str"
  headerValue := c! "failed to parse header value"
  key := fun _ => c! "key?"

theorem exErrLib_printable : PrintableLib exErrLib :=
  ⟨fun _ => (by decide : ∀ c ∈ c! "item?", Printable c), fun _ => (by decide : ∀ c ∈ c! "list?", Printable c),
    fun _ => (by decide : ∀ c ∈ c! "dictionary?", Printable c), fun _ _ => (by decide : ∀ c ∈ c! "Token(..)", Printable c), by decide⟩

-- an expired signature and a key that accepts nothing: one message
set_option maxRecDepth 20000 in
example : verifySignatureT exErrLib 101 (.req vReq) vKey (some (c! "k2")) none = .err ⟨.invalidSignature, c! "Invalid signature for the verifying key"⟩ := by
  decide +kernel
set_option maxRecDepth 20000 in
example : ∃ e, verifySignatureT exErrLib 0 (.req vReq) vKey (some (c! "k3")) none = .err e ∧
    e.disp = c! "No signature headers found: No signature as appropriate target for verification" := 
  ⟨⟨.noSignatureHeaders, c! "No signature as appropriate target for verification"⟩, by decide +kernel, by decide +kernel⟩
-- parameters of components, the second wrong
set_option maxRecDepth 20000 in
example : SigHeaders.tryParseT exErrLib (c! "a=:AQ==:") (c! "a=(\"date\" \"x\";sf;zz=1;yy)") =
    .err ⟨.invalidComponentParam, c! "Invalid http field param: zz"⟩ := by decide +kernel
set_option maxRecDepth 20000 in
example : SigHeaders.tryParseT exErrLib (c! "a=:AQ==:") (c! "a=(\"@method\";key=\"b c\")") =
    .err ⟨.invalidComponentId, c! "Invalid http message component id: \"@method\";key=\"b c\""⟩ := by decide +kernel
set_option maxRecDepth 20000 in
example : Wire.HeadersSay exErrLib (c! "a=1") (c! "a=(\"date\")") .buildSignatureHeader (c! "The signature header is not a dictionary") :=
  (C103_headers _ _ _ _).1 (by decide +kernel)
-- digests
set_option maxRecDepth 20000 in
example : verifyDigestT exErrLib [(c! "content-digest", utf8 (c! "md5=:AQ==:"))] (.data [1]) =
    .err ⟨.invalidHeaderValue, c! "Invalid Content-Digest type: Invalid content-digest type: md5"⟩ := by decide +kernel
-- bases
set_option maxRecDepth 20000 in
example : buildBaseT exErrLib (.req vReq) { covered := [⟨.field (c! "date"), []⟩, ⟨.derived .method, [.key (c! "a")]⟩] } none =
    .err ⟨.invalidComponentParam, c! "parameter `key=\"a\"` is not allowed on derived components"⟩ := by decide +kernel
-- two failures to read a body are told apart
example : setDigestT .sha256 [] .fail = .err ⟨.httpBody, c! "Failed to generate digest"⟩ := (C103_digest_set _ _ _ _ _).2 (.body rfl)
example : DigestErrT.disp ⟨.httpBody, c! "Failed to generate digest"⟩ = c! "Http body error: Failed to generate digest" := by decide
example : HyperErrT.disp ⟨.toStr, exErrLib.toStr⟩ = c! "Failed to stringify signature headers: failed to convert header to a str" := by decide
example : HyperErrT.disp ⟨.httpSig .invalidComponentId, c! "x"⟩ = c! "HttpSigError: Invalid http message component id: x" := by decide
-- one text at two types: of an error of verification and of one of a digest the type has to be known
example : HyperErrT.disp ⟨.invalidHeaderValue, c! "x"⟩ = DigestErrT.disp ⟨.invalidHeaderValue, c! "x"⟩ := by decide
-- a line break of a caller comes back
example : ∃ e, Component.ofStrT exErrLib (c! "a\nb") = .err e ∧ '\n' ∈ e.disp := by
  obtain ⟨e, h1, h2⟩ := C103_line_repeated (L := exErrLib) (c! "a\nb") (by decide)
  exact ⟨e, h1, by rw [h2]; decide⟩
example := C103_response exErrLib exRes_wf (Or.inl (by decide)) 0 vKey none (rf := none) (by simp)

end Verif
