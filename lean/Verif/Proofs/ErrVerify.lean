import Verif.Proofs.ErrReading
/-! The messages of verification and of Content-Digest. -/
namespace Verif
open Sfv Spec Grammar

theorem Res.filterOk_ne_err {ε ε' α β : Type} (f : α → Res ε β) (l : List α) (x : ε') : (Res.filterOk f l : Res ε' (List β)) ≠ .err x := by
  intro h
  by_cases hp : ∃ a ∈ l, f a = .panic
  · rw [Res.filterOk_panic.2 hp] at h; cases h
  · rw [Res.filterOk_of_not_panic (fun a ha h1 => hp ⟨a, ha, h1⟩)] at h; cases h

section
variable {L : ErrLib}

theorem verifyOneT_err {now : UInt64} {map : List (Str × (SigBase × SigHeaders))} {k : VerifyingKey} {i : Option Str} {e : HyperErr} {t : Str}
    (h : verifyOneT now map k i = .err ⟨e, t⟩) :
    (e = .noSignatureHeaders ∧ t = c! "No signature as appropriate target for verification") ∨
      (e = .invalidSignature ∧ t = c! "Invalid signature for the verifying key") := by
  unfold verifyOneT at h
  simp only at h
  split at h
  · exact Or.inl (herr_eta.1 h)
  · generalize hr : (Res.filterOk (fun kv : Str × (SigBase × SigHeaders) => do kv.2.1.verify now k kv.2.2; Res.ok kv.1) (filterKeyId map i) : Res HyperErrT (List Str)) = r at h
    cases r with
    | panic => cases h
    | err x => exact absurd hr (Res.filterOk_ne_err _ _ _)
    | ok ns =>
      simp only at h
      cases hi : isOfList ns with
      | nil => rw [hi] at h; exact Or.inr (herr_eta.1 h)
      | cons n l => rw [hi] at h; cases h

theorem verT_cases {now : UInt64} {m : Msg} {rf : Option Request} {k : VerifyingKey} {id : Option Str} {e : HyperErr} {t : Str}
    (hm : hasMessageSignature m.headers = true) (h : verifySignatureT L now m k id rf = .err ⟨e, t⟩) :
    extractSignatureHeadersT L m = .err ⟨e, t⟩ ∨ (∃ l, extractSignatureHeadersT L m = .ok l) ∧
      ((e = .noSignatureHeaders ∧ t = c! "No signature as appropriate target for verification") ∨
        (e = .invalidSignature ∧ t = c! "Invalid signature for the verifying key")) := by
  unfold verifySignatureT verifySignaturesT at h
  rw [if_neg (by simpa using hm)] at h
  unfold extractSignaturesT at h
  cases hx : extractSignatureHeadersT L m with
  | panic => rw [hx] at h; cases h
  | err x => rw [hx] at h; simp only [Res.bind_err] at h; injection h with h; subst h; exact Or.inl rfl
  | ok l =>
    rw [hx] at h
    simp only [Res.bind_ok] at h
    refine Or.inr ⟨⟨l, rfl⟩, ?_⟩
    generalize hr : (Res.filterOk (fun kv : Str × SigHeaders => do
      let b ← buildBaseT L m kv.2.params rf
      Res.ok (kv.1, (b, kv.2))) l : Res HyperErrT (List (Str × (SigBase × SigHeaders)))) = r at h
    cases r with
    | panic => cases h
    | err x => exact absurd hr (Res.filterOk_ne_err _ _ _)
    | ok es =>
      simp only [Res.bind_ok, List.map_cons, List.map_nil] at h
      cases hv : verifyOneT now (imOfList es) k id with
      | panic => rw [hv] at h; cases h
      | ok n => rw [hv] at h; cases h
      | err x =>
        rw [hv] at h
        obtain ⟨e', t'⟩ := x
        have h : (Res.err ⟨e', t'⟩ : Res HyperErrT Str) = .err ⟨e, t⟩ := h
        obtain ⟨rfl, rfl⟩ := herr_eta.1 h
        exact verifyOneT_err hv

theorem verifyT_err {now : UInt64} {m : Msg} {rf : Option Request} {k : VerifyingKey} {id : Option Str} (hw : WfHeaders m.headers)
    (hf : ∀ r, rf = some r → WfHeaders r.headers) {e : HyperErr} {t : Str} :
    verifySignatureT L now m k id rf = .err ⟨e, t⟩ ↔ Wire.VerifySays L now m rf k id e t := by
  have hk := verifySignatureT_kind L now m k id rf
  have hxk := extractSignatureHeadersT_kind L m
  have hc : hasMessageSignature m.headers = true ↔
      Wire.linesOf m.headers (c! "signature-input") ≠ [] ∧ Wire.linesOf m.headers (c! "signature") ≠ [] := by
    unfold hasMessageSignature
    rw [Bool.and_eq_true, contains_iff hw, contains_iff hw]; exact and_comm
  have hcar : ∀ l, Wire.Carries m.headers l → Wire.linesOf m.headers (c! "signature-input") ≠ [] ∧ Wire.linesOf m.headers (c! "signature") ≠ [] := by
    rintro l ⟨ts, us, h1, h2, h3, h4, _⟩
    constructor
    · intro h; unfold Wire.LinesText at h1; rw [h] at h1; cases h1; exact h3 rfl
    · intro h; unfold Wire.LinesText at h2; rw [h] at h2; cases h2; exact h4 rfl
  by_cases hm : hasMessageSignature m.headers = true
  swap
  · have : verifySignatureT L now m k id rf = .err ⟨.noSignatureHeaders,
        if m.isReq then c! "The request does not have signature and signature-input headers"
        else c! "The response does not have signature and signature-input headers"⟩ := by
      unfold verifySignatureT verifySignaturesT
      rw [if_pos hm]; rfl
    rw [this, herr_eta]
    rw [hc] at hm
    have hm' : Wire.linesOf m.headers (c! "signature-input") = [] ∨ Wire.linesOf m.headers (c! "signature") = [] := by
      by_contra h; rw [not_or] at h; exact hm h
    constructor
    · rintro ⟨rfl, rfl⟩
      cases m with
      | req r => exact .request rfl hm'
      | res s => exact .response rfl hm'
    · intro h
      cases h with
      | request h => subst h; exact ⟨rfl, rfl⟩
      | response h => subst h; exact ⟨rfl, rfl⟩
      | carries h1 h2 => exact absurd ⟨h1, h2⟩ hm
      | none h => exact absurd (hcar _ h) hm
      | invalid h => exact absurd (hcar _ h) hm
  obtain ⟨p1, p2⟩ := hc.1 hm
  constructor
  · intro h
    rcases verT_cases hm h with h1 | ⟨⟨l, h1⟩, h2⟩
    · exact .carries p1 p2 ((carriesT_err hw).1 h1)
    · rw [h] at hk
      have hs := (verify_err hw hf).1 hk.symm
      have hnc : ∀ e, ¬ Wire.CarriesFails m.headers e := by
        intro e h3
        rw [← carries_err hw, ← hxk, h1] at h3; cases h3
      cases hs with
      | carries h3 => exact absurd h3 (hnc _)
      | none h3 h4 =>
        rcases h2 with ⟨_, rfl⟩ | ⟨h2, _⟩
        · exact .none h3 h4
        · cases h2
      | invalid h3 h4 h5 h6 h7 =>
        rcases h2 with ⟨h2, _⟩ | ⟨_, rfl⟩
        · cases h2
        · exact .invalid h3 h4 h5 h6 h7
  · intro h
    have back : ∀ e0, verifySignature now m k id rf = .err e0 → ∃ t0, verifySignatureT L now m k id rf = .err ⟨e0, t0⟩ := by
      intro e0 h0
      rw [← hk] at h0
      obtain ⟨⟨e1, t1⟩, h1, h2⟩ := Res.mapErr_eq_err.1 h0
      exact ⟨t1, by rw [h1, h2]⟩
    have nob : ∀ l, Wire.Carries m.headers l → ∀ x, extractSignatureHeadersT L m ≠ .err x := by
      intro l hl x hx
      rw [hx] at hxk
      rw [(extractSignatureHeaders_ok hw l).2 (wireCarries_iff.1 hl)] at hxk; cases hxk
    cases h with
    | request _ h => exact absurd h (not_or.2 ⟨p1, p2⟩)
    | response _ h => exact absurd h (not_or.2 ⟨p1, p2⟩)
    | carries _ _ h =>
      have h := (carriesT_err hw).2 h
      unfold verifySignatureT verifySignaturesT
      rw [if_neg (by simpa using hm)]
      unfold extractSignaturesT
      rw [h]; rfl
    | none h1 h2 =>
      obtain ⟨t0, h3⟩ := back _ ((verify_err hw hf).2 (.none h1 h2))
      rcases verT_cases hm h3 with h4 | ⟨_, ⟨_, rfl⟩ | ⟨h4, _⟩⟩
      · exact absurd h4 (nob _ h1 _)
      · exact h3
      · cases h4
    | invalid h1 h2 h5 h6 h7 =>
      obtain ⟨t0, h3⟩ := back _ ((verify_err hw hf).2 (.invalid h1 h2 h5 h6 h7))
      rcases verT_cases hm h3 with h4 | ⟨_, ⟨h4, _⟩ | ⟨_, rfl⟩⟩
      · exact absurd h4 (nob _ h1 _)
      · cases h4
      · exact h3

/-! ### Content-Digest -/

theorem derr_eta {e e' : DigestErr} {t t' : Str} {α : Type} : (Res.err (α := α) (⟨e, t⟩ : DigestErrT) = .err ⟨e', t'⟩) ↔ e' = e ∧ t' = t := by
  constructor
  · intro h; injection h with h; injection h with h1 h2; exact ⟨h1.symm, h2.symm⟩
  · rintro ⟨rfl, rfl⟩; rfl

theorem lineText_inj {l : Bytes} {t u : Str} (h : Wire.LineText l t) (h' : Wire.LineText l u) : t = u := by
  rw [lineText_iff] at h h'; rw [h] at h'; injection h'

theorem dictText_inj {d d' : Dict} {t : Str} (h : DictText d t) (h' : DictText d' t) : d = d' := by
  rw [← C63_dict] at h h'; rw [h] at h'; injection h'

theorem digestT_err {h : Headers} {body : Body} {e : DigestErr} {t : Str} :
    verifyDigestT L h body = .err ⟨e, t⟩ ↔ Wire.DigestSays L h body e t := by
  unfold verifyDigestT extractDigestT Headers.get
  rw [getAll_digest]
  cases hl : (lines h (c! "content-digest")).head? with
  | none =>
    have h0 : lines h (c! "content-digest") = [] := List.head?_eq_none_iff.1 hl
    have hm : ∀ k e, ¬ Wire.DigestMember h k e := by rintro k e ⟨l, t, h1, _⟩; rw [hl] at h1; cases h1
    simp only [Res.ofOption_none, Res.bind_err, derr_eta]
    constructor
    · rintro ⟨rfl, rfl⟩; exact .absent h0
    · intro hh
      cases hh with
      | absent => exact ⟨rfl, rfl⟩
      | line h1 => rw [hl] at h1; cases h1
      | parse h1 => rw [hl] at h1; cases h1
      | number h1 => rw [hl] at h1; cases h1
      | kind h1 => exact absurd h1 (hm _ _)
      | value h1 => exact absurd h1 (hm _ _)
      | body h1 => exact absurd h1 (hm _ _)
      | wrong h1 => exact absurd h1 (hm _ _)
  | some l =>
    have hne : lines h (c! "content-digest") ≠ [] := by intro h0; rw [h0] at hl; cases hl
    simp only [Res.ofOption_some, Res.bind_ok]
    cases ht : hvToStr l with
    | none =>
      have hno := hvToStr_none.1 ht
      have hm : ∀ k e, ¬ Wire.DigestMember h k e := by
        rintro k e ⟨l', t, h1, h2, _⟩; rw [hl] at h1; injection h1 with h1; subst h1; exact hno _ h2
      simp only [Res.ofOption_none, Res.bind_err, derr_eta]
      constructor
      · rintro ⟨rfl, rfl⟩; exact .line hl hno
      · intro hh
        cases hh with
        | absent h1 => exact absurd h1 hne
        | line => exact ⟨rfl, rfl⟩
        | parse h1 h2 => rw [hl] at h1; injection h1 with h1; subst h1; exact absurd h2 (hno _)
        | number h1 h2 => rw [hl] at h1; injection h1 with h1; subst h1; exact absurd h2 (hno _)
        | kind h1 => exact absurd h1 (hm _ _)
        | value h1 => exact absurd h1 (hm _ _)
        | body h1 => exact absurd h1 (hm _ _)
        | wrong h1 => exact absurd h1 (hm _ _)
    | some s =>
      have hs := lineText_iff.2 ht
      have hline : ∀ l', (lines h (c! "content-digest")).head? = some l' → l' = l := by
        intro l' h1; rw [hl] at h1; injection h1 with h1; exact h1.symm
      simp only [Res.ofOption_some, Res.bind_ok]
      cases hd : parseDict s with
      | none =>
        have hno := dictText_none.1 hd
        have hm : ∀ k e, ¬ Wire.DigestMember h k e := by
          rintro k e ⟨l', t, h1, h2, h3⟩
          rw [hline _ h1] at h2; rw [lineText_inj h2 hs] at h3; exact hno _ h3
        simp only [Res.ofOption_none, Res.bind_err, derr_eta]
        constructor
        · rintro ⟨rfl, rfl⟩; exact .parse hl hs hno
        · intro hh
          cases hh with
          | absent h1 => exact absurd h1 hne
          | line h1 h2 => rw [hline _ h1] at h2; exact absurd hs (h2 _)
          | parse h1 h2 => rw [hline _ h1] at h2; rw [lineText_inj h2 hs]; exact ⟨rfl, rfl⟩
          | number h1 h2 h3 => rw [hline _ h1] at h2; rw [lineText_inj h2 hs] at h3; exact absurd h3 (hno _)
          | kind h1 => exact absurd h1 (hm _ _)
          | value h1 => exact absurd h1 (hm _ _)
          | body h1 => exact absurd h1 (hm _ _)
          | wrong h1 => exact absurd h1 (hm _ _)
      | some d =>
        have hD := (C63_dict _ _).1 hd
        simp only [Res.ofOption_some, Res.bind_ok]
        by_cases hlen : d.length ≠ 1
        · have hm : ∀ k e, ¬ Wire.DigestMember h k e := by
            rintro k e ⟨l', t, h1, h2, h3⟩
            rw [hline _ h1] at h2; rw [lineText_inj h2 hs] at h3
            rw [dictText_inj hD h3] at hlen; simp at hlen
          rw [if_pos hlen]
          simp only [Res.bind_err, derr_eta]
          constructor
          · rintro ⟨rfl, rfl⟩; exact .number hl hs hD hlen
          · intro hh
            cases hh with
            | absent h1 => exact absurd h1 hne
            | line h1 h2 => rw [hline _ h1] at h2; exact absurd hs (h2 _)
            | parse h1 h2 h3 => rw [hline _ h1] at h2; rw [lineText_inj h2 hs] at h3; exact absurd hD (h3 _)
            | number => exact ⟨rfl, rfl⟩
            | kind h1 => exact absurd h1 (hm _ _)
            | value h1 => exact absurd h1 (hm _ _)
            | body h1 => exact absurd h1 (hm _ _)
            | wrong h1 => exact absurd h1 (hm _ _)
        rw [if_neg hlen]
        rw [not_not] at hlen
        match d, hlen with
        | [(k, en)], _ =>
          have hmem : ∀ k' e', Wire.DigestMember h k' e' ↔ k' = k ∧ e' = en := by
            intro k' e'
            constructor
            · rintro ⟨l', t, h1, h2, h3⟩
              rw [hline _ h1] at h2; rw [lineText_inj h2 hs] at h3
              have := dictText_inj h3 hD
              injection this with this _; injection this with h5 h6; exact ⟨h5, h6⟩
            · rintro ⟨rfl, rfl⟩; exact ⟨l, s, hl, hs, hD⟩
          have hother : Wire.DigestSays L h body e t ↔
              ((∀ ty, k ≠ digestLabel ty) ∧ e = .invalidHeaderValue ∧ t = c! "Invalid Content-Digest type: Invalid content-digest type: " ++ k) ∨
              (∃ ty, k = digestLabel ty ∧ (((∀ x ps, en ≠ .item ⟨.bytes x, ps⟩) ∧ e = .invalidHeaderValue ∧ t = c! "Invalid Content-Digest value") ∨
                (∃ x ps, en = .item ⟨.bytes x, ps⟩ ∧ ((body = .fail ∧ e = .httpBody ∧ t = c! "Failed to get body bytes") ∨
                  ∃ b, body = .data b ∧ x ≠ hashOf ty b ∧ e = .invalidContentDigest ∧ t = c! "Content-Digest verification failed")))) := by
            constructor
            · intro hh
              cases hh with
              | absent h1 => exact absurd h1 hne
              | line h1 h2 => rw [hline _ h1] at h2; exact absurd hs (h2 _)
              | parse h1 h2 h3 => rw [hline _ h1] at h2; rw [lineText_inj h2 hs] at h3; exact absurd hD (h3 _)
              | number h1 h2 h3 h4 => rw [hline _ h1] at h2; rw [lineText_inj h2 hs] at h3; rw [dictText_inj h3 hD] at h4; simp at h4
              | kind h1 h2 => obtain ⟨rfl, rfl⟩ := (hmem _ _).1 h1; exact Or.inl ⟨h2, rfl, rfl⟩
              | value h1 h2 => obtain ⟨rfl, rfl⟩ := (hmem _ _).1 h1; exact Or.inr ⟨_, rfl, Or.inl ⟨h2, rfl, rfl⟩⟩
              | body h1 h2 => obtain ⟨rfl, rfl⟩ := (hmem _ _).1 h1; exact Or.inr ⟨_, rfl, Or.inr ⟨_, _, rfl, Or.inl ⟨h2, rfl, rfl⟩⟩⟩
              | wrong h1 h2 h3 => obtain ⟨rfl, rfl⟩ := (hmem _ _).1 h1; exact Or.inr ⟨_, rfl, Or.inr ⟨_, _, rfl, Or.inr ⟨_, h2, h3, rfl, rfl⟩⟩⟩
            · rintro (⟨h2, rfl, rfl⟩ | ⟨ty, rfl, ⟨h2, rfl, rfl⟩ | ⟨x, ps, rfl, ⟨h2, rfl, rfl⟩ | ⟨b, h2, h3, rfl, rfl⟩⟩⟩)
              · exact .kind ((hmem _ _).2 ⟨rfl, rfl⟩) h2
              · exact .value ((hmem _ _).2 ⟨rfl, rfl⟩) h2
              · exact .body ((hmem _ _).2 ⟨rfl, rfl⟩) h2
              · exact .wrong ((hmem _ _).2 ⟨rfl, rfl⟩) h2 h3
          rw [hother]
          simp only
          have hty : ∀ ty, DigestType.ofStrT (digestLabel ty) = .ok ty := by intro ty; cases ty <;> rfl
          have hinj : ∀ ty ty', digestLabel ty = digestLabel ty' → ty = ty' := by
            intro ty ty' hh; have := hty ty; rw [hh, hty ty'] at this; injection this with this; exact this.symm
          by_cases hkk : ∃ ty, k = digestLabel ty
          · obtain ⟨ty, rfl⟩ := hkk
            rw [hty]
            simp only [Res.mapErr_ok, Res.bind_ok]
            cases hb : entryBytes en with
            | none =>
              have hnb : ∀ x ps, en ≠ .item ⟨.bytes x, ps⟩ := by
                rintro x ps rfl; simp [entryBytes] at hb
              simp only [Option.isSome_none, Bool.false_eq_true, not_false_eq_true, if_true, Res.bind_err, derr_eta]
              constructor
              · rintro ⟨rfl, rfl⟩; exact Or.inr ⟨_, rfl, Or.inl ⟨hnb, rfl, rfl⟩⟩
              · rintro (⟨h2, _⟩ | ⟨ty', _, ⟨_, rfl, rfl⟩ | ⟨x, ps, h3, _⟩⟩)
                · exact absurd rfl (h2 ty)
                · exact ⟨rfl, rfl⟩
                · exact absurd h3 (hnb _ _)
            | some x =>
              obtain ⟨ps, rfl⟩ := entryBytes_some hb
              simp only [Option.isSome_some, not_true, if_false, Res.bind_ok]
              cases body with
              | fail =>
                rw [derr_eta]
                constructor
                · rintro ⟨rfl, rfl⟩; exact Or.inr ⟨_, rfl, Or.inr ⟨_, _, rfl, Or.inl ⟨rfl, rfl, rfl⟩⟩⟩
                · rintro (⟨h2, _⟩ | ⟨ty', _, ⟨h3, _⟩ | ⟨_, _, _, ⟨_, rfl, rfl⟩ | ⟨_, h3, _⟩⟩⟩)
                  · exact absurd rfl (h2 ty)
                  · exact absurd rfl (h3 _ _)
                  · exact ⟨rfl, rfl⟩
                  · cases h3
              | data b =>
                simp only
                have heq : isEqualDigest (deriveDigest b ty) x = true ↔ x = hashOf ty b := by
                  rw [isEqualDigest_iff, deriveDigest_hashOf]; exact eq_comm
                by_cases hx : x = hashOf ty b
                · rw [if_pos (heq.2 hx)]
                  simp only [reduceCtorEq, false_iff]
                  rintro (⟨h2, _⟩ | ⟨ty', h4, ⟨h3, _⟩ | ⟨_, _, h5, ⟨h3, _⟩ | ⟨_, h6, h3, _⟩⟩⟩)
                  · exact absurd rfl (h2 ty)
                  · exact absurd rfl (h3 _ _)
                  · cases h3
                  · rw [← hinj _ _ h4] at h3
                    injection h5 with h5; injection h5 with h5; injection h5 with h5
                    injection h6 with h6
                    subst h5 h6
                    exact h3 hx
                · rw [if_neg (fun h7 => hx (heq.1 h7)), derr_eta]
                  constructor
                  · rintro ⟨rfl, rfl⟩; exact Or.inr ⟨_, rfl, Or.inr ⟨_, _, rfl, Or.inr ⟨_, rfl, hx, rfl, rfl⟩⟩⟩
                  · rintro (⟨h2, _⟩ | ⟨ty', h4, ⟨h3, _⟩ | ⟨_, _, h5, ⟨h3, _⟩ | ⟨_, h6, h3, rfl, rfl⟩⟩⟩)
                    · exact absurd rfl (h2 ty)
                    · exact absurd rfl (h3 _ _)
                    · cases h3
                    · exact ⟨rfl, rfl⟩
          · have hko : DigestType.ofStrT k = .err ⟨.invalidContentDigestType, k⟩ := by
              unfold DigestType.ofStrT
              refine (if_neg ?_).trans (if_neg ?_)
              · exact fun h1 => hkk ⟨.sha256, h1⟩
              · exact fun h1 => hkk ⟨.sha512, h1⟩
            rw [hko]
            simp only [Res.mapErr_err, Res.bind_err, derr_eta]
            constructor
            · rintro ⟨rfl, rfl⟩; exact Or.inl ⟨fun ty h1 => hkk ⟨ty, h1⟩, rfl, rfl⟩
            · rintro (⟨_, rfl, rfl⟩ | ⟨ty, h1, _⟩)
              · exact ⟨rfl, rfl⟩
              · exact absurd ⟨ty, h1⟩ hkk

end

end Verif
