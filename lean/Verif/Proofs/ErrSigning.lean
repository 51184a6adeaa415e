import Verif.Proofs.ErrSays
/-! The messages of signing. -/
namespace Verif
open Sfv Spec Grammar

section
variable {L : ErrLib}

theorem signBasesT_err {m : Msg} {rf : Option Request} (hw : WfHeaders m.headers) (hf : ∀ r, rf = some r → WfHeaders r.headers)
    {l : List Signer} {e : HyperErr} {t : Str} : signBasesT L m l rf = .err ⟨e, t⟩ ↔
      Wire.FirstBad (fun x : Signer => ∃ t, Wire.BaseOf m rf x.1 t) (fun x => Wire.BaseSays L m rf x.1 e t) l := by
  unfold signBasesT
  rw [Res.collect_eq_err]
  refine firstBad_congr (fun x _ => ?_) (fun x _ => ?_)
  · rw [← buildBase_good hw hf]
    simp only [Res.bind_eq_ok, Res.ok_of_kind (buildBaseT_kind L m x.1 rf)]
    constructor
    · rintro ⟨_, b, h, _⟩; exact ⟨b, h⟩
    · rintro ⟨b, h⟩; exact ⟨_, b, h, rfl⟩
  · rw [← buildBaseT_err hw hf, Res.bind_eq_err]
    simp

theorem signAllT_err {l : List (SigBase × SigningKey × Option Str)} {e : HyperErr} {t : Str} (h : signAllT L l = .err ⟨e, t⟩) :
    ∃ e', e = .httpSig e' ∧ t = L.key e' := by
  unfold signAllT at h
  rcases Res.bind_eq_err.1 h with h | ⟨rs, h1, h2⟩
  · exact absurd h (gather_ne_err _ _)
  · obtain ⟨a, r, b, h3, h4, _⟩ := Res.collect_eq_err.1 h2
    cases r with
    | ok x => cases h4
    | error x =>
      have h5 := (gather_ok _ _).1 h1
      have h6 : Res.err x ∈ l.map (fun bkn => bkn.1.headersT L bkn.2.1 bkn.2.2) := by
        rw [h5, h3]; simp [ofExcept]
      obtain ⟨bkn, _, h7⟩ := List.mem_map.1 h6
      obtain ⟨e', _, h8⟩ := Res.mapErr_eq_err.1 h7
      subst h8
      injection h4 with h4
      injection h4 with h4 h9
      exact ⟨e', h4.symm, h9.symm⟩

theorem setT_cases {m : Msg} {rf : Option Request} {l : List Signer} {e : HyperErr} {t : Str} (h : (setSignaturesT L m l rf).2 = .err ⟨e, t⟩) :
    signBasesT L m l rf = .err ⟨e, t⟩ ∨ (∃ bs, signBasesT L m l rf = .ok bs) ∧
      ((∃ e', e = .httpSig e' ∧ t = L.key e') ∨ (e = .invalidHeaderValue ∧ t = L.headerValue)) := by
  unfold setSignaturesT at h
  cases hb : signBasesT L m l rf with
  | panic => rw [hb] at h; cases h
  | err x => rw [hb] at h; simp only [Res.bind_err] at h; injection h with h; subst h; exact Or.inl rfl
  | ok bs =>
    right
    refine ⟨⟨bs, rfl⟩, ?_⟩
    rw [hb] at h
    simp only [Res.bind_ok] at h
    cases hs : signAllT L bs with
    | panic => rw [hs] at h; cases h
    | err x =>
      rw [hs] at h
      injection h with h; subst h
      exact Or.inl (signAllT_err hs)
    | ok hs' =>
      rw [hs] at h
      obtain ⟨e', h1, h2⟩ := Res.mapErr_eq_err.1 h
      injection h2 with h2 h3
      subst h2
      rcases appendAll_eq m.headers hs' with ⟨_, h4⟩ | ⟨l1, sh, l2, _, _, _, h4⟩
      · rw [h4] at h1; cases h1
      · rw [h4] at h1; injection h1 with h1; exact Or.inr ⟨h1.symm, h3⟩

theorem signingT_err {m : Msg} {rf : Option Request} (hw : WfHeaders m.headers) (hf : ∀ r, rf = some r → WfHeaders r.headers)
    (l : List Signer) (e : HyperErr) (t : Str) : (setSignaturesT L m l rf).2 = .err ⟨e, t⟩ ↔ Wire.SigningSays L m rf l e t := by
  have hk := (setSignaturesT_kind L m l rf).2
  have hbk := signBasesT_kind L m l rf
  constructor
  · intro h
    rcases setT_cases h with h1 | ⟨⟨bs, h1⟩, h2⟩
    · exact .base ((signBasesT_err hw hf).1 h1)
    · rw [h] at hk
      have hs := (signing_err hw hf l e).1 hk.symm
      have hnb : ∀ e', signBases m l rf ≠ .err e' := by rw [← hbk, h1]; intro e' h; cases h
      cases hs with
      | base h3 => exact absurd ((signBases_err hw hf).2 h3) (hnb _)
      | key h3 h4 =>
        rcases h2 with ⟨e', h5, rfl⟩ | ⟨h5, _⟩
        · injection h5 with h5; subst h5; exact .key h3 h4
        · cases h5
      | header h3 h4 h5 =>
        rcases h2 with ⟨e', h6, _⟩ | ⟨_, rfl⟩
        · cases h6
        · exact .header h3 h4 h5
  · intro h
    have back : ∀ e0, (setSignatures m l rf).2 = .err e0 → ∃ t0, (setSignaturesT L m l rf).2 = .err ⟨e0, t0⟩ := by
      intro e0 h0
      rw [← hk] at h0
      obtain ⟨⟨e1, t1⟩, h1, h2⟩ := Res.mapErr_eq_err.1 h0
      exact ⟨t1, by rw [h1, h2]⟩
    have nob : (∀ x ∈ l, ∃ t, Wire.BaseOf m rf x.1 t) → ∀ x, signBasesT L m l rf ≠ .err x := by
      intro hb x hx
      rw [hx] at hbk
      exact signBases_not_err hw hf hb hbk.symm
    cases h with
    | base h =>
      unfold setSignaturesT
      rw [(signBasesT_err hw hf).2 h]; rfl
    | key h1 h2 =>
      obtain ⟨t0, h3⟩ := back _ ((signing_err hw hf l _).2 (.key h1 h2))
      rcases setT_cases h3 with h4 | ⟨_, ⟨e', h4, rfl⟩ | ⟨h4, _⟩⟩
      · exact absurd h4 (nob (fun x hx => by obtain ⟨t, h, _⟩ := h1 x hx; exact ⟨t, h⟩) _)
      · injection h4 with h4; subst h4; exact h3
      · cases h4
    | header h1 h2 h5 =>
      obtain ⟨t0, h3⟩ := back _ ((signing_err hw hf l _).2 (.header h1 h2 h5))
      rcases setT_cases h3 with h4 | ⟨_, ⟨e', h4, rfl⟩ | ⟨_, rfl⟩⟩
      · exact absurd h4 (nob (fun x hx => by obtain ⟨t, _, h, _⟩ := h1 x hx; exact ⟨t, h⟩) _)
      · cases h4
      · exact h3

end

end Verif
