import Verif.Proofs.ParamsText
/-! What the parameter loop of `HttpSignatureParams::try_from` computes. -/
namespace Verif
open Sfv Spec

/-- A value that makes the reading of a timestamp panic. -/
def NegInt (v : Bare) : Prop := ∃ n : Nat, v = .int (.negSucc n)

/-- A timestamp value; anything that is not a non-negative integer counts as absent. -/
def timeOf : Bare → Option UInt64
  | .int (.ofNat n) => some (UInt64.ofNat n)
  | _ => none

theorem asTime_panic {v : Bare} : asTime v = .panic ↔ NegInt v := by
  unfold asTime NegInt
  split <;> simp
  rename_i h1 h2
  intro n hn; exact h2 n hn

theorem asTime_ok {v : Bare} (h : ¬ NegInt v) : asTime v = .ok (timeOf v) := by
  unfold asTime timeOf
  split
  · rfl
  · rename_i n; exact absurd ⟨n, rfl⟩ h
  · rename_i h1 h2
    split
    · rename_i n; exact absurd rfl (h1 n)
    · rfl

/-- Parameters as read by the loop, on top of `q`. -/
def readOver (q : SigParams) (ps : Params) : SigParams where
  created := match imGet ps (c! "created") with | some v => timeOf v | none => q.created
  expires := match imGet ps (c! "expires") with | some v => timeOf v | none => q.expires
  nonce := match imGet ps (c! "nonce") with | some v => asString v | none => q.nonce
  alg := match imGet ps (c! "alg") with | some v => asString v | none => q.alg
  keyid := match imGet ps (c! "keyid") with | some v => asString v | none => q.keyid
  tag := match imGet ps (c! "tag") with | some v => asString v | none => q.tag
  covered := q.covered

/-- A parameter whose value makes the loop panic. -/
def BadTime (kv : Str × Bare) : Prop := (kv.1 = c! "created" ∨ kv.1 = c! "expires") ∧ NegInt kv.2

theorem setKVs_read (ps : Params) : ∀ (q : SigParams), (ps.map Prod.fst).Nodup → (∀ kv ∈ ps, ¬ BadTime kv) →
    q.setKVs ps = .ok (readOver q ps) := by
  induction ps with
  | nil => intro q _ _; rfl
  | cons kv t ih =>
    intro q hn hb
    rw [List.map_cons, List.nodup_cons] at hn
    have hnone : imGet t kv.1 = none := imGet_none.2 hn.1
    have ht := fun x hx => hb x (List.mem_cons_of_mem _ hx)
    have hkv := hb kv (by simp)
    obtain ⟨k, v⟩ := kv
    simp only at hnone hkv
    simp only [SigParams.setKVs, SigParams.setKV]
    by_cases h1 : k = c! "created"
    · subst h1
      have : ¬ NegInt v := fun hh => hkv ⟨Or.inl rfl, hh⟩
      rw [if_pos rfl, asTime_ok this]
      simp only [Res.bind_ok]
      rw [ih _ hn.2 ht]
      simp [readOver, imGet, hnone]
    rw [if_neg h1]
    by_cases h2 : k = c! "expires"
    · subst h2
      have : ¬ NegInt v := fun hh => hkv ⟨Or.inr rfl, hh⟩
      rw [if_pos rfl, asTime_ok this]
      simp only [Res.bind_ok]
      rw [ih _ hn.2 ht]
      simp [readOver, imGet, hnone]
    rw [if_neg h2]
    by_cases h3 : k = c! "nonce"
    · subst h3
      rw [if_pos rfl]
      simp only [Res.bind_ok]
      rw [ih _ hn.2 ht]
      simp [readOver, imGet, hnone]
    rw [if_neg h3]
    by_cases h4 : k = c! "alg"
    · subst h4
      rw [if_pos rfl]
      simp only [Res.bind_ok]
      rw [ih _ hn.2 ht]
      simp [readOver, imGet, hnone]
    rw [if_neg h4]
    by_cases h5 : k = c! "keyid"
    · subst h5
      rw [if_pos rfl]
      simp only [Res.bind_ok]
      rw [ih _ hn.2 ht]
      simp [readOver, imGet, hnone]
    rw [if_neg h5]
    by_cases h6 : k = c! "tag"
    · subst h6
      rw [if_pos rfl]
      simp only [Res.bind_ok]
      rw [ih _ hn.2 ht]
      simp [readOver, imGet, hnone]
    rw [if_neg h6]
    simp only [Res.bind_ok]
    rw [ih _ hn.2 ht]
    simp [readOver, imGet, h1, h2, h3, h4, h5, h6]

theorem setKVs_panic (ps : Params) : ∀ (q : SigParams), (q.setKVs ps = .panic ↔ ∃ kv ∈ ps, BadTime kv) := by
  induction ps with
  | nil => intro q; simp [SigParams.setKVs]
  | cons kv t ih =>
    intro q
    simp only [SigParams.setKVs]
    have key : (q.setKV kv = .panic ∧ BadTime kv) ∨ ((∃ q', q.setKV kv = .ok q') ∧ ¬ BadTime kv) := by
      unfold SigParams.setKV
      by_cases h1 : kv.1 = c! "created"
      · by_cases hn : NegInt kv.2
        · left; refine ⟨?_, Or.inl h1, hn⟩
          rw [if_pos h1, asTime_panic.2 hn]; rfl
        · right; refine ⟨?_, fun hb => hn hb.2⟩
          rw [if_pos h1, asTime_ok hn]; exact ⟨_, rfl⟩
      rw [if_neg h1]
      by_cases h2 : kv.1 = c! "expires"
      · by_cases hn : NegInt kv.2
        · left; refine ⟨?_, Or.inr h2, hn⟩
          rw [if_pos h2, asTime_panic.2 hn]; rfl
        · right; refine ⟨?_, fun hb => hn hb.2⟩
          rw [if_pos h2, asTime_ok hn]; exact ⟨_, rfl⟩
      rw [if_neg h2]
      right
      refine ⟨?_, fun hb => hb.1.elim h1 h2⟩
      repeat' split
      all_goals exact ⟨_, rfl⟩
    rcases key with ⟨h, hb⟩ | ⟨⟨q', h⟩, hb⟩
    · rw [h]; simp [hb]
    · rw [h]
      simp only [Res.bind_ok, ih q', List.mem_cons, exists_eq_or_imp, hb, false_or]

theorem setKVs_ne_err (ps : Params) (q : SigParams) (e : SigErr) : q.setKVs ps ≠ .err e := by
  induction ps generalizing q with
  | nil => simp [SigParams.setKVs]
  | cons kv t ih =>
    simp only [SigParams.setKVs]
    cases h : q.setKV kv with
    | ok q' => exact ih q'
    | panic => simp
    | err e' =>
      exfalso
      have time : ∀ v e, asTime v ≠ Res.err e := by
        intro v e; unfold asTime; split <;> simp
      unfold SigParams.setKV at h
      repeat' split at h
      all_goals first
        | (cases hv : asTime kv.2 with
           | ok _ => rw [hv] at h; cases h
           | panic => rw [hv] at h; cases h
           | err _ => exact time _ _ hv)
        | cases h

theorem setKVs_covered {ps : Params} {q r : SigParams} (h : q.setKVs ps = .ok r) : r.covered = q.covered := by
  induction ps generalizing q with
  | nil => injection h with h; rw [h]
  | cons kv t ih =>
    obtain ⟨q', h1, h2⟩ := Res.bind_eq_ok.1 h
    rw [ih h2]
    unfold SigParams.setKV at h1
    repeat' split at h1
    all_goals first
      | (obtain ⟨_, _, h1⟩ := Res.bind_eq_ok.1 h1; injection h1 with h1; rw [← h1])
      | (injection h1 with h1; rw [← h1])

/-- An accepted inner list: its ids, and its parameters. -/
theorem ofEntry_ok {e : Entry} {p : SigParams} (h : SigParams.ofEntry e = .ok p) :
    ∃ l, e = .inner l ∧ List.Forall₂ (fun i id => CId.ofStr (serItem i) = .ok id) l.items p.covered ∧
      hasUnique p.covered = true ∧ SigParams.setKVs { covered := p.covered } l.params = .ok p := by
  cases e with
  | item i => cases h
  | inner l =>
    obtain ⟨ids, h1, h2⟩ := Res.bind_eq_ok.1 h
    split at h2
    · cases h2
    rename_i hu
    have hc := setKVs_covered h2
    simp only at hc
    refine ⟨l, rfl, ?_, ?_, ?_⟩
    · rw [hc]; exact Res.collect_ok_iff.1 h1
    · rw [hc]; simpa using hu
    · rw [hc]; exact h2

end Verif
