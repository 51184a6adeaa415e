import Verif.Proofs.WireIds
import Verif.Props.C14
import Verif.Props.C63
/-! Reading signature parameters and the two signature fields, against `Spec/Wire.lean`. -/
namespace Verif
open Sfv Spec Grammar

theorem textOf_iff {ps : Params} {k : Str} {o : Option Str} (hn : (ps.map Prod.fst).Nodup) :
    Wire.TextOf ps k o ↔ o = (match imGet ps k with | some v => asString v | none => none) := by
  have key : ∀ s, (match imGet ps k with | some v => asString v | none => none) = some s ↔ (k, Bare.str s) ∈ ps := by
    intro s
    constructor
    · intro h
      split at h
      · rename_i v hv
        have := imGet_mem hv
        unfold asString at h
        split at h
        · injection h with h; subst h; exact this
        · cases h
      · cases h
    · intro h; rw [imGet_of_mem hn h]; rfl
  unfold Wire.TextOf
  constructor
  · intro h
    apply Option.ext
    intro s; rw [h s, key s]
  · rintro rfl s; exact key s

theorem timeOf_iff {ps : Params} {k : Str} {o : Option UInt64} (hl : LegalParams ps) :
    Wire.TimeOf ps k o ↔ (∀ kv ∈ ps, kv.1 = k → ¬ NegInt kv.2) ∧ o = (match imGet ps k with | some v => timeOf v | none => none) := by
  have key : ∀ t : UInt64, (match imGet ps k with | some v => timeOf v | none => none) = some t ↔ (k, Bare.int t.toNat) ∈ ps := by
    intro t
    constructor
    · intro h
      split at h
      · rename_i v hv
        have hm := imGet_mem hv
        unfold timeOf at h
        split at h
        · rename_i n
          injection h with h; subst h
          have hb : (Int.ofNat n).natAbs < 10 ^ 15 := (hl.2 _ hm).2
          have : (UInt64.ofNat n).toNat = n := by rw [UInt64.toNat_ofNat']; apply Nat.mod_eq_of_lt; simp at hb; omega
          rw [this]; exact hm
        · cases h
      · cases h
    · intro h; rw [imGet_of_mem hl.1 h]; simp only [timeOf]; rw [UInt64.ofNat_toNat]
  unfold Wire.TimeOf
  refine and_congr ?_ ?_
  · constructor
    · rintro h ⟨k', v⟩ hm hk ⟨n, hv⟩
      simp only at hk hv; subst hk hv
      exact absurd (h _ hm) (by omega)
    · intro h n hm
      by_contra hlt
      obtain ⟨j, rfl⟩ : ∃ j : Nat, n = .negSucc j := by
        cases n with
        | ofNat j => exact absurd (Int.natCast_nonneg j) hlt
        | negSucc j => exact ⟨j, rfl⟩
      exact h _ hm rfl ⟨j, rfl⟩
  · constructor
    · intro h
      apply Option.ext
      intro s; rw [h s, key s]
    · rintro rfl s; exact key s

theorem covered_iff {is : List Item} {ids : List CId} (hl : ∀ i ∈ is, LegalItem i) :
    List.Forall₂ Wire.CoveredId is ids ↔ List.Forall₂ (fun i id => CId.ofStr (serItem i) = .ok id) is ids := by
  induction is generalizing ids with
  | nil => simp
  | cons i is ih =>
    cases ids with
    | nil => simp
    | cons j js =>
      simp only [List.forall₂_cons]
      rw [ih (fun x hx => hl x (by simp [hx])), coveredId_iff (hl i (by simp))]

theorem paramsOf_iff {l : InnerList} {p : SigParams} (hl : LegalEntry (.inner l)) :
    Wire.ParamsOf l p ↔ SigParams.ofEntry (.inner l) = .ok p := by
  have hps : LegalParams l.params := hl.2
  constructor
  · intro h
    have hc := (covered_iff hl.1).1 h.covered
    have hu : hasUnique p.covered = true := (hasUnique_iff (by
      intro j hj
      obtain ⟨it, _, hof⟩ := forall₂_mem_right hc j hj
      exact labels_nodup (ofStr_rules hof).distinct)).2 h.distinct
    obtain ⟨hb1, h1⟩ := (timeOf_iff hps).1 h.created
    obtain ⟨hb2, h2⟩ := (timeOf_iff hps).1 h.expires
    have h3 := (textOf_iff hps.1).1 h.nonce
    have h4 := (textOf_iff hps.1).1 h.alg
    have h5 := (textOf_iff hps.1).1 h.keyid
    have h6 := (textOf_iff hps.1).1 h.tag
    unfold SigParams.ofEntry
    simp only [Res.collect_ok_iff.2 hc, Res.bind_ok]
    rw [if_neg (by simp [hu]), setKVs_read _ _ hps.1 (by
      rintro kv hkv ⟨hk | hk, hn⟩
      · exact hb1 kv hkv hk hn
      · exact hb2 kv hkv hk hn)]
    congr 1
    obtain ⟨a, b, c, d, e, f, g⟩ := p
    simp only at h1 h2 h3 h4 h5 h6
    rw [h1, h2, h3, h4, h5, h6]
    rfl
  · intro h
    obtain ⟨l', he, hc, hu, hk⟩ := ofEntry_ok h
    injection he with he; subst he
    have hbad : ∀ kv ∈ l.params, ¬ BadTime kv := by
      intro kv hkv hb
      have := (setKVs_panic l.params { covered := p.covered }).2 ⟨kv, hkv, hb⟩
      rw [this] at hk; cases hk
    rw [setKVs_read _ _ hps.1 hbad] at hk
    injection hk with hk
    have hd := (hasUnique_iff (by
      intro j hj
      obtain ⟨it, _, hof⟩ := forall₂_mem_right hc j hj
      exact labels_nodup (ofStr_rules hof).distinct)).1 hu
    refine ⟨(covered_iff hl.1).2 hc, hd, ?_, ?_, ?_, ?_, ?_, ?_⟩
    · exact (timeOf_iff hps).2 ⟨fun kv hkv e hn => hbad kv hkv ⟨Or.inl e, hn⟩, by rw [← hk]; rfl⟩
    · exact (timeOf_iff hps).2 ⟨fun kv hkv e hn => hbad kv hkv ⟨Or.inr e, hn⟩, by rw [← hk]; rfl⟩
    · exact (textOf_iff hps.1).2 (by rw [← hk]; rfl)
    · exact (textOf_iff hps.1).2 (by rw [← hk]; rfl)
    · exact (textOf_iff hps.1).2 (by rw [← hk]; rfl)
    · exact (textOf_iff hps.1).2 (by rw [← hk]; rfl)

theorem sigParamsText_iff {s : Str} {p : SigParams} : Wire.SigParamsText s p ↔ SigParams.ofStr s = .ok p := by
  unfold SigParams.ofStr
  constructor
  · rintro ⟨l, h1, h2⟩
    have h1 := (C63_list _ _).2 h1
    rw [h1]
    exact (paramsOf_iff (parseList_legal h1 _ (by simp))).1 h2
  · intro h
    obtain ⟨l, h1', h⟩ := Res.bind_eq_ok.1 h
    have h1 := Res.ofOption_eq_ok.1 h1'
    clear h1'
    split at h
    · rename_i i
      exact ⟨i, (C63_list _ _).1 h1, (paramsOf_iff (parseList_legal h1 _ (by simp))).2 h⟩
    · cases h

theorem agrees_iff {a b : Dict} {l : List (Str × SigHeaders)} (hb : LegalDict b) : Wire.Agrees a b l ↔ Agree a b l := by
  have hn : (b.map Prod.fst).Nodup := hb.1
  constructor
  · intro h
    refine ⟨h.labels, h.bytes, ?_, ?_, ?_⟩
    · intro kv hkv
      obtain ⟨kh, _, _, _, _, il, hil, _⟩ := forall₂_mem_left h.order kv hkv
      exact ⟨il, hil⟩
    · have := h.order
      clear hn hb h
      induction this with
      | nil => rfl
      | cons hx _ ih => rw [List.map_cons, List.map_cons, ih, hx.1]
    · intro kh hkh
      obtain ⟨kv, hkv, h1, h2, h3, il, hil, hp⟩ := forall₂_mem_right h.order kh hkh
      rw [h1]
      refine ⟨h2, h3, kv.2, hkv, ?_⟩
      have hleg := (hb.2 kv hkv).2
      rw [hil] at hleg ⊢
      exact (paramsOf_iff hleg).1 hp
  · intro h
    refine ⟨h.labels, h.bytes, ?_⟩
    have hlen : b.length = l.length := by simpa using (congrArg List.length h.order).symm
    rw [List.forall₂_iff_get]
    refine ⟨hlen, ?_⟩
    intro i h1 h2
    have hk : (l.get ⟨i, h2⟩).1 = (b.get ⟨i, h1⟩).1 := by
      have := List.getElem_of_eq h.order (i := i) (by simpa using h2)
      simpa using this
    obtain ⟨p1, p2, e, he, hp⟩ := h.pairing _ (List.get_mem l ⟨i, h2⟩)
    have hme : (b.get ⟨i, h1⟩) ∈ b := List.get_mem _ _
    have hee : e = (b.get ⟨i, h1⟩).2 := by
      have e1 := imGet_of_mem hn he
      have e2 := imGet_of_mem hn (k := (b.get ⟨i, h1⟩).1) (v := (b.get ⟨i, h1⟩).2) hme
      rw [hk, e2] at e1
      exact (Option.some.inj e1).symm
    obtain ⟨il, hil⟩ := h.inner _ hme
    refine ⟨hk, p1.trans hk, ?_, il, hil, ?_⟩
    · rw [← hk]; exact p2
    · have hleg := (hb.2 _ hme).2
      rw [hil] at hleg
      rw [hee, hil] at hp
      exact (paramsOf_iff hleg).2 hp

theorem headersText_iff {s t : Str} {l : List (Str × SigHeaders)} : Wire.HeadersText s t l ↔ SigHeaders.tryParse s t = .ok l := by
  rw [C63_signature_headers]
  unfold Wire.HeadersText
  constructor
  · rintro ⟨a, b, h1, h2, h3⟩
    exact ⟨a, b, h1, h2, (agrees_iff (parseDict_legal ((C63_dict _ _).2 h2))).1 h3⟩
  · rintro ⟨a, b, h1, h2, h3⟩
    exact ⟨a, b, h1, h2, (agrees_iff (parseDict_legal ((C63_dict _ _).2 h2))).2 h3⟩

end Verif
