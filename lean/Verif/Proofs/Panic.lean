import Verif.Spec.Panic
import Verif.Proofs.FailureRead
import Verif.Props.C18
import Verif.Props.C59
import Verif.Props.C86
/-! The panics of the readers, of signing and of verifying are those of `Spec/Panic.lean`. -/
namespace Verif
open Sfv Spec Grammar

theorem unknown_iff {n : Str} : Wire.Unknown n ↔ UnknownDerived n := by
  unfold Wire.Unknown UnknownDerived
  simp only [derivedText_eq]

theorem idPanics_iff {it : Item} : CId.ofItem it = .panic ↔ Wire.IdPanics it := by
  rw [ofItem_panic]
  exact exists_congr (fun n => and_congr Iff.rfl unknown_iff.symm)

theorem idTextPanics_iff {s : Str} : CId.ofStr s = .panic ↔ Wire.IdTextPanics s := by
  rw [C16_id_panics_iff]
  unfold Wire.IdTextPanics
  simp only [idItem_iff]
  constructor
  · rintro ⟨it, t, h1, h2, h3⟩; exact ⟨it, h1, t, h2, unknown_iff.2 h3⟩
  · rintro ⟨it, h1, t, h2, h3⟩; exact ⟨it, t, h1, h2, unknown_iff.1 h3⟩

theorem linePanics_iff {s : Str} : Component.ofStr s = .panic ↔ Wire.LinePanics s := by
  unfold Component.ofStr Wire.LinePanics
  cases hs : splitOnce ':' s with
  | none =>
    have hn := splitOnce_none.1 hs
    simp only [reduceCtorEq, false_iff]
    rintro ⟨i, v, t, h, _⟩
    rw [h] at hn; simp at hn
  | some iv =>
    obtain ⟨i, v⟩ := iv
    obtain ⟨e1, e2⟩ := splitOnce_some hs
    have huniq : ∀ i' v', s = i' ++ ':' :: v' → ':' ∉ i' → i' = i := by
      intro i' v' h1 h2
      rw [h1, splitOnce_append _ h2] at hs
      injection hs with hs; injection hs
    simp only [contains_infix]
    split
    · rename_i hc
      rw [Res.bind_eq_panic, idTextPanics_iff]
      constructor
      · rintro (h | ⟨_, _, h⟩)
        · exact ⟨i, v, _, e1, e2, trim_shape i, hc.1, hc.2, h⟩
        · cases h
      · rintro ⟨i', v', t, h1, h2, h3, _, _, h4⟩
        rw [trimmed_iff.1 h3, huniq _ _ h1 h2] at h4; exact Or.inl h4
    · rename_i hc
      simp only [reduceCtorEq, false_iff]
      rintro ⟨i', v', t, h1, h2, h3, h4, h5, _⟩
      rw [trimmed_iff.1 h3, huniq _ _ h1 h2] at h4 h5; exact hc ⟨h4, h5⟩

theorem serItem_quote {it : Item} {n : Str} (h : it.bare = .str n) : '"' ∈ serItem it := by
  unfold serItem; rw [h]; simp [serBare]

theorem coveredPanics_iff {it : Item} (h : LegalItem it) : CId.ofStr (serItem it) = .panic ↔ Wire.CoveredPanics it := by
  unfold Wire.CoveredPanics
  by_cases hs : '"' ∈ serItem it
  · rw [ofStr_serItem_str h hs, idPanics_iff]
    refine ⟨Or.inl, ?_⟩
    rintro (h' | ⟨_, t, ht, hq, _⟩)
    · exact h'
    · rw [(canonItem_iff.1 ht).2] at hq; exact absurd hs hq
  · have hns : ∀ n, it.bare ≠ .str n := fun n e => hs (serItem_quote e)
    constructor
    · intro hp
      rw [ofStr_serItem_other h hs, idPanics_iff] at hp
      obtain ⟨n, e, h1, _⟩ := hp
      injection e with e; subst e
      exact Or.inr ⟨hns, _, canonItem_iff.2 ⟨h, rfl⟩, hs, h1⟩
    · rintro (⟨n, e, _⟩ | ⟨_, t, ht, _, ha⟩)
      · exact absurd e (hns n)
      · cases hr : CId.ofStr (serItem it) with
        | panic => rfl
        | ok i =>
          rcases (coveredId_iff h).2 hr with ⟨n, e, _⟩ | ⟨_, t', ht', _, hn, _⟩
          · exact absurd e (hns n)
          · rw [(canonItem_iff.1 ht').2, ← (canonItem_iff.1 ht).2] at hn; exact absurd ha hn
        | err e =>
          obtain ⟨t', ht', hq, _⟩ := (covered_err h).1 hr
          rw [(canonItem_iff.1 ht').2] at hq; exact absurd hq hs

theorem collect_panic_first {ε α β : Type} {f : α → Res ε β} {l : List α} :
    Res.collect f l = .panic ↔ Wire.FirstBad (fun x => ∃ y, f x = .ok y) (fun x => f x = .panic) l := by
  rw [collect_panic_iff]
  unfold Wire.FirstBad
  constructor
  · rintro ⟨a, x, t, h1, h2, h3⟩; exact ⟨a, x, t, h1, h3, h2⟩
  · rintro ⟨a, x, t, h1, h3, h2⟩; exact ⟨a, x, t, h1, h2, h3⟩

theorem negInt_iff {v : Bare} : NegInt v ↔ ∃ n : Int, v = .int n ∧ n < 0 := by
  unfold NegInt
  constructor
  · rintro ⟨n, rfl⟩; exact ⟨_, rfl, Int.negSucc_lt_zero n⟩
  · rintro ⟨n, rfl, h⟩
    cases n with
    | ofNat n => exact absurd h (by simp)
    | negSucc n => exact ⟨n, rfl⟩

theorem innerPanics_iff {l : InnerList} (hl : LegalEntry (.inner l)) :
    SigParams.ofEntry (.inner l) = .panic ↔ Wire.InnerPanics l := by
  unfold SigParams.ofEntry
  simp only
  rw [Res.bind_eq_panic, collect_panic_first]
  have hfb := firstBad_congr (l := l.items) (g := fun i => ∃ y, CId.ofStr (serItem i) = .ok y) (g' := fun it => ∃ i, Wire.CoveredId it i)
    (b := fun i => CId.ofStr (serItem i) = .panic) (b' := fun it => Wire.CoveredPanics it)
    (fun it hi => exists_congr (fun i => (coveredId_iff (hl.1 it hi)).symm)) (fun it hi => coveredPanics_iff (hl.1 it hi))
  rw [hfb]
  have hu : ∀ ids, List.Forall₂ Wire.CoveredId l.items ids →
      (hasUnique ids = true ↔ ids.Pairwise (fun i j => ¬ (i.name = j.name ∧ i.params.Perm j.params))) := by
    intro ids hc
    refine hasUnique_iff (by
      intro j hj
      obtain ⟨it, _, hof⟩ := forall₂_mem_right ((covered_iff hl.1).1 hc) j hj
      exact labels_nodup (ofStr_rules hof).distinct)
  constructor
  · rintro (h | ⟨ids, h1, h⟩)
    · exact .name h
    · have h1 := (covered_iff hl.1).2 (Res.collect_ok_iff.1 h1)
      split at h
      · cases h
      · rename_i hn
        obtain ⟨⟨k, v⟩, hkv, hk, hv⟩ := (setKVs_panic _ _).1 h
        obtain ⟨n, rfl, hn0⟩ := negInt_iff.1 hv
        exact .time h1 ((hu _ h1).1 (by simpa using hn)) hk hkv hn0
  · intro h
    cases h with
    | name h => exact Or.inl h
    | @time ids k n h1 h2 h3 h4 h5 =>
      refine Or.inr ⟨_, Res.collect_ok_iff.2 ((covered_iff hl.1).1 h1), ?_⟩
      rw [if_neg (by simp [(hu _ h1).2 h2])]
      exact (setKVs_panic _ _).2 ⟨_, h4, h3, negInt_iff.2 ⟨n, rfl, h5⟩⟩

theorem paramsTextPanics_iff {s : Str} : SigParams.ofStr s = .panic ↔ Wire.ParamsTextPanics s := by
  unfold SigParams.ofStr Wire.ParamsTextPanics
  cases hp : parseList s with
  | none =>
    simp only [Res.ofOption, Res.bind_err, reduceCtorEq, false_iff]
    rintro ⟨i, h, _⟩; rw [(C63_list _ _).2 h] at hp; cases hp
  | some l =>
    have hl := (C63_list _ _).1 hp
    have huniq : ∀ l', ListText l' s → l' = l := by
      intro l' h; rw [(C63_list _ _).2 h] at hp; injection hp
    simp only [Res.ofOption_some, Res.bind_ok]
    split
    · rename_i i
      rw [innerPanics_iff (parseList_legal hp _ (by simp))]
      constructor
      · intro h; exact ⟨i, hl, h⟩
      · rintro ⟨i', h1, h2⟩
        have := huniq _ h1; injection this with this; injection this with this; subst this; exact h2
    · rename_i hno
      simp only [reduceCtorEq, false_iff]
      rintro ⟨i', h1, _⟩; exact absurd (huniq _ h1).symm (hno _)

theorem headersPanic_iff {s t : Str} : SigHeaders.tryParse s t = .panic ↔ Wire.HeadersPanic s t := by
  unfold Wire.HeadersPanic
  cases ha : parseDict s with
  | none =>
    rw [C13_not_a_dictionary s t (Or.inl ha)]
    simp only [reduceCtorEq, false_iff]
    rintro ⟨a, b, h, _⟩; exact dictText_none.1 ha _ h
  | some a =>
    cases hb : parseDict t with
    | none =>
      rw [C13_not_a_dictionary s t (Or.inr hb)]
      simp only [reduceCtorEq, false_iff]
      rintro ⟨a, b, _, h, _⟩; exact dictText_none.1 hb _ h
    | some b =>
      have hA := (C63_dict _ _).1 ha
      have hB := (C63_dict _ _).1 hb
      have ua : ∀ a', DictText a' s → a' = a := by
        intro a' h; rw [(C63_dict _ _).2 h] at ha; injection ha
      have ub : ∀ b', DictText b' t → b' = b := by
        intro b' h; rw [(C63_dict _ _).2 h] at hb; injection hb
      by_cases hp : Wire.Paired a b
      · rw [tryParse_paired ha hb hp, Res.bind_eq_panic, collect_panic_first]
        have hfb : Wire.FirstBad (fun kv => ∃ y, parseOne a kv = .ok y) (fun kv => parseOne a kv = .panic) b ↔
            Wire.FirstBad (fun kv => ∃ il p, kv.2 = .inner il ∧ Wire.ParamsOf il p) (fun kv => ∃ il, kv.2 = .inner il ∧ Wire.InnerPanics il) b := by
          refine firstBad_congr (fun kv hkv => ?_) (fun kv hkv => ?_)
          · obtain ⟨x, hx⟩ := parseOne_paired (parseDict_legal ha).1 hp hkv
            obtain ⟨il, hil⟩ := hp.2.2 kv hkv
            have hleg := ((parseDict_legal hb).2 kv hkv).2
            rw [hil] at hleg
            rw [hx, hil]
            constructor
            · rintro ⟨y, h⟩
              obtain ⟨p, h1, _⟩ := Res.bind_eq_ok.1 h
              exact ⟨il, p, rfl, (paramsOf_iff hleg).2 h1⟩
            · rintro ⟨il', p, h1, h2⟩
              injection h1 with h1; subst h1
              exact ⟨_, by rw [(paramsOf_iff hleg).1 h2]; rfl⟩
          · obtain ⟨x, hx⟩ := parseOne_paired (parseDict_legal ha).1 hp hkv
            obtain ⟨il, hil⟩ := hp.2.2 kv hkv
            have hleg := ((parseDict_legal hb).2 kv hkv).2
            rw [hil] at hleg
            rw [hx, hil, Res.bind_eq_panic, innerPanics_iff hleg]
            constructor
            · rintro (h | ⟨_, _, h⟩)
              · exact ⟨il, rfl, h⟩
              · cases h
            · rintro ⟨il', h1, h2⟩
              injection h1 with h1; subst h1
              exact Or.inl h2
        rw [hfb]
        constructor
        · rintro (h | ⟨_, _, h⟩)
          · exact ⟨a, b, hA, hB, hp, h⟩
          · cases h
        · rintro ⟨a', b', h1, h2, _, h4⟩
          rw [ub _ h2] at h4; exact Or.inl h4
      · rw [tryParse_unpaired ha hb hp]
        simp only [reduceCtorEq, false_iff]
        rintro ⟨a', b', h1, h2, h3, _⟩
        rw [ua _ h1, ub _ h2] at h3; exact hp h3

theorem carriesPanic_iff {m : Msg} (hw : WfHeaders m.headers) : extractSignatureHeaders m = .panic ↔ Wire.CarriesPanic m.headers := by
  have back : Wire.CarriesPanic m.headers → extractSignatureHeaders m = .panic := by
    rintro ⟨ts, us, h1, h2, h3, h4, h5⟩
    rw [extract_of_texts hw ⟨linesText_iff.1 h1, linesText_iff.1 h2, h3, h4⟩, Res.mapErr_eq_panic]
    rw [commas_eq, commas_eq] at h5
    exact headersPanic_iff.2 h5
  refine ⟨fun h => ?_, back⟩
  rcases extract_cases hw with ⟨_, h2, _⟩ | ⟨_, _, _, h4⟩ | ⟨_, _, ts, us, h3⟩
  · rw [h2] at h; cases h
  · rw [h4] at h; cases h
  · rw [extract_of_texts hw h3, Res.mapErr_eq_panic] at h
    obtain ⟨t1, t2, t3, t4⟩ := h3
    refine ⟨ts, us, linesText_iff.2 t1, linesText_iff.2 t2, t3, t4, ?_⟩
    rw [commas_eq, commas_eq]; exact headersPanic_iff.1 h

theorem verifyPanics_iff {clk : Str → Option UInt64} {m : Msg} {rf : Option Request} {k : VerifyingKey} {id : Option Str}
    (hw : WfHeaders m.headers) (hf : ∀ r, rf = some r → WfHeaders r.headers) :
    verifySignatureClk clk m k id rf = .panic ↔ Wire.VerifyPanics clk m rf k id := by
  rw [C59_panic_iff hw hf, carriesPanic_iff hw]
  constructor
  · rintro (h | ⟨l, h1, kv, h2, text, h3, h4, ⟨h5, e, h6⟩ | ⟨h5, h6⟩⟩)
    · exact .carries h
    · exact .clock (wireCarries_iff.2 h1) h2 (wireCandidate_iff.2 ⟨⟨text, h3⟩, h4⟩) h6 h5
    · exact .key (wireCarries_iff.2 h1) h2 (wireBaseOf_iff.2 h3) (wireForKey_iff.2 h4) h5 h6
  · intro h
    cases h with
    | carries h => exact Or.inl h
    | clock h1 h2 h3 h4 h5 =>
      obtain ⟨⟨text, h6⟩, h7⟩ := wireCandidate_iff.1 h3
      exact Or.inr ⟨_, wireCarries_iff.1 h1, _, h2, text, h6, h7, Or.inl ⟨h5, _, h4⟩⟩
    | key h1 h2 h3 h4 h5 h6 =>
      exact Or.inr ⟨_, wireCarries_iff.1 h1, _, h2, _, wireBaseOf_iff.1 h3, wireForKey_iff.1 h4, Or.inr ⟨h5, h6⟩⟩

theorem verifyPanics_now {now : UInt64} {m : Msg} {rf : Option Request} {k : VerifyingKey} {id : Option Str}
    (hw : WfHeaders m.headers) (hf : ∀ r, rf = some r → WfHeaders r.headers) :
    verifySignature now m k id rf = .panic ↔ Wire.VerifyPanics (fun _ => some now) m rf k id := by
  rw [← verifyPanics_iff hw hf, C59_single_clock (t0 := now) (t1 := now) hw (fun _ => ⟨now, rfl, UInt64.le_refl _, UInt64.le_refl _⟩)]
  intro l _ kv _ e _ h
  have := h.1; have := h.2
  simp only [UInt64.le_iff_toNat_le, UInt64.lt_iff_toNat_lt] at *
  omega

theorem signingPanics_iff {m : Msg} {rf : Option Request} (hw : WfHeaders m.headers) (hf : ∀ r, rf = some r → WfHeaders r.headers)
    (l : List (SigParams × SigningKey × Option Str)) : (setSignatures m l rf).2 = .panic ↔ Wire.SigningPanics m rf l := by
  rw [C18_signing]
  unfold Wire.SigningPanics
  have hb : ∀ p t, Wire.BaseOf m rf p t ↔ ∃ b, buildBase m p rf = .ok b ∧ b.disp = t :=
    fun p t => wireBaseOf_iff.trans (buildBase_spec hw hf t).symm
  simp only [hb]
  refine and_congr (forall₂_congr (fun x _ => ?_)) (exists_congr (fun x => and_congr Iff.rfl ?_))
  · constructor
    · rintro ⟨b, h⟩; exact ⟨_, b, h, rfl⟩
    · rintro ⟨_, b, h, _⟩; exact ⟨b, h⟩
  · constructor
    · rintro ⟨b, h, h2⟩; exact ⟨_, ⟨b, h, rfl⟩, h2⟩
    · rintro ⟨_, ⟨b, h, rfl⟩, h2⟩; exact ⟨b, h, h2⟩

theorem decided_of {α ε : Type} {value : α → Prop} {error : ε → Prop} {panic : Prop} (r : Res ε α) (h1 : ∀ a, r = .ok a ↔ value a)
    (h2 : ∀ e, r = .err e ↔ error e) (h3 : r = .panic ↔ panic) : Wire.Decided value error panic := by
  unfold Wire.Decided
  simp only [← h1, ← h2, ← h3]
  cases r with
  | ok a => left; exact ⟨⟨a, rfl, by intro b h; injection h with h; exact h.symm⟩, by simp, by simp⟩
  | err e => right; left; exact ⟨by simp, ⟨e, rfl, by intro b h; injection h with h; exact h.symm⟩, by simp⟩
  | panic => right; right; exact ⟨by simp, by simp, rfl⟩

end Verif
