import Verif.Proofs.SfvRoundTrip
/-! Every parsed structured field value is legal. -/
namespace Verif.Sfv
open Spec

theorem parseUNum_legal {neg : Bool} {s r : Str} {b : Bare} (h : parseUNum neg s = some (b, r)) :
    (∃ n : Int, (b = .int n ∨ b = .dec n) ∧ n.natAbs < 10 ^ 15) := by
  unfold parseUNum at h
  simp only at h
  have hds : ∀ c ∈ s.takeWhile isDig, '0' ≤ c ∧ c ≤ '9' := fun c hc => isDig_iff.1 (takeWhile_all c hc)
  have hv := digitsVal_lt hds
  split at h
  · cases h
  split at h
  · rename_i r' hr
    have hfs : ∀ c ∈ r'.takeWhile isDig, '0' ≤ c ∧ c ≤ '9' := fun c hc => isDig_iff.1 (takeWhile_all c hc)
    have hf := digitsVal_lt hfs
    split at h
    · cases h
    · rename_i hl
      simp only [not_or] at hl
      obtain ⟨l1, l2, l3⟩ := hl
      injection h with h; injection h with h1 h2
      refine ⟨_, Or.inr h1.symm, ?_⟩
      have b1 : digitsVal (s.takeWhile isDig) < 10 ^ 12 :=
        Nat.lt_of_lt_of_le hv (Nat.pow_le_pow_right (by omega) (by omega))
      have b2 : digitsVal (r'.takeWhile isDig) * 10 ^ (3 - (r'.takeWhile isDig).length) < 1000 := by
        have : digitsVal (r'.takeWhile isDig) * 10 ^ (3 - (r'.takeWhile isDig).length) <
            10 ^ (r'.takeWhile isDig).length * 10 ^ (3 - (r'.takeWhile isDig).length) :=
          Nat.mul_lt_mul_of_pos_right hf (Nat.pow_pos (by omega))
        rw [← Nat.pow_add, show (r'.takeWhile isDig).length + (3 - (r'.takeWhile isDig).length) = 3 by omega] at this
        exact this
      split <;> omega
  · split at h
    · cases h
    · rename_i hl
      injection h with h; injection h with h1 h2
      refine ⟨_, Or.inl h1.symm, ?_⟩
      have b1 : digitsVal (s.takeWhile isDig) < 10 ^ 15 :=
        Nat.lt_of_lt_of_le hv (Nat.pow_le_pow_right (by omega) (by omega))
      split <;> omega

theorem parseNum_legal {s r : Str} {b : Bare} (h : parseNum s = some (b, r)) :
    (∃ n : Int, (b = .int n ∨ b = .dec n) ∧ n.natAbs < 10 ^ 15) := by
  unfold parseNum at h
  split at h
  · exact parseUNum_legal h
  · exact parseUNum_legal h

theorem parseStrBody_legal : ∀ (s x r : Str), parseStrBody s = some (x, r) → ∀ c ∈ x, Printable c
  | [], x, r, h => by simp [parseStrBody] at h
  | c :: s, x, r, h => by
    rw [parseStrBody.eq_def] at h
    simp only at h
    split at h
    · injection h with h; injection h with h1 h2; subst h1; simp
    split at h
    · match s, h with
      | [], h => simp at h
      | d :: t', h =>
        simp only at h
        split at h
        · rename_i hd
          split at h
          · rename_i x1 r1 hb
            injection h with h; injection h with h1 h2; subst h1
            intro y hy
            rcases List.mem_cons.1 hy with rfl | hy
            · rcases hd with rfl | rfl <;> decide
            · exact parseStrBody_legal _ _ _ hb y hy
          · cases h
        · cases h
    split at h
    · rename_i hv
      split at h
      · rename_i b1 r1 hb
        injection h with h; injection h with h1 h2; subst h1
        intro y hy
        rcases List.mem_cons.1 hy with rfl | hy
        · exact isVisible_iff.1 hv
        · exact parseStrBody_legal _ _ _ hb y hy
      · cases h
    · cases h

theorem parseBare_legal {s r : Str} {b : Bare} (h : parseBare s = some (b, r)) : LegalBare b := by
  cases s with
  | nil => simp [parseBare] at h
  | cons c s =>
    rw [parseBare.eq_def] at h
    simp only at h
    split at h
    · obtain ⟨n, hb, hn⟩ := parseNum_legal h
      rcases hb with rfl | rfl <;> exact hn
    split at h
    · split at h
      · rename_i x1 r1 hs
        injection h with h; injection h with h1 h2; subst h1
        exact parseStrBody_legal _ _ _ hs
      · cases h
    split at h
    · split at h
      · injection h with h; injection h with h1 h2; subst h1; trivial
      · cases h
    split at h
    · split at h
      · injection h with h; injection h with h1 h2; subst h1; trivial
      · injection h with h; injection h with h1 h2; subst h1; trivial
      · cases h
    split at h
    · split at h
      · rename_i n r1 hn
        injection h with h; injection h with h1 h2; subst h1
        obtain ⟨m, hb, hm⟩ := parseNum_legal hn
        rcases hb with hb | hb
        · injection hb with hb; subst hb; exact hm
        · cases hb
      · cases h
    split at h
    · split at h
      · split at h
        · split at h
          · rename_i hu
            injection h with h; injection h with h1 h2; subst h1; exact hu
          · cases h
        · cases h
      · cases h
    split at h
    · rename_i ht
      injection h with h; injection h with h1 h2; subst h1
      have hs := isTokStart_iff.1 ht
      refine ⟨⟨c, rfl, hs⟩, ?_⟩
      intro x hx
      rcases List.mem_cons.1 hx with rfl | hx
      · unfold isTokChar isTchar
        rcases hs with h | h | h
        · simp [isAlph, h]
        · simp [isAlph, h]
        · simp [h]
      · exact takeWhile_all x hx
    · cases h

theorem stepParam_legal {t r : Str} {k : Str} {v : Bare} (h : stepParam t = some ((k, v), r)) : LegalKey k ∧ LegalBare v := by
  unfold stepParam at h
  split at h
  · cases h
  · rename_i k1 r1 hk
    split at h
    · cases h
    · rename_i v1 r2 hv
      injection h with h; injection h with h1 h3; injection h1 with h1 h2; subst h1 h2
      exact ⟨(parseKey_legal hk).1, parseBare_legal hv⟩
  · rename_i k1 r1 hne hk
    injection h with h; injection h with h1 h3; injection h1 with h1 h2; subst h1 h2
    exact ⟨(parseKey_legal hk).1, trivial⟩

theorem parseParamsA_legal {acc q : Params} {s r : Str} (h : parseParamsA acc s = some (q, r)) (ha : LegalParams acc) :
    LegalParams q := by
  refine parseParamsA_ind (P := fun acc _ q _ => LegalParams acc → LegalParams q) ?_ ?_ s.length acc s q r (Nat.le_refl _) h ha
  · intro _ _ _ h; exact h
  · intro acc t k v r q r' hst _ ih ha
    obtain ⟨hk, hv⟩ := stepParam_legal hst
    apply ih
    refine ⟨imInsert_nodup ha.1 k v, ?_⟩
    intro kv hkv
    rcases imInsert_mem hkv with h | rfl
    · exact ha.2 kv h
    · exact ⟨hk, hv⟩

theorem parseParams_legal {q : Params} {s r : Str} (h : parseParams s = some (q, r)) : LegalParams q :=
  parseParamsA_legal h ⟨by simp, by simp⟩

theorem parseItem_legal {s r : Str} {i : Item} (h : parseItem s = some (i, r)) : LegalItem i := by
  unfold parseItem at h
  split at h
  · cases h
  rename_i b r1 hb
  split at h
  · cases h
  rename_i p r2 hp
  injection h with h; injection h with h1 h2; subst h1
  exact ⟨parseBare_legal hb, parseParams_legal hp⟩

theorem parseItems_legal {s r : Str} {is : List Item} (h : parseItems s = some (is, r)) : ∀ i ∈ is, LegalItem i := by
  refine parseItems_ind (P := fun _ is _ => ∀ i ∈ is, LegalItem i) ?_ ?_ _ s is r (Nat.lt_succ_self _) h
  · intro _ _ _; simp
  · intro s c u i r is r' _ _ hi _ _ ih j hj
    rcases List.mem_cons.1 hj with rfl | hj
    · exact parseItem_legal hi
    · exact ih j hj

theorem parseEntry_legal {s r : Str} {e : Entry} (h : parseEntry s = some (e, r)) : LegalEntry e := by
  by_cases hs : s.head? = some '('
  · cases s with
    | nil => simp at hs
    | cons c u =>
      simp at hs; subst hs
      rw [parseEntry_paren] at h
      split at h
      · cases h
      rename_i is r1 hi
      split at h
      · cases h
      rename_i p r2 hp
      injection h with h; injection h with h1 h2; subst h1
      exact ⟨parseItems_legal hi, parseParams_legal hp⟩
  · rw [parseEntry_item hs] at h
    split at h
    · cases h
    rename_i i r1 hi
    injection h with h; injection h with h1 h2; subst h1
    exact parseItem_legal hi

theorem parseMember_legal {s r : Str} {k : Str} {e : Entry} (h : parseMember s = some ((k, e), r)) :
    LegalKey k ∧ LegalEntry e := by
  rw [parseMember_eq] at h
  split at h
  · cases h
  rename_i k1 r1 hk
  split at h
  · split at h
    · cases h
    rename_i e1 r2 he
    injection h with h; injection h with h1 h2; injection h1 with h1 h3; subst h1 h3
    exact ⟨(parseKey_legal hk).1, parseEntry_legal he⟩
  · split at h
    · cases h
    rename_i p r2 hp
    injection h with h; injection h with h1 h2; injection h1 with h1 h3; subst h1 h3
    exact ⟨(parseKey_legal hk).1, trivial, parseParams_legal hp⟩

/-- A parsed list is legal. -/
theorem parseList_legal {s : Str} {l : SList} (h : parseList s = some l) : LegalList l :=
  parseSep_forall parseEntry_prog (fun _ _ _ h => parseEntry_legal h) h

/-- A parsed dictionary is legal. -/
theorem parseDict_legal {s : Str} {d : Dict} (h : parseDict s = some d) : LegalDict d := by
  unfold parseDict at h
  split at h
  · rename_i l hl
    injection h with h; subst h
    refine ⟨imOfList_nodup l, fun kv hkv => ?_⟩
    exact parseSep_forall parseMember_prog (Q := fun kv : Str × Entry => LegalKey kv.1 ∧ LegalEntry kv.2)
      (fun _ _ _ h => parseMember_legal h) hl kv (imOfList_mem hkv)
  · cases h

/-- A parsed item is legal. -/
theorem parseItemTop_legal {s : Str} {i : Item} (h : parseItemTop s = some i) : LegalItem i := by
  unfold parseItemTop at h
  split at h
  · rename_i i1 r hi
    split at h
    · injection h with h; subst h; exact parseItem_legal hi
    · cases h
  · cases h

end Verif.Sfv
