import Verif.Model.Sfv
import Verif.Proofs.Text
/-!
Facts about the structured field parser as a scanner: it consumes input (so the fuel is enough and never
observable), and it is not disturbed by what follows a comma.
-/
namespace Verif.Sfv

/-- Every success consumes at least one character. -/
def Prog {α : Type} (p : Str → Option (α × Str)) : Prop := ∀ s x r, p s = some (x, r) → r.length < s.length

/-- What follows a comma does not disturb the parser. -/
def LocC {α : Type} (p : Str → Option (α × Str)) : Prop :=
  ∀ s x r t, p s = some (x, r) → p (s ++ ',' :: t) = some (x, r ++ ',' :: t)

/-! ### Keys -/

theorem parseKey_prog : Prog parseKey := by
  intro s x r h
  cases s with
  | nil => simp [parseKey] at h
  | cons c t =>
    simp only [parseKey] at h
    split at h
    · injection h with h; injection h with h1 h2; subst h2
      have := dropWhile_length_le (p := isKeyChar) t
      simp; omega
    · cases h

theorem comma_stop {p : Char → Bool} (hp : p ',' = false) (t : Str) :
    ∀ c, (',' :: t).head? = some c → p c = false := by
  intro c hc; simp at hc; subst hc; exact hp

theorem parseKey_locC : LocC parseKey := by
  intro s x r t h
  cases s with
  | nil => simp [parseKey] at h
  | cons c s =>
    simp only [parseKey, List.cons_append] at h ⊢
    split at h
    · rename_i hc
      injection h with h; injection h with h1 h2; subst h1 h2
      rw [if_pos hc, takeWhile_append_of (Or.inr (comma_stop rfl t)), dropWhile_append_of (Or.inr (comma_stop rfl t))]
    · cases h

/-! ### Numbers -/

theorem takeWhile_dropWhile_length (p : Char → Bool) (s : Str) :
    (s.takeWhile p).length + (s.dropWhile p).length = s.length := by
  rw [← List.length_append, List.takeWhile_append_dropWhile]

theorem parseUNum_prog (neg : Bool) : Prog (parseUNum neg) := by
  intro s x r h
  have hl := takeWhile_dropWhile_length isDig s
  unfold parseUNum at h
  simp only at h
  split at h
  · cases h
  rename_i hds
  have : 0 < (s.takeWhile isDig).length := List.length_pos_of_ne_nil hds
  split at h
  · rename_i r' hr
    split at h
    · cases h
    · injection h with h; injection h with h1 h2; subst h2
      have := dropWhile_length_le (p := isDig) r'
      rw [hr] at hl; simp at hl; omega
  · split at h
    · cases h
    · injection h with h; injection h with h1 h2
      rw [← h2]; omega

theorem parseNum_prog : Prog parseNum := by
  intro s x r h
  unfold parseNum at h
  split at h
  · have := parseUNum_prog _ _ _ _ h; simp; omega
  · exact parseUNum_prog _ _ _ _ h

theorem parseUNum_locC (neg : Bool) : LocC (parseUNum neg) := by
  intro s x r t h
  have e1 := takeWhile_append_of (p := isDig) (s := s) (Or.inr (comma_stop rfl t))
  have e2 := dropWhile_append_of (p := isDig) (s := s) (Or.inr (comma_stop rfl t))
  unfold parseUNum at h ⊢
  simp only at h ⊢
  rw [e1, e2]
  split at h
  · cases h
  rename_i hds
  rw [if_neg hds]
  cases hd : s.dropWhile isDig with
  | nil =>
    rw [hd] at h
    simp only at h
    split at h
    · cases h
    · rename_i hl
      injection h with h; injection h with h1 h2; subst h1 h2
      simp [hl]
  | cons d r' =>
    rw [hd] at h
    by_cases hdot : d = '.'
    · subst hdot
      simp only [List.cons_append] at h ⊢
      rw [takeWhile_append_of (Or.inr (comma_stop rfl t)), dropWhile_append_of (Or.inr (comma_stop rfl t))]
      split at h
      · cases h
      · rename_i hl
        injection h with h; injection h with h1 h2; subst h1 h2
        rw [if_neg hl]
    · simp only [List.cons_append]
      split at h
      · rename_i heq; injection heq with heq _; exact absurd heq hdot
      split at h
      · cases h
      · rename_i hl
        injection h with h; injection h with h1 h2; subst h1 h2
        split
        · rename_i heq; injection heq with heq _; exact absurd heq hdot
        rw [if_neg hl]; simp

theorem parseNum_locC : LocC parseNum := by
  intro s x r t h
  cases s with
  | nil => simp [parseNum, parseUNum] at h
  | cons c s =>
    by_cases hc : c = '-'
    · subst hc
      simp only [parseNum, List.cons_append] at h ⊢
      exact parseUNum_locC _ _ _ _ _ h
    · have e : ∀ u, parseNum (c :: u) = parseUNum false (c :: u) := by
        intro u; unfold parseNum; split
        · rename_i heq; injection heq with heq _; exact absurd heq hc
        · rfl
      rw [e] at h
      rw [List.cons_append, e, ← List.cons_append]
      exact parseUNum_locC _ _ _ _ _ h

/-! ### Strings, byte sequences, display strings -/

theorem parseStrBody_prog_loc : ∀ (s x r : Str), parseStrBody s = some (x, r) →
    r.length < s.length ∧ ∀ t, parseStrBody (s ++ t) = some (x, r ++ t)
  | [], x, r, h => by simp [parseStrBody] at h
  | c :: s, x, r, h => by
    rw [parseStrBody.eq_def] at h
    simp only at h
    split at h
    · rename_i hc
      injection h with h; injection h with h1 h2; subst h1 h2
      refine ⟨by simp, fun t => ?_⟩
      rw [List.cons_append, parseStrBody.eq_def]
      simp [hc]
    split at h
    · rename_i hq hp
      match s, h with
      | [], h => simp at h
      | d :: t', h =>
        simp only at h
        split at h
        · rename_i hd
          split at h
          · rename_i x1 r1 hb
            injection h with h; injection h with h1 h2; subst h1 h2
            obtain ⟨hl, hc⟩ := parseStrBody_prog_loc _ _ _ hb
            refine ⟨by simp; omega, fun u => ?_⟩
            subst hp
            simp only [List.cons_append]
            rw [parseStrBody.eq_def]
            simp [hd, hc]
          · cases h
        · cases h
    split at h
    · rename_i hq hp hv
      split at h
      · rename_i b1 r1 hb
        injection h with h; injection h with h1 h2; subst h1 h2
        obtain ⟨hl, hc⟩ := parseStrBody_prog_loc _ _ _ hb
        refine ⟨by simp; omega, fun u => ?_⟩
        simp only [List.cons_append]
        rw [parseStrBody.eq_def]
        simp [hq, hp, hv, hc]
      · cases h
    · cases h

theorem parseBytesBody_prog_loc {s r : Str} {b : Bytes} (h : parseBytesBody s = some (b, r)) :
    r.length < s.length ∧ ∀ t, parseBytesBody (s ++ t) = some (b, r ++ t) := by
  unfold parseBytesBody at h ⊢
  split at h
  · cases h
  rename_i a r' hs
  split at h
  · rename_i b' hb
    injection h with h; injection h with h1 h2; subst h1 h2
    obtain ⟨rfl, hn⟩ := splitOnce_some hs
    refine ⟨by simp; omega, fun t => ?_⟩
    rw [List.append_assoc, List.cons_append, splitOnce_append _ hn]
    simp [hb]
  · cases h

theorem parseDispBody_prog_loc : ∀ (s : Str) (b : Bytes) (r : Str), parseDispBody s = some (b, r) →
    r.length < s.length ∧ ∀ t, parseDispBody (s ++ t) = some (b, r ++ t)
  | [], b, r, h => by simp [parseDispBody] at h
  | c :: s, b, r, h => by
    rw [parseDispBody.eq_def] at h
    simp only at h
    split at h
    · rename_i hc
      injection h with h; injection h with h1 h2; subst h1 h2
      refine ⟨by simp, fun t => ?_⟩
      rw [List.cons_append, parseDispBody.eq_def]
      simp [hc]
    split at h
    · rename_i hq hp
      match s, h with
      | [], h => simp at h
      | [_], h => simp at h
      | hc :: lc :: t', h =>
        simp only at h
        split at h
        · rename_i x y b1 r1 hx hy hb
          injection h with h; injection h with h1 h2; subst h1 h2
          obtain ⟨hl, hc⟩ := parseDispBody_prog_loc _ _ _ hb
          refine ⟨by simp; omega, fun u => ?_⟩
          subst hp
          simp only [List.cons_append]
          rw [parseDispBody.eq_def]
          simp [hx, hy, hc]
        · cases h
    split at h
    · rename_i hq hp hv
      split at h
      · rename_i b1 r1 hb
        injection h with h; injection h with h1 h2; subst h1 h2
        obtain ⟨hl, hc⟩ := parseDispBody_prog_loc _ _ _ hb
        refine ⟨by simp; omega, fun u => ?_⟩
        simp only [List.cons_append]
        rw [parseDispBody.eq_def]
        simp [hq, hp, hv, hc]
      · cases h
    · cases h

/-! ### Bare items -/

theorem parseBare_prog_locC {s r : Str} {b : Bare} (h : parseBare s = some (b, r)) :
    r.length < s.length ∧ ∀ t, parseBare (s ++ ',' :: t) = some (b, r ++ ',' :: t) := by
  cases s with
  | nil => simp [parseBare] at h
  | cons c s =>
    simp only [List.cons_append]
    rw [parseBare.eq_def] at h
    simp only at h
    split at h
    · rename_i hc
      have hp := parseNum_prog _ _ _ h
      refine ⟨hp, fun t => ?_⟩
      rw [parseBare.eq_def]
      simp only [if_pos hc]
      exact parseNum_locC _ _ _ t h
    rename_i hc
    split at h
    · rename_i hq
      split at h
      · rename_i x1 r1 hs
        injection h with h; injection h with h1 h2; subst h1 h2
        obtain ⟨hl, hp⟩ := parseStrBody_prog_loc _ _ _ hs
        refine ⟨by simp; omega, fun t => ?_⟩
        rw [parseBare.eq_def]
        simp only [if_neg hc, if_pos hq, hp]
      · cases h
    rename_i hq
    split at h
    · rename_i hk
      split at h
      · rename_i x1 r1 hs
        injection h with h; injection h with h1 h2; subst h1 h2
        obtain ⟨hl, hp⟩ := parseBytesBody_prog_loc hs
        refine ⟨by simp; omega, fun t => ?_⟩
        rw [parseBare.eq_def]
        simp only [if_neg hc, if_neg hq, if_pos hk, hp]
      · cases h
    rename_i hk
    split at h
    · rename_i hb
      split at h
      · injection h with h; injection h with h1 h2; subst h1 h2
        refine ⟨by simp; omega, fun t => ?_⟩
        rw [parseBare.eq_def]
        simp only [if_neg hc, if_neg hq, if_neg hk, if_pos hb, List.cons_append]
      · injection h with h; injection h with h1 h2; subst h1 h2
        refine ⟨by simp; omega, fun t => ?_⟩
        rw [parseBare.eq_def]
        simp only [if_neg hc, if_neg hq, if_neg hk, if_pos hb, List.cons_append]
      · cases h
    rename_i hb
    split at h
    · rename_i ha
      split at h
      · rename_i n r1 hn
        injection h with h; injection h with h1 h2; subst h1 h2
        have hp := parseNum_prog _ _ _ hn
        refine ⟨by simp; omega, fun t => ?_⟩
        rw [parseBare.eq_def]
        simp only [if_neg hc, if_neg hq, if_neg hk, if_neg hb, if_pos ha, parseNum_locC _ _ _ t hn]
      · cases h
    rename_i ha
    split at h
    · rename_i hd
      split at h
      · rename_i t'
        split at h
        · rename_i b1 r1 hs
          split at h
          · rename_i hu
            injection h with h; injection h with h1 h2; subst h1 h2
            obtain ⟨hl, hp⟩ := parseDispBody_prog_loc _ _ _ hs
            refine ⟨by simp; omega, fun t => ?_⟩
            rw [parseBare.eq_def]
            simp only [if_neg hc, if_neg hq, if_neg hk, if_neg hb, if_neg ha, if_pos hd, List.cons_append, hp, if_pos hu]
          · cases h
        · cases h
      · cases h
    rename_i hd
    split at h
    · rename_i ht
      injection h with h; injection h with h1 h2; subst h1 h2
      have hl := dropWhile_length_le (p := isTokChar) s
      refine ⟨by simp; omega, fun t => ?_⟩
      rw [parseBare.eq_def]
      simp only [if_neg hc, if_neg hq, if_neg hk, if_neg hb, if_neg ha, if_neg hd, if_pos ht]
      rw [takeWhile_append_of (Or.inr (comma_stop rfl t)), dropWhile_append_of (Or.inr (comma_stop rfl t))]
    · cases h

theorem parseBare_prog : Prog parseBare := fun _ _ _ h => (parseBare_prog_locC h).1
theorem parseBare_locC : LocC parseBare := fun _ _ _ t h => (parseBare_prog_locC h).2 t

/-! ### Parameters -/

/-- One step of the parameters loop: key and value of the next parameter and the rest. -/
def stepParam (t : Str) : Option ((Str × Bare) × Str) :=
  match parseKey (t.dropWhile isSp) with
  | none => none
  | some (k, '=' :: r) =>
    match parseBare r with
    | none => none
    | some (v, r') => some ((k, v), r')
  | some (k, r) => some ((k, .bool true), r)

theorem parseParamsAux_semi (f : Nat) (acc : Params) (t : Str) :
    parseParamsAux (f + 1) acc (';' :: t) =
      match stepParam t with
      | none => none
      | some ((k, v), r) => parseParamsAux f (imInsert acc k v) r := by
  rw [parseParamsAux, stepParam]
  cases hk : parseKey (t.dropWhile isSp) with
  | none => rfl
  | some kr =>
    obtain ⟨k, r⟩ := kr
    cases r with
    | nil => rfl
    | cons c r =>
      by_cases hc : c = '='
      · subst hc
        simp only
        cases parseBare r <;> rfl
      · have e1 : ∀ {β : Type} (x : Str → Str → β) (y : Str → Str → β) (z : β),
            (match (some (k, c :: r) : Option (Str × Str)) with
              | none => z
              | some (k, '=' :: r) => x k r
              | some (k, r) => y k r) = y k (c :: r) := by
          intro β x y z
          split
          · rename_i h; cases h
          · rename_i h; injection h with h; injection h with _ h; injection h with h _; exact absurd h hc
          · rename_i h; injection h with h; injection h with h1 h2; subst h1 h2; rfl
        split
        · rename_i h; cases h
        · rename_i h; injection h with h; injection h with _ h; injection h with h _; exact absurd h hc
        · rename_i h; injection h with h; injection h with h1 h2; subst h1 h2
          split
          · rename_i h2
            split at h2
            · rename_i h; cases h
            · rename_i h; injection h with h; injection h with _ h; injection h with h _; exact absurd h hc
            · cases h2
          · rename_i h2
            split at h2
            · rename_i h; cases h
            · rename_i h; injection h with h; injection h with _ h; injection h with h _; exact absurd h hc
            · rename_i h; injection h with h; injection h with h3 h4; subst h3 h4
              injection h2 with h2; injection h2 with h2 h5; injection h2 with h2 h6; subst h2 h5 h6; rfl

theorem parseParamsAux_stop (f : Nat) (acc : Params) {s : Str} (h : s.head? ≠ some ';') :
    parseParamsAux (f + 1) acc s = some (acc, s) := by
  rw [parseParamsAux]
  intro t e; subst e; simp at h

theorem stepParam_prog : Prog stepParam := by
  intro s x r h
  have hd := dropWhile_length_le (p := isSp) s
  unfold stepParam at h
  split at h
  · cases h
  · rename_i k r1 hk
    have := parseKey_prog _ _ _ hk
    split at h
    · cases h
    · rename_i v r2 hv
      have h2 := parseBare_prog _ _ _ hv
      injection h with h; injection h with h1 h3; subst h3
      simp at this; omega
  · rename_i k r1 hne hk
    have := parseKey_prog _ _ _ hk
    injection h with h; injection h with h1 h3; subst h3
    omega

theorem stepParam_locC : LocC stepParam := by
  intro s x r t h
  unfold stepParam at h ⊢
  rw [dropWhile_append_of (Or.inr (comma_stop rfl t))]
  split at h
  · cases h
  · rename_i k r1 hk
    split at h
    · cases h
    · rename_i v r2 hv
      injection h with h; injection h with h1 h3; subst h1 h3
      rw [parseKey_locC _ _ _ t hk]
      simp only [List.cons_append]
      rw [parseBare_locC _ _ _ t hv]
  · rename_i k r1 hne hk
    injection h with h; injection h with h1 h3; subst h1 h3
    rw [parseKey_locC _ _ _ t hk]
    split
    · rename_i heq; cases heq
    · rename_i k2 r2 heq
      injection heq with heq; injection heq with e1 e2
      cases r1 with
      | nil => simp at e2
      | cons y r1 =>
        injection e2 with e2 _
        subst e2
        exact absurd rfl (hne r1)
    · rename_i heq
      injection heq with heq; injection heq with e1 e2; subst e1 e2; rfl

/-- The result does not depend on the fuel once it exceeds the length of the input. -/
theorem parseParamsAux_fuel : ∀ (f f' : Nat) (acc : Params) (s : Str), s.length < f → s.length < f' →
    parseParamsAux f acc s = parseParamsAux f' acc s
  | 0, _, _, _, h, _ => by omega
  | _, 0, _, _, _, h => by omega
  | f + 1, f' + 1, acc, s, h, h' => by
    by_cases hs : s.head? = some ';'
    · cases s with
      | nil => simp at hs
      | cons c t =>
        simp at hs; subst hs
        rw [parseParamsAux_semi, parseParamsAux_semi]
        cases hst : stepParam t with
        | none => rfl
        | some x =>
          obtain ⟨⟨k, v⟩, r⟩ := x
          have := stepParam_prog _ _ _ hst
          simp at h h'
          exact parseParamsAux_fuel f f' _ r (by omega) (by omega)
    · rw [parseParamsAux_stop _ _ hs, parseParamsAux_stop _ _ hs]

/-- Parameters with an accumulator. -/
def parseParamsA (acc : Params) (s : Str) : Option (Params × Str) := parseParamsAux (s.length + 1) acc s

theorem parseParamsA_stop (acc : Params) {s : Str} (h : s.head? ≠ some ';') :
    parseParamsA acc s = some (acc, s) := parseParamsAux_stop _ _ h

theorem parseParamsA_semi (acc : Params) (t : Str) :
    parseParamsA acc (';' :: t) =
      match stepParam t with
      | none => none
      | some ((k, v), r) => parseParamsA (imInsert acc k v) r := by
  unfold parseParamsA
  rw [List.length_cons, parseParamsAux_semi]
  cases hst : stepParam t with
  | none => rfl
  | some x =>
    obtain ⟨⟨k, v⟩, r⟩ := x
    have := stepParam_prog _ _ _ hst
    exact parseParamsAux_fuel _ _ _ r (by omega) (by omega)

theorem parseParams_eq (s : Str) : parseParams s = parseParamsA [] s := rfl

/-- Induction principle for a successful parameters loop. -/
theorem parseParamsA_ind {P : Params → Str → Params → Str → Prop}
    (hstop : ∀ acc s, s.head? ≠ some ';' → P acc s acc s)
    (hsemi : ∀ acc t k v r q r', stepParam t = some ((k, v), r) → parseParamsA (imInsert acc k v) r = some (q, r') →
      P (imInsert acc k v) r q r' → P acc (';' :: t) q r') :
    ∀ (n : Nat) (acc : Params) (s : Str) (q : Params) (r : Str), s.length ≤ n → parseParamsA acc s = some (q, r) → P acc s q r
  | 0, acc, s, q, r, hn, h => by
    have : s = [] := by cases s <;> simp_all
    subst this
    rw [parseParamsA_stop _ (by simp)] at h
    injection h with h; injection h with h1 h2; subst h1 h2
    exact hstop _ _ (by simp)
  | n + 1, acc, s, q, r, hn, h => by
    by_cases hs : s.head? = some ';'
    · cases s with
      | nil => simp at hs
      | cons c t =>
        simp at hs; subst hs
        rw [parseParamsA_semi] at h
        cases hst : stepParam t with
        | none => rw [hst] at h; cases h
        | some x =>
          obtain ⟨⟨k, v⟩, r1⟩ := x
          rw [hst] at h
          simp only at h
          have hp := stepParam_prog _ _ _ hst
          simp at hn
          exact hsemi _ _ _ _ _ _ _ hst h (parseParamsA_ind hstop hsemi n _ r1 q r (by omega) h)
    · rw [parseParamsA_stop _ hs] at h
      injection h with h; injection h with h1 h2; subst h1 h2
      exact hstop _ _ hs

theorem parseParamsA_len {acc q : Params} {s r : Str} (h : parseParamsA acc s = some (q, r)) : r.length ≤ s.length := by
  refine parseParamsA_ind (P := fun _ s _ r => r.length ≤ s.length) (fun _ _ _ => Nat.le_refl _) ?_ s.length acc s q r (Nat.le_refl _) h
  intro acc t k v r q r' hst _ ih
  have := stepParam_prog _ _ _ hst
  simp; omega

theorem parseParamsA_locC {acc q : Params} {s r : Str} (t : Str) (h : parseParamsA acc s = some (q, r)) :
    parseParamsA acc (s ++ ',' :: t) = some (q, r ++ ',' :: t) := by
  refine parseParamsA_ind (P := fun acc s q r => parseParamsA acc (s ++ ',' :: t) = some (q, r ++ ',' :: t))
    ?_ ?_ s.length acc s q r (Nat.le_refl _) h
  · intro acc s hs
    apply parseParamsA_stop
    cases s with
    | nil => simp
    | cons c s => simpa using hs
  · intro acc u k v r q r' hst _ ih
    rw [List.cons_append, parseParamsA_semi, stepParam_locC _ _ _ t hst]
    exact ih

theorem parseParams_len {p : Params} {s r : Str} (h : parseParams s = some (p, r)) : r.length ≤ s.length :=
  parseParamsA_len h

theorem parseParams_locC : LocC parseParams := fun _ _ _ t h => parseParamsA_locC t h

theorem parseParams_rest {p : Params} {s r : Str} (h : parseParams s = some (p, r)) : r.head? ≠ some ';' := by
  refine parseParamsA_ind (P := fun _ _ _ r => r.head? ≠ some ';') ?_ ?_ s.length [] s p r (Nat.le_refl _) h
  · intro _ s h; exact h
  · intro _ _ _ _ _ _ _ _ _ ih; exact ih

/-! ### Items, inner lists, members -/

theorem parseItem_prog : Prog parseItem := by
  intro s x r h
  unfold parseItem at h
  split at h
  · cases h
  rename_i b r1 hb
  split at h
  · cases h
  rename_i p r2 hp
  injection h with h; injection h with h1 h2; subst h2
  have := parseBare_prog _ _ _ hb
  have := parseParams_len hp
  omega

theorem parseItem_locC : LocC parseItem := by
  intro s x r t h
  unfold parseItem at h ⊢
  split at h
  · cases h
  rename_i b r1 hb
  split at h
  · cases h
  rename_i p r2 hp
  injection h with h; injection h with h1 h2; subst h1 h2
  rw [parseBare_locC _ _ _ t hb]
  simp only
  rw [parseParams_locC _ _ _ t hp]

theorem parseItemsAux_eq (f : Nat) (s : Str) :
    parseItemsAux (f + 1) s =
      match s.dropWhile isSp with
      | [] => none
      | c :: u =>
        if c = ')' then some ([], u)
        else match parseItem (c :: u) with
          | none => none
          | some (i, r) =>
            if r.head? = some ' ' ∨ r.head? = some ')' then
              match parseItemsAux f r with
              | some (is, r') => some (i :: is, r')
              | none => none
            else none := by
  rw [parseItemsAux]
  cases hd : s.dropWhile isSp with
  | nil => rfl
  | cons c u =>
    simp only
    by_cases hc : c = ')'
    · subst hc; rfl
    · rw [if_neg hc]
      split
      · rename_i h; cases h
      · rename_i h; injection h with h _; exact absurd h hc
      · cases hi : parseItem (c :: u) with
        | none => rfl
        | some x =>
          obtain ⟨i, r⟩ := x
          simp only
          split
          · simp; rfl
          · simp; rfl
          · rename_i h1 h2
            rw [if_neg]
            intro h
            cases r with
            | nil => simp at h
            | cons c r =>
              simp at h
              rcases h with h | h
              · subst h; exact h1 _ rfl
              · subst h; exact h2 _ rfl

/-- The inner list loop with enough fuel. -/
def parseItems (s : Str) : Option (List Item × Str) := parseItemsAux (s.length + 1) s

theorem parseItemsAux_fuel : ∀ (f f' : Nat) (s : Str), s.length < f → s.length < f' →
    parseItemsAux f s = parseItemsAux f' s
  | 0, _, _, h, _ => by omega
  | _, 0, _, _, h => by omega
  | f + 1, f' + 1, s, h, h' => by
    rw [parseItemsAux_eq, parseItemsAux_eq]
    have hd := dropWhile_length_le (p := isSp) s
    cases hs : s.dropWhile isSp with
    | nil => rfl
    | cons c u =>
      rw [hs] at hd
      simp only
      cases hi : parseItem (c :: u) with
      | none => rfl
      | some x =>
        obtain ⟨i, r⟩ := x
        have := parseItem_prog _ _ _ hi
        simp only
        rw [parseItemsAux_fuel f f' r (by omega) (by omega)]

theorem parseItems_eq (s : Str) :
    parseItems s =
      match s.dropWhile isSp with
      | [] => none
      | c :: u =>
        if c = ')' then some ([], u)
        else match parseItem (c :: u) with
          | none => none
          | some (i, r) =>
            if r.head? = some ' ' ∨ r.head? = some ')' then
              match parseItems r with
              | some (is, r') => some (i :: is, r')
              | none => none
            else none := by
  unfold parseItems
  rw [parseItemsAux_eq]
  have hd := dropWhile_length_le (p := isSp) s
  cases hs : s.dropWhile isSp with
  | nil => rfl
  | cons c u =>
    rw [hs] at hd
    simp only
    cases hi : parseItem (c :: u) with
    | none => rfl
    | some x =>
      obtain ⟨i, r⟩ := x
      have := parseItem_prog _ _ _ hi
      simp only
      rw [parseItemsAux_fuel s.length (r.length + 1) r (by omega) (by omega)]

/-- Induction principle for a successful inner list loop. -/
theorem parseItems_ind {P : Str → List Item → Str → Prop}
    (hstop : ∀ s r, s.dropWhile isSp = ')' :: r → P s [] r)
    (hitem : ∀ s c u i r is r', s.dropWhile isSp = c :: u → c ≠ ')' → parseItem (c :: u) = some (i, r) →
      (r.head? = some ' ' ∨ r.head? = some ')') → parseItems r = some (is, r') → P r is r' → P s (i :: is) r') :
    ∀ (n : Nat) (s : Str) (is : List Item) (r : Str), s.length < n → parseItems s = some (is, r) → P s is r
  | 0, s, is, r, hn, h => by omega
  | n + 1, s, is, r, hn, h => by
    rw [parseItems_eq] at h
    have hd := dropWhile_length_le (p := isSp) s
    split at h
    · cases h
    rename_i c u hs
    rw [hs] at hd
    split at h
    · rename_i hc
      injection h with h; injection h with h1 h2; subst h1 h2 hc
      exact hstop _ _ hs
    · rename_i hc
      split at h
      · cases h
      · rename_i i r1 hi
        have hp := parseItem_prog _ _ _ hi
        split at h
        · rename_i hsep
          split at h
          · rename_i is1 r2 hrec
            injection h with h; injection h with h1 h2; subst h1 h2
            exact hitem s c u i r1 is1 r2 hs hc hi hsep hrec
              (parseItems_ind hstop hitem n r1 is1 r2 (by omega) hrec)
          · cases h
        · cases h

theorem parseItems_len {s r : Str} {is : List Item} (h : parseItems s = some (is, r)) : r.length < s.length := by
  refine parseItems_ind (P := fun s _ r => r.length < s.length) ?_ ?_ _ s is r (Nat.lt_succ_self _) h
  · intro s r h
    have hd := dropWhile_length_le (p := isSp) s
    rw [h] at hd; simp at hd; omega
  · intro s c u i r is r' hs _ hi _ _ ih
    have hd := dropWhile_length_le (p := isSp) s
    have := parseItem_prog _ _ _ hi
    rw [hs] at hd; omega

theorem parseItems_locC : LocC parseItems := by
  intro s is r t h
  refine parseItems_ind (P := fun s is r => parseItems (s ++ ',' :: t) = some (is, r ++ ',' :: t)) ?_ ?_ _ s is r
    (Nat.lt_succ_self _) h
  · intro s r h
    rw [parseItems_eq, dropWhile_append_of (Or.inr (comma_stop rfl t)), h]
    simp
  · intro s c u i r is r' hs hc hi hsep hrec ih
    rw [parseItems_eq, dropWhile_append_of (Or.inr (comma_stop rfl t)), hs]
    have hl := parseItem_locC _ _ _ t hi
    simp only [List.cons_append] at hl ⊢
    rw [if_neg hc, hl]
    simp only
    have : (r ++ ',' :: t).head? = r.head? := by
      cases r with
      | nil => simp at hsep
      | cons _ _ => rfl
    rw [this, if_pos hsep, ih]

theorem parseEntry_paren (t : Str) :
    parseEntry ('(' :: t) =
      match parseItems t with
      | none => none
      | some (is, r) =>
        match parseParams r with
        | none => none
        | some (p, r') => some (.inner ⟨is, p⟩, r') := by
  rw [parseEntry]; rfl

theorem parseEntry_item {s : Str} (h : s.head? ≠ some '(') :
    parseEntry s = match parseItem s with
      | none => none
      | some (i, r) => some (.item i, r) := by
  rw [parseEntry]
  · cases parseItem s <;> rfl
  · intro t e; subst e; simp at h

theorem parseEntry_prog : Prog parseEntry := by
  intro s x r h
  by_cases hs : s.head? = some '('
  · cases s with
    | nil => simp at hs
    | cons c t =>
      simp at hs; subst hs
      rw [parseEntry_paren] at h
      split at h
      · cases h
      rename_i is r1 hi
      split at h
      · cases h
      rename_i p r2 hp
      injection h with h; injection h with h1 h2; subst h2
      have := parseItems_len hi
      have := parseParams_len hp
      simp; omega
  · rw [parseEntry_item hs] at h
    split at h
    · cases h
    rename_i i r1 hi
    injection h with h; injection h with h1 h2; subst h2
    exact parseItem_prog _ _ _ hi

theorem parseEntry_locC : LocC parseEntry := by
  intro s x r t h
  by_cases hs : s.head? = some '('
  · cases s with
    | nil => simp at hs
    | cons c u =>
      simp at hs; subst hs
      rw [parseEntry_paren] at h
      rw [List.cons_append, parseEntry_paren]
      split at h
      · cases h
      rename_i is r1 hi
      split at h
      · cases h
      rename_i p r2 hp
      injection h with h; injection h with h1 h2; subst h1 h2
      rw [parseItems_locC _ _ _ t hi]
      simp only
      rw [parseParams_locC _ _ _ t hp]
  · rw [parseEntry_item hs] at h
    have hs' : (s ++ ',' :: t).head? ≠ some '(' := by
      cases s with
      | nil => simp
      | cons c s => simpa using hs
    rw [parseEntry_item hs']
    split at h
    · cases h
    rename_i i r1 hi
    injection h with h; injection h with h1 h2; subst h1 h2
    rw [parseItem_locC _ _ _ t hi]

theorem parseMember_eq (s : Str) :
    parseMember s = match parseKey s with
      | none => none
      | some (k, r) =>
        if r.head? = some '=' then
          match parseEntry r.tail with
          | none => none
          | some (e, r') => some ((k, e), r')
        else
          match parseParams r with
          | none => none
          | some (p, r') => some ((k, .item ⟨.bool true, p⟩), r') := by
  rw [parseMember]
  cases hk : parseKey s with
  | none => rfl
  | some x =>
    obtain ⟨k, r⟩ := x
    cases r with
    | nil => rfl
    | cons c r =>
      by_cases hc : c = '='
      · subst hc; simp; rfl
      · split
        · rename_i h; cases h
        · rename_i h; injection h with h; injection h with _ h; injection h with h _; exact absurd h hc
        · rename_i h; injection h with h; injection h with h1 h2; subst h1 h2
          simp [hc]; rfl

theorem parseMember_prog : Prog parseMember := by
  intro s x r h
  rw [parseMember_eq] at h
  split at h
  · cases h
  rename_i k r1 hk
  have h1 := parseKey_prog _ _ _ hk
  split at h
  · split at h
    · cases h
    rename_i e r2 he
    injection h with h; injection h with h1 h2; subst h2
    have := parseEntry_prog _ _ _ he
    simp at this
    omega
  · split at h
    · cases h
    rename_i p r2 hp
    injection h with h; injection h with h1 h2; subst h2
    have := parseParams_len hp
    omega

theorem parseMember_locC : LocC parseMember := by
  intro s x r t h
  rw [parseMember_eq] at h ⊢
  split at h
  · cases h
  rename_i k r1 hk
  rw [parseKey_locC _ _ _ t hk]
  simp only
  have e1 : ((r1 ++ ',' :: t).head? = some '=') ↔ r1.head? = some '=' := by
    cases r1 <;> simp
  split at h
  · rename_i hq
    rw [if_pos (e1.2 hq)]
    split at h
    · cases h
    rename_i e r2 he
    injection h with h; injection h with h1 h2; subst h1 h2
    have : (r1 ++ ',' :: t).tail = r1.tail ++ ',' :: t := by
      cases r1 with
      | nil => simp at hq
      | cons _ _ => rfl
    rw [this, parseEntry_locC _ _ _ t he]
  · rename_i hq
    rw [if_neg (fun e => hq (e1.1 e))]
    split at h
    · cases h
    rename_i p r2 hp
    injection h with h; injection h with h1 h2; subst h1 h2
    rw [parseParams_locC _ _ _ t hp]

/-! ### Comma-separated members -/

section sep
variable {α : Type} {p : Str → Option (α × Str)}

theorem parseSepAux_eq (f : Nat) {s : Str} (hs : s ≠ []) :
    parseSepAux p (f + 1) s =
      match p s with
      | none => none
      | some (x, r) =>
        match r.dropWhile isOws with
        | [] => some [x]
        | c :: t =>
          if c = ',' then
            match t.dropWhile isOws with
            | [] => none
            | d :: t' =>
              match parseSepAux p f (d :: t') with
              | some xs => some (x :: xs)
              | none => none
          else none := by
  rw [parseSepAux, if_neg hs]
  cases p s with
  | none => rfl
  | some x =>
    obtain ⟨x, r⟩ := x
    simp only
    cases r.dropWhile isOws with
    | nil => rfl
    | cons c t =>
      simp only
      by_cases hc : c = ','
      · subst hc
        simp only [if_true]
        cases t.dropWhile isOws <;> rfl
      · rw [if_neg hc]
        split
        · rename_i h; cases h
        · rename_i h; injection h with h _; exact absurd h hc
        · rfl

theorem parseSepAux_fuel (hp : Prog p) : ∀ (f f' : Nat) (s : Str), s.length < f → s.length < f' →
    parseSepAux p f s = parseSepAux p f' s
  | 0, _, _, h, _ => by omega
  | _, 0, _, _, h => by omega
  | f + 1, f' + 1, s, h, h' => by
    by_cases hs : s = []
    · subst hs; rw [parseSepAux, parseSepAux]; rfl
    rw [parseSepAux_eq _ hs, parseSepAux_eq _ hs]
    cases hx : p s with
    | none => rfl
    | some x =>
      obtain ⟨x, r⟩ := x
      have h1 := hp _ _ _ hx
      have h2 := dropWhile_length_le (p := isOws) r
      simp only
      cases hr : r.dropWhile isOws with
      | nil => rfl
      | cons c t =>
        have h3 := dropWhile_length_le (p := isOws) t
        rw [hr] at h2; simp at h2
        simp only
        cases ht : t.dropWhile isOws with
        | nil => rfl
        | cons d t' =>
          rw [ht] at h3
          simp only
          rw [parseSepAux_fuel hp f f' _ (by omega) (by omega)]

theorem parseSep_nil : parseSep p [] = some [] := by rw [parseSep, parseSepAux]; rfl

theorem parseSep_eq (hp : Prog p) {s : Str} (hs : s ≠ []) :
    parseSep p s =
      match p s with
      | none => none
      | some (x, r) =>
        match r.dropWhile isOws with
        | [] => some [x]
        | c :: t =>
          if c = ',' then
            match t.dropWhile isOws with
            | [] => none
            | d :: t' =>
              match parseSep p (d :: t') with
              | some xs => some (x :: xs)
              | none => none
          else none := by
  unfold parseSep
  rw [parseSepAux_eq _ hs]
  cases hx : p s with
  | none => rfl
  | some x =>
    obtain ⟨x, r⟩ := x
    have h1 := hp _ _ _ hx
    have h2 := dropWhile_length_le (p := isOws) r
    simp only
    cases hr : r.dropWhile isOws with
    | nil => rfl
    | cons c t =>
      have h3 := dropWhile_length_le (p := isOws) t
      rw [hr] at h2; simp at h2
      simp only
      cases ht : t.dropWhile isOws with
      | nil => rfl
      | cons d t' =>
        rw [ht] at h3
        simp only
        rw [parseSepAux_fuel hp s.length ((d :: t').length + 1) _ (by omega) (by omega)]

/-- Induction principle for a successful parse of members. -/
theorem parseSep_ind (hp : Prog p) {P : Str → List α → Prop} (hnil : P [] [])
    (hone : ∀ s x r, s ≠ [] → p s = some (x, r) → r.dropWhile isOws = [] → P s [x])
    (hcons : ∀ s x r t u xs, s ≠ [] → p s = some (x, r) → r.dropWhile isOws = ',' :: t → t.dropWhile isOws = u → u ≠ [] →
      parseSep p u = some xs → P u xs → P s (x :: xs)) :
    ∀ (n : Nat) (s : Str) (xs : List α), s.length < n → parseSep p s = some xs → P s xs
  | 0, s, xs, hn, h => by omega
  | n + 1, s, xs, hn, h => by
    by_cases hs : s = []
    · subst hs; rw [parseSep_nil] at h; injection h with h; subst h; exact hnil
    rw [parseSep_eq hp hs] at h
    split at h
    · cases h
    rename_i x r hx
    have h1 := hp _ _ _ hx
    have h2 := dropWhile_length_le (p := isOws) r
    split at h
    · rename_i hr
      injection h with h; subst h
      exact hone _ _ _ hs hx hr
    rename_i c t hr
    split at h
    · rename_i hc
      subst hc
      have h3 := dropWhile_length_le (p := isOws) t
      rw [hr] at h2; simp at h2
      split at h
      · cases h
      rename_i d t' ht
      rw [ht] at h3
      split at h
      · rename_i xs' hxs
        injection h with h; subst h
        exact hcons _ _ _ _ _ _ hs hx hr ht (by simp) hxs (parseSep_ind hp hnil hone hcons n _ _ (by omega) hxs)
      · cases h
    · cases h

/-- Appending a comma and more members to an accepted non-empty text. -/
theorem parseSep_append (hp : Prog p) (hl : LocC p) {s t : Str} {xs : List α} (hs : s ≠ [])
    (h : parseSep p s = some xs) (ht : t.dropWhile isOws ≠ []) :
    parseSep p (s ++ ',' :: t) =
      match parseSep p (t.dropWhile isOws) with
      | some ys => some (xs ++ ys)
      | none => none := by
  refine parseSep_ind hp (P := fun s xs => s ≠ [] → parseSep p (s ++ ',' :: t) =
      match parseSep p (t.dropWhile isOws) with
      | some ys => some (xs ++ ys)
      | none => none) ?_ ?_ ?_ _ s xs (Nat.lt_succ_self _) h hs
  · intro h; exact absurd rfl h
  · intro s x r hs hx hr _
    rw [parseSep_eq hp (by simp), hl _ _ _ t hx]
    simp only
    rw [dropWhile_append_of (Or.inr (comma_stop rfl t)), hr]
    simp only [List.nil_append, if_true]
    cases ht' : t.dropWhile isOws with
    | nil => exact absurd ht' ht
    | cons c u =>
      simp only [List.singleton_append]
  · intro s x r v u xs hs hx hr hv hu hxs ih _
    rw [parseSep_eq hp (by simp), hl _ _ _ t hx]
    simp only
    rw [dropWhile_append_of (Or.inr (comma_stop rfl t)), hr]
    simp only [List.cons_append, if_true]
    rw [dropWhile_append_of (Or.inr (comma_stop rfl t)), hv]
    have ih := ih hu
    cases u with
    | nil => exact absurd rfl hu
    | cons d u =>
      simp only [List.cons_append] at ih ⊢
      rw [ih]
      cases parseSep p (t.dropWhile isOws) <;> rfl

theorem parseSep_ne_nil (hp : Prog p) {s : Str} (hs : s ≠ []) {xs : List α} (h : parseSep p s = some xs) : xs ≠ [] := by
  refine parseSep_ind hp (P := fun s xs => s ≠ [] → xs ≠ []) ?_ ?_ ?_ _ s xs (Nat.lt_succ_self _) h hs
  · intro h; exact absurd rfl h
  · intros; simp
  · intros; simp

/-- Every member of the result was parsed from some text. -/
theorem parseSep_forall (hp : Prog p) {Q : α → Prop} (hQ : ∀ s x r, p s = some (x, r) → Q x) {s : Str} {xs : List α}
    (h : parseSep p s = some xs) : ∀ x ∈ xs, Q x := by
  refine parseSep_ind hp (P := fun _ xs => ∀ x ∈ xs, Q x) ?_ ?_ ?_ _ s xs (Nat.lt_succ_self _) h
  · simp
  · intro s x r _ hx _ y hy; simp at hy; subst hy; exact hQ _ _ _ hx
  · intro s x r t u xs _ hx _ _ _ _ ih y hy
    rcases List.mem_cons.1 hy with rfl | hy
    · exact hQ _ _ _ hx
    · exact ih y hy

end sep

end Verif.Sfv
