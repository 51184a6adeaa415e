import Verif.Basic
/-! Lemmas on the text helpers and on insertion-ordered maps. -/
namespace Verif

/-! ### Scanning -/

theorem takeWhile_append_stop {p : Char → Bool} {a r : Str} (ha : ∀ c ∈ a, p c = true)
    (hr : ∀ c, r.head? = some c → p c = false) : (a ++ r).takeWhile p = a := by
  induction a with
  | nil =>
    cases r with
    | nil => rfl
    | cons x t => simp [hr x rfl]
  | cons x t ih =>
    have := ha x (by simp)
    simp only [List.cons_append, List.takeWhile_cons, this, if_true]
    rw [ih (fun c hc => ha c (by simp [hc]))]

theorem dropWhile_append_stop {p : Char → Bool} {a r : Str} (ha : ∀ c ∈ a, p c = true)
    (hr : ∀ c, r.head? = some c → p c = false) : (a ++ r).dropWhile p = r := by
  induction a with
  | nil =>
    cases r with
    | nil => rfl
    | cons x t => simp [hr x rfl]
  | cons x t ih =>
    have := ha x (by simp)
    simp only [List.cons_append, List.dropWhile_cons, this, if_true]
    exact ih (fun c hc => ha c (by simp [hc]))

theorem dropWhile_stop {p : Char → Bool} {r : Str} (hr : ∀ c, r.head? = some c → p c = false) :
    r.dropWhile p = r := by
  simpa using dropWhile_append_stop (a := []) (p := p) (by simp) hr

theorem takeWhile_all {p : Char → Bool} {s : Str} : ∀ c ∈ s.takeWhile p, p c = true := by
  intro c hc
  induction s with
  | nil => simp at hc
  | cons x t ih =>
    simp only [List.takeWhile_cons] at hc
    split at hc
    · rename_i h
      rcases List.mem_cons.1 hc with rfl | hc
      · exact h
      · exact ih hc
    · simp at hc

theorem dropWhile_head {p : Char → Bool} {s : Str} : ∀ c, (s.dropWhile p).head? = some c → p c = false := by
  intro c hc
  induction s with
  | nil => simp at hc
  | cons x t ih =>
    simp only [List.dropWhile_cons] at hc
    split at hc
    · exact ih hc
    · rename_i h; simp at hc; subst hc; simpa using h

theorem dropWhile_length_le {p : Char → Bool} (s : Str) : (s.dropWhile p).length ≤ s.length := by
  induction s with
  | nil => simp
  | cons x t ih =>
    simp only [List.dropWhile_cons]
    split
    · simp; omega
    · simp

/-- Scanning a longer text when the scan stopped inside the shorter one, or the extension stops it. -/
theorem dropWhile_append_of {p : Char → Bool} {s t : Str} (h : s.dropWhile p ≠ [] ∨ ∀ c, t.head? = some c → p c = false) :
    (s ++ t).dropWhile p = s.dropWhile p ++ t := by
  induction s with
  | nil =>
    rcases h with h | h
    · simp at h
    · simpa using dropWhile_stop h
  | cons x s ih =>
    simp only [List.cons_append, List.dropWhile_cons] at *
    split
    · rename_i hx; simp only [hx, if_true] at h; exact ih h
    · simp

theorem takeWhile_append_of {p : Char → Bool} {s t : Str} (h : s.dropWhile p ≠ [] ∨ ∀ c, t.head? = some c → p c = false) :
    (s ++ t).takeWhile p = s.takeWhile p := by
  induction s with
  | nil =>
    rcases h with h | h
    · simp at h
    · cases t with
      | nil => rfl
      | cons y t => simp [h y rfl]
  | cons x s ih =>
    simp only [List.cons_append, List.dropWhile_cons, List.takeWhile_cons] at *
    split
    · rename_i hx; simp only [hx, if_true] at h; rw [ih h]
    · simp

/-! ### `splitOnce` -/

theorem splitOnce_append {c : Char} {a : Str} (b : Str) (h : c ∉ a) : splitOnce c (a ++ c :: b) = some (a, b) := by
  induction a with
  | nil => simp [splitOnce]
  | cons x t ih =>
    have hx : x ≠ c := fun e => h (by simp [e])
    have ht : c ∉ t := fun e => h (by simp [e])
    simp [splitOnce, hx, ih ht]

theorem splitOnce_some {c : Char} {s a b : Str} (h : splitOnce c s = some (a, b)) : s = a ++ c :: b ∧ c ∉ a := by
  induction s generalizing a b with
  | nil => simp [splitOnce] at h
  | cons x t ih =>
    simp only [splitOnce] at h
    split at h
    · rename_i hx
      injection h with h; injection h with h1 h2; subst h1 h2
      simp [hx]
    · rename_i hx
      split at h
      · rename_i a' b' ht
        injection h with h; injection h with h1 h2; subst h1 h2
        obtain ⟨h1, h2⟩ := ih ht
        exact ⟨by simp [h1], by simp [h2, Ne.symm hx]⟩
      · cases h

theorem splitOnce_none {c : Char} {s : Str} : splitOnce c s = none ↔ c ∉ s := by
  induction s with
  | nil => simp [splitOnce]
  | cons x t ih =>
    simp only [splitOnce]
    split
    · rename_i hx; simp [hx]
    · rename_i hx
      cases ht : splitOnce c t with
      | none => simp [ih.1 ht, Ne.symm hx]
      | some ab =>
        have : ¬ c ∉ t := fun h => by rw [ih.2 h] at ht; cases ht
        simp at this
        simp [this]

/-! ### `splitOn` -/

theorem splitOn_ne_nil (c : Char) (s : Str) : splitOn c s ≠ [] := by
  cases s with
  | nil => simp [splitOn]
  | cons x t =>
    simp only [splitOn]
    split
    · simp
    · split <;> simp

theorem splitOn_no (c : Char) {a : Str} (h : c ∉ a) : splitOn c a = [a] := by
  induction a with
  | nil => rfl
  | cons x t ih =>
    have hx : x ≠ c := fun e => h (by simp [e])
    have ht : c ∉ t := fun e => h (by simp [e])
    simp [splitOn, hx, ih ht]

theorem splitOn_append (c : Char) {a : Str} (b : Str) (h : c ∉ a) : splitOn c (a ++ c :: b) = a :: splitOn c b := by
  induction a with
  | nil => simp [splitOn]
  | cons x t ih =>
    have hx : x ≠ c := fun e => h (by simp [e])
    have ht : c ∉ t := fun e => h (by simp [e])
    simp [splitOn, hx, ih ht]

/-! ### `join` -/

@[simp] theorem join_nil (sep : Str) : join sep [] = [] := rfl
@[simp] theorem join_one (sep a : Str) : join sep [a] = a := rfl
theorem join_cons (sep a : Str) {l : List Str} (h : l ≠ []) : join sep (a :: l) = a ++ sep ++ join sep l := by
  cases l with
  | nil => exact absurd rfl h
  | cons b t => rfl

theorem join_append (sep : Str) {l m : List Str} (hl : l ≠ []) (hm : m ≠ []) :
    join sep (l ++ m) = join sep l ++ sep ++ join sep m := by
  induction l with
  | nil => exact absurd rfl hl
  | cons a t ih =>
    by_cases ht : t = []
    · subst ht; simp [join_cons _ _ hm]
    · rw [List.cons_append, join_cons _ _ (by simp [ht]), ih ht, join_cons _ _ ht]
      simp

theorem join_all {p : Char → Prop} {sep : Str} {l : List Str} (hs : ∀ c ∈ sep, p c) (hl : ∀ a ∈ l, ∀ c ∈ a, p c) :
    ∀ c ∈ join sep l, p c := by
  induction l with
  | nil => simp
  | cons a t ih =>
    by_cases ht : t = []
    · subst ht; simpa using hl a (by simp)
    · rw [join_cons _ _ ht]
      intro c hc
      simp only [List.mem_append] at hc
      rcases hc with (hc | hc) | hc
      · exact hl a (by simp) c hc
      · exact hs c hc
      · exact ih (fun b hb => hl b (by simp [hb])) c hc

/-! ### Decimal numbers -/

theorem digitChar_toNat {n : Nat} (h : n < 10) : (digitChar n).toNat = 48 + n := by
  revert h; revert n; decide

theorem digitChar_isDig {n : Nat} (h : n < 10) : ('0' ≤ digitChar n ∧ digitChar n ≤ '9') := by
  revert h; revert n; decide

theorem natStrAux_spec : ∀ f n, n < f → digitsVal (natStrAux f n) = n ∧
    (∀ c ∈ natStrAux f n, '0' ≤ c ∧ c ≤ '9') ∧ natStrAux f n ≠ []
  | 0, n, h => by omega
  | f + 1, n, h => by
    unfold natStrAux
    split
    · rename_i hn
      refine ⟨?_, ?_, by simp⟩
      · simp [digitsVal, digitChar_toNat hn]
      · intro c hc; simp at hc; subst hc; exact digitChar_isDig hn
    · rename_i hn
      obtain ⟨h1, h2, h3⟩ := natStrAux_spec f (n / 10) (by omega)
      refine ⟨?_, ?_, by simp⟩
      · unfold digitsVal at *
        rw [List.foldl_append, h1]
        simp [digitChar_toNat (show n % 10 < 10 by omega)]
        omega
      · intro c hc
        rcases List.mem_append.1 hc with hc | hc
        · exact h2 c hc
        · simp at hc; subst hc; exact digitChar_isDig (by omega)

theorem digitsVal_natStr (n : Nat) : digitsVal (natStr n) = n := (natStrAux_spec (n + 1) n (by omega)).1
theorem natStr_digits (n : Nat) : ∀ c ∈ natStr n, '0' ≤ c ∧ c ≤ '9' := (natStrAux_spec (n + 1) n (by omega)).2.1
theorem natStr_ne_nil (n : Nat) : natStr n ≠ [] := (natStrAux_spec (n + 1) n (by omega)).2.2

theorem natStr_inj {a b : Nat} (h : natStr a = natStr b) : a = b := by
  rw [← digitsVal_natStr a, ← digitsVal_natStr b, h]

theorem natStrAux_length : ∀ k f n, n < 10 ^ (k + 1) → (natStrAux f n).length ≤ k + 1
  | _, 0, _, _ => by simp [natStrAux]
  | k, f + 1, n, h => by
    unfold natStrAux
    split
    · simp
    · cases k with
      | zero => simp at h; omega
      | succ k =>
        have := natStrAux_length k f (n / 10) (by
          rw [Nat.pow_succ] at h; omega)
        simp; omega

/-- A number below `10^(k+1)` has at most `k+1` digits. -/
theorem natStr_length {k n : Nat} (h : n < 10 ^ (k + 1)) : (natStr n).length ≤ k + 1 := natStrAux_length k _ n h

theorem natStrAux_length_ge : ∀ k f n, n < f → 10 ^ k ≤ n → k + 1 ≤ (natStrAux f n).length
  | _, 0, _, h, _ => by omega
  | k, f + 1, n, hf, h => by
    unfold natStrAux
    split
    · rename_i hn
      cases k with
      | zero => simp
      | succ k =>
        have : 10 ^ 1 ≤ 10 ^ (k + 1) := Nat.pow_le_pow_right (by omega) (by omega)
        omega
    · cases k with
      | zero => simp
      | succ k =>
        have := natStrAux_length_ge k f (n / 10) (by omega) (by
          rw [Nat.pow_succ] at h; omega)
        simp; omega

theorem natStr_length_ge {k n : Nat} (h : 10 ^ k ≤ n) : k + 1 ≤ (natStr n).length :=
  natStrAux_length_ge k _ n (by omega) h

theorem digitsVal_lt_aux (s : Str) (h : ∀ c ∈ s, '0' ≤ c ∧ c ≤ '9') :
    ∀ a, s.foldl (fun a c => a * 10 + (c.toNat - 48)) a < (a + 1) * 10 ^ s.length := by
  induction s with
  | nil => intro a; simp
  | cons x t ih =>
    intro a
    have hx := h x (by simp)
    have h1 : x.toNat ≤ 57 := hx.2
    have := ih (fun c hc => h c (by simp [hc])) (a * 10 + (x.toNat - 48))
    simp only [List.foldl_cons, List.length_cons]
    refine Nat.lt_of_lt_of_le this ?_
    rw [Nat.pow_succ, Nat.mul_comm (10 ^ t.length) 10, ← Nat.mul_assoc]
    apply Nat.mul_le_mul_right
    omega

theorem digitsVal_lt {s : Str} (h : ∀ c ∈ s, '0' ≤ c ∧ c ≤ '9') : digitsVal s < 10 ^ s.length := by
  simpa [digitsVal] using digitsVal_lt_aux s h 0

/-! ### Insertion-ordered maps -/

section maps
variable {κ ν : Type} [DecidableEq κ]

theorem imGet_insert_self (m : List (κ × ν)) (k : κ) (v : ν) : imGet (imInsert m k v) k = some v := by
  induction m with
  | nil => simp [imInsert, imGet]
  | cons x t ih =>
    obtain ⟨k', v'⟩ := x
    simp only [imInsert]
    split
    · rename_i h; simp [imGet, h]
    · rename_i h; simp [imGet, h, ih]

theorem imGet_insert_ne (m : List (κ × ν)) {k k' : κ} (v : ν) (h : k' ≠ k) :
    imGet (imInsert m k v) k' = imGet m k' := by
  induction m with
  | nil => simp [imInsert, imGet, Ne.symm h]
  | cons x t ih =>
    obtain ⟨k1, v1⟩ := x
    simp only [imInsert]
    split
    · rename_i h1; subst h1; simp [imGet, Ne.symm h]
    · simp [imGet, ih]

theorem imGet_isSome {m : List (κ × ν)} {k : κ} : (imGet m k).isSome ↔ k ∈ m.map Prod.fst := by
  induction m with
  | nil => simp [imGet]
  | cons x t ih =>
    obtain ⟨k1, v1⟩ := x
    simp only [imGet]
    split
    · rename_i h; simp [h]
    · rename_i h; simp [ih, Ne.symm h]

theorem imGet_none {m : List (κ × ν)} {k : κ} : imGet m k = none ↔ k ∉ m.map Prod.fst := by
  rw [← imGet_isSome]; cases imGet m k <;> simp

theorem imGet_mem {m : List (κ × ν)} {k : κ} {v : ν} (h : imGet m k = some v) : (k, v) ∈ m := by
  induction m with
  | nil => simp [imGet] at h
  | cons x t ih =>
    obtain ⟨k1, v1⟩ := x
    simp only [imGet] at h
    split at h
    · rename_i hk; injection h with h; subst h hk; simp
    · simp [ih h]

theorem imGet_of_mem {m : List (κ × ν)} (hn : (m.map Prod.fst).Nodup) {k : κ} {v : ν} (h : (k, v) ∈ m) :
    imGet m k = some v := by
  induction m with
  | nil => simp at h
  | cons x t ih =>
    obtain ⟨k1, v1⟩ := x
    simp only [List.map_cons, List.nodup_cons] at hn
    simp only [imGet]
    rcases List.mem_cons.1 h with h | h
    · injection h with h1 h2; subst h1 h2; simp
    · rw [if_neg, ih hn.2 h]
      intro e; subst e
      exact hn.1 (List.mem_map.2 ⟨_, h, rfl⟩)

theorem imInsert_new {m : List (κ × ν)} {k : κ} (v : ν) (h : k ∉ m.map Prod.fst) : imInsert m k v = m ++ [(k, v)] := by
  induction m with
  | nil => rfl
  | cons x t ih =>
    obtain ⟨k1, v1⟩ := x
    simp only [List.map_cons, List.mem_cons, not_or] at h
    simp [imInsert, Ne.symm h.1, ih h.2]

theorem imInsert_keys_old {m : List (κ × ν)} {k : κ} (v : ν) (h : k ∈ m.map Prod.fst) :
    (imInsert m k v).map Prod.fst = m.map Prod.fst := by
  induction m with
  | nil => simp at h
  | cons x t ih =>
    obtain ⟨k1, v1⟩ := x
    simp only [imInsert]
    split
    · simp
    · rename_i hk
      simp only [List.map_cons, List.mem_cons] at h ⊢
      rw [ih (h.resolve_left (Ne.symm hk))]

theorem imInsert_keys (m : List (κ × ν)) (k : κ) (v : ν) :
    (imInsert m k v).map Prod.fst = if k ∈ m.map Prod.fst then m.map Prod.fst else m.map Prod.fst ++ [k] := by
  split
  · rename_i h; exact imInsert_keys_old v h
  · rename_i h; rw [imInsert_new v h]; simp

theorem imInsert_nodup {m : List (κ × ν)} (h : (m.map Prod.fst).Nodup) (k : κ) (v : ν) :
    ((imInsert m k v).map Prod.fst).Nodup := by
  rw [imInsert_keys]
  split
  · exact h
  · rename_i hk
    rw [List.nodup_append]
    refine ⟨h, by simp, ?_⟩
    intro a ha b hb
    simp at hb; subst hb
    intro e; subst e; exact hk ha

theorem imInsert_mem {m : List (κ × ν)} {k : κ} {v : ν} {x : κ × ν} (h : x ∈ imInsert m k v) : x ∈ m ∨ x = (k, v) := by
  induction m with
  | nil => simp [imInsert] at h; exact Or.inr h
  | cons y t ih =>
    obtain ⟨k1, v1⟩ := y
    simp only [imInsert] at h
    split at h
    · rename_i hk
      rcases List.mem_cons.1 h with h | h
      · right; rw [h, hk]
      · left; simp [h]
    · rcases List.mem_cons.1 h with h | h
      · left; simp [h]
      · rcases ih h with h | h
        · left; simp [h]
        · exact Or.inr h

/-- Insertion of a list into an existing map. -/
def imInsertAll (m l : List (κ × ν)) : List (κ × ν) := l.foldl (fun m kv => imInsert m kv.1 kv.2) m

theorem imOfList_eq (l : List (κ × ν)) : imOfList l = imInsertAll [] l := rfl

theorem imInsertAll_append (m l l' : List (κ × ν)) :
    imInsertAll m (l ++ l') = imInsertAll (imInsertAll m l) l' := by simp [imInsertAll, List.foldl_append]

theorem imOfList_append_one (l : List (κ × ν)) (k : κ) (v : ν) :
    imOfList (l ++ [(k, v)]) = imInsert (imOfList l) k v := by
  simp [imOfList, List.foldl_append]

theorem imInsertAll_nodup {m : List (κ × ν)} (l : List (κ × ν)) (h : (m.map Prod.fst).Nodup) :
    ((imInsertAll m l).map Prod.fst).Nodup := by
  induction l generalizing m with
  | nil => exact h
  | cons x t ih => exact ih (imInsert_nodup h x.1 x.2)

theorem imOfList_nodup (l : List (κ × ν)) : ((imOfList l).map Prod.fst).Nodup :=
  imInsertAll_nodup l (by simp)

theorem imInsertAll_fresh {m l : List (κ × ν)} (h : ((m ++ l).map Prod.fst).Nodup) : imInsertAll m l = m ++ l := by
  induction l generalizing m with
  | nil => simp [imInsertAll]
  | cons x t ih =>
    obtain ⟨k, v⟩ := x
    have hk : k ∉ m.map Prod.fst := by
      rw [List.map_append, List.nodup_append] at h
      intro hm
      exact h.2.2 k hm k (by simp) rfl
    show imInsertAll (imInsert m k v) t = _
    rw [imInsert_new v hk, ih (by simpa using h)]
    simp

/-- Collecting a list whose keys are pairwise distinct gives the list itself. -/
theorem imOfList_of_nodup {l : List (κ × ν)} (h : (l.map Prod.fst).Nodup) : imOfList l = l := by
  rw [imOfList_eq, imInsertAll_fresh (by simpa using h)]; rfl

theorem imInsertAll_mem {m l : List (κ × ν)} {x : κ × ν} (h : x ∈ imInsertAll m l) : x ∈ m ∨ x ∈ l := by
  induction l generalizing m with
  | nil => exact Or.inl h
  | cons y t ih =>
    rcases ih (m := imInsert m y.1 y.2) h with h | h
    · rcases imInsert_mem h with h | h
      · exact Or.inl h
      · right; simp [h]
    · right; simp [h]

theorem imOfList_mem {l : List (κ × ν)} {x : κ × ν} (h : x ∈ imOfList l) : x ∈ l := by
  rcases imInsertAll_mem h with h | h
  · simp at h
  · exact h

theorem imInsertAll_keys_mem {m l : List (κ × ν)} {k : κ} :
    k ∈ (imInsertAll m l).map Prod.fst ↔ k ∈ m.map Prod.fst ∨ k ∈ l.map Prod.fst := by
  induction l generalizing m with
  | nil => simp [imInsertAll]
  | cons y t ih =>
    show k ∈ (imInsertAll (imInsert m y.1 y.2) t).map Prod.fst ↔ _
    rw [ih, imInsert_keys]
    simp only [List.map_cons, List.mem_cons]
    split
    · rename_i h
      constructor
      · rintro (h' | h')
        · exact Or.inl h'
        · exact Or.inr (Or.inr h')
      · rintro (h' | rfl | h')
        · exact Or.inl h'
        · exact Or.inl h
        · exact Or.inr h'
    · simp only [List.mem_append, List.mem_singleton]
      tauto

theorem imOfList_keys_mem {l : List (κ × ν)} {k : κ} : k ∈ (imOfList l).map Prod.fst ↔ k ∈ l.map Prod.fst := by
  rw [imOfList_eq, imInsertAll_keys_mem]; simp

theorem imInsert_ne_nil (m : List (κ × ν)) (k : κ) (v : ν) : imInsert m k v ≠ [] := by
  cases m with
  | nil => simp [imInsert]
  | cons x t => simp only [imInsert]; split <;> simp

/-- A function on values commutes with insertion. -/
theorem imInsert_map {ν' : Type} (f : κ → ν → ν') (m : List (κ × ν)) (k : κ) (v : ν) :
    (imInsert m k v).map (fun kv => (kv.1, f kv.1 kv.2)) = imInsert (m.map (fun kv => (kv.1, f kv.1 kv.2))) k (f k v) := by
  induction m with
  | nil => rfl
  | cons x t ih =>
    obtain ⟨k1, v1⟩ := x
    simp only [imInsert, List.map_cons]
    split
    · rename_i h; subst h; rfl
    · simp [ih]

end maps

/-! ### Insertion-ordered sets -/

section sets
variable {κ : Type} [DecidableEq κ]

theorem isInsert_mem {s : List κ} {k x : κ} : x ∈ isInsert s k ↔ x ∈ s ∨ x = k := by
  unfold isInsert
  split
  · rename_i h
    constructor
    · exact Or.inl
    · rintro (h' | rfl)
      · exact h'
      · exact h
  · simp

theorem isInsert_nodup {s : List κ} (h : s.Nodup) (k : κ) : (isInsert s k).Nodup := by
  unfold isInsert
  split
  · exact h
  · rename_i hk
    rw [List.nodup_append]
    refine ⟨h, by simp, ?_⟩
    intro a ha b hb
    simp at hb; subst hb
    intro e; subst e; exact hk ha

theorem isFold_nodup {s : List κ} (h : s.Nodup) (l : List κ) : (l.foldl isInsert s).Nodup := by
  induction l generalizing s with
  | nil => exact h
  | cons x t ih => exact ih (isInsert_nodup h x)

theorem isFold_mem {s l : List κ} {x : κ} : x ∈ l.foldl isInsert s ↔ x ∈ s ∨ x ∈ l := by
  induction l generalizing s with
  | nil => simp
  | cons y t ih => rw [List.foldl_cons, ih, isInsert_mem]; simp; tauto

theorem isOfList_nodup (l : List κ) : (isOfList l).Nodup := isFold_nodup (by simp) l

theorem isOfList_mem {l : List κ} {x : κ} : x ∈ isOfList l ↔ x ∈ l := by
  unfold isOfList; rw [isFold_mem]; simp

theorem isFold_fresh {s l : List κ} (h : (s ++ l).Nodup) : l.foldl isInsert s = s ++ l := by
  induction l generalizing s with
  | nil => simp
  | cons x t ih =>
    have hx : x ∉ s := by
      rw [List.nodup_append] at h
      intro hm
      exact h.2.2 x hm x (by simp) rfl
    rw [List.foldl_cons, show isInsert s x = s ++ [x] by simp [isInsert, hx], ih (by simpa using h)]
    simp

theorem isOfList_of_nodup {l : List κ} (h : l.Nodup) : isOfList l = l := by
  unfold isOfList; rw [isFold_fresh (by simpa using h)]; rfl

theorem isFold_head {s l : List κ} {x : κ} (h : s.head? = some x) : (l.foldl isInsert s).head? = some x := by
  induction l generalizing s with
  | nil => exact h
  | cons y t ih =>
    apply ih
    unfold isInsert
    split
    · exact h
    · cases s <;> simp_all

/-- The first element of the set is the first element of the list. -/
theorem isOfList_head (l : List κ) : (isOfList l).head? = l.head? := by
  cases l with
  | nil => rfl
  | cons x t =>
    show (t.foldl isInsert (isInsert [] x)).head? = _
    rw [isFold_head (x := x) (by simp [isInsert])]; rfl

end sets

/-! ### UTF-8 -/

theorem utf8_eq_encode (s : Str) : utf8 s = (List.utf8Encode s).data.toList := by
  simp [utf8, List.utf8Encode]

/-- UTF-8 is injective. -/
theorem utf8_inj {a b : Str} (h : utf8 a = utf8 b) : a = b := by
  have h1 : List.utf8Encode a = List.utf8Encode b := by
    rw [utf8_eq_encode, utf8_eq_encode] at h
    have := Array.toList_inj.1 h
    cases ha : List.utf8Encode a; cases hb : List.utf8Encode b
    rw [ha, hb] at this
    simp at this; rw [this]
  have := congrArg ByteArray.utf8Decode? h1
  simpa using this

theorem utf8_append (a b : Str) : utf8 (a ++ b) = utf8 a ++ utf8 b := by simp [utf8]

/-! ### `Res` -/

namespace Res
variable {ε ε' α β : Type}

theorem collect_ok_iff {f : α → Res ε β} {l : List α} {r : List β} :
    collect f l = ok r ↔ List.Forall₂ (fun a b => f a = ok b) l r := by
  induction l generalizing r with
  | nil => 
    simp only [collect, ok.injEq]
    constructor
    · rintro rfl; exact List.Forall₂.nil
    · intro h; cases h; rfl
  | cons a t ih =>
    simp only [collect]
    cases hf : f a with
    | ok b =>
      cases hc : collect f t with
      | ok bs =>
        simp only [ok.injEq]
        constructor
        · rintro rfl; exact List.Forall₂.cons hf (ih.1 hc)
        · intro h
          cases h with
          | cons h1 h2 =>
            rw [hf] at h1; injection h1 with h1
            have := ih.2 h2
            rw [hc] at this; injection this with this
            rw [h1, this]
      | err e =>
        simp only [reduceCtorEq, false_iff]
        intro h; cases h with
        | cons h1 h2 => rw [ih.2 h2] at hc; cases hc
      | panic =>
        simp only [reduceCtorEq, false_iff]
        intro h; cases h with
        | cons h1 h2 => rw [ih.2 h2] at hc; cases hc
    | err e =>
      simp only [reduceCtorEq, false_iff]
      intro h; cases h with
      | cons h1 h2 => rw [hf] at h1; cases h1
    | panic =>
      simp only [reduceCtorEq, false_iff]
      intro h; cases h with
      | cons h1 h2 => rw [hf] at h1; cases h1

theorem collect_congr {f g : α → Res ε β} {l : List α} (h : ∀ a ∈ l, f a = g a) : collect f l = collect g l := by
  induction l with
  | nil => rfl
  | cons a t ih =>
    simp only [collect]
    rw [h a (by simp), ih (fun b hb => h b (by simp [hb]))]

theorem collect_map {γ : Type} {f : α → Res ε β} {g : γ → α} (l : List γ) :
    collect f (l.map g) = collect (fun x => f (g x)) l := by
  induction l with
  | nil => rfl
  | cons a t ih => simp only [List.map_cons, collect, ih]

theorem collect_ok_of {f : α → Res ε β} {g : α → β} {l : List α} (h : ∀ a ∈ l, f a = ok (g a)) :
    collect f l = ok (l.map g) := by
  induction l with
  | nil => rfl
  | cons a t ih => simp [collect, h a (by simp), ih (fun b hb => h b (by simp [hb]))]

theorem collect_append {f : α → Res ε β} {l l' : List α} {r r' : List β} (h : collect f l = ok r)
    (h' : collect f l' = ok r') : collect f (l ++ l') = ok (r ++ r') := by
  rw [collect_ok_iff] at *
  induction h with
  | nil => exact h'
  | cons h1 _ ih => exact List.Forall₂.cons h1 ih

theorem bind_eq_ok {x : Res ε α} {f : α → Res ε β} {b : β} : (x >>= f) = ok b ↔ ∃ a, x = ok a ∧ f a = ok b := by
  cases x <;> simp

theorem bind_eq_panic {x : Res ε α} {f : α → Res ε β} :
    (x >>= f) = panic ↔ x = panic ∨ ∃ a, x = ok a ∧ f a = panic := by
  cases x <;> simp

theorem ofOption_eq_ok {e : ε} {o : Option α} {a : α} : ofOption e o = ok a ↔ o = some a := by
  cases o <;> simp

theorem ofOption_ne_panic {e : ε} {o : Option α} : ofOption e o ≠ panic := by
  cases o <;> simp

theorem mapErr_eq_ok {g : ε → ε'} {x : Res ε α} {a : α} : mapErr g x = ok a ↔ x = ok a := by
  cases x <;> simp

theorem mapErr_eq_panic {g : ε → ε'} {x : Res ε α} : mapErr g x = panic ↔ x = panic := by
  cases x <;> simp

theorem collect_eq_panic {f : α → Res ε β} {l : List α} :
    collect f l = panic ↔ ∃ a t, a ++ t = l ∧ (∃ r, collect f a = ok r) ∧ ∃ x, t.head? = some x ∧ f x = panic := by
  induction l with
  | nil =>
    simp only [collect, reduceCtorEq, false_iff]
    rintro ⟨a, t, h, _, x, hx, _⟩
    have : t = [] := by cases a <;> simp_all
    simp [this] at hx
  | cons b l ih =>
    constructor
    · intro h
      simp only [collect] at h
      cases hb : f b with
      | panic => exact ⟨[], b :: l, rfl, ⟨[], rfl⟩, b, rfl, hb⟩
      | err e => rw [hb] at h; cases h
      | ok y =>
        rw [hb] at h
        simp only at h
        have : collect f l = panic := by
          cases hc : collect f l <;> rw [hc] at h <;> first | rfl | cases h
        obtain ⟨a, t, rfl, ⟨r, hr⟩, x, hx, hp⟩ := ih.1 this
        exact ⟨b :: a, t, rfl, ⟨y :: r, by simp [collect, hb, hr]⟩, x, hx, hp⟩
    · rintro ⟨a, t, h, ⟨r, hr⟩, x, hx, hp⟩
      cases a with
      | nil =>
        simp at h; subst h
        simp at hx; subst hx
        simp [collect, hp]
      | cons c a =>
        simp at h
        obtain ⟨rfl, rfl⟩ := h
        simp only [collect] at hr ⊢
        cases hc : f c with
        | ok y =>
          rw [hc] at hr
          simp only at hr ⊢
          cases hca : collect f a with
          | ok r' =>
            rw [ih.2 ⟨a, t, rfl, ⟨r', hca⟩, x, hx, hp⟩]
          | err e => rw [hca] at hr; cases hr
          | panic => rw [hca] at hr; cases hr
        | err e => rw [hc] at hr; cases hr
        | panic => rfl

end Res

end Verif
