import Verif.Spec.Timing
import Verif.Props.C40
import Verif.Props.C19
/-!
C123: what somebody who watches the run of a check learns.
-/
namespace Verif
open Timing

theorem ctByte_spec (a b : UInt8) : ctByte a b = if a = b then 1 else 0 := by
  have h : ∀ x : UInt8, ((x ||| (0 - x)) >>> 7) ^^^ 1 = if x = 0 then (1 : UInt8) else 0 := by
    intro x
    have : ∀ n : Fin 256, ((UInt8.ofNat n.val ||| (0 - UInt8.ofNat n.val)) >>> 7) ^^^ 1 = if UInt8.ofNat n.val = 0 then (1 : UInt8) else 0 := by
      decide +kernel
    have hx := this ⟨x.toNat, x.toNat_lt⟩
    simpa using hx
  unfold ctByte
  simp only [h]
  have : (a ^^^ b = 0) ↔ a = b := by
    constructor
    · intro e
      have : a ^^^ b ^^^ b = b := by rw [e]; simp
      simpa [UInt8.xor_assoc] using this
    · rintro rfl; simp
  simp [this]

theorem ctLoop_spec : ∀ (a b : Bytes) (i : Nat), a.length = b.length →
    (∀ x, x = 0 ∨ x = 1 → (ctLoop a b i x).1 = if a = b then x else 0) ∧ ∀ x, (ctLoop a b i x).2 = (List.range' i a.length).map .load := by
  intro a
  induction a with
  | nil => intro b i h; cases b <;> simp_all [ctLoop]
  | cons c a ih =>
    intro b i h
    cases b with
    | nil => simp at h
    | cons d b =>
      obtain ⟨h1, h2⟩ := ih b (i + 1) (by simpa using h)
      constructor
      · intro x hx
        simp only [ctLoop, ctByte_spec]
        by_cases e : c = d
        · subst e
          have : x &&& (if c = c then 1 else 0) = x := by rcases hx with rfl | rfl <;> simp
          rw [this, h1 x hx]
          simp
        · have : x &&& (if c = d then 1 else 0) = 0 := by simp [e]
          rw [this, h1 0 (Or.inl rfl)]
          simp [e]
      · intro x
        simp only [ctLoop, h2]
        simp [List.range'_succ]

theorem ctEq_spec (a b : Bytes) : ((ctEq a b).1 = if a = b then 1 else 0) ∧
    (ctEq a b).2 = if a.length ≠ b.length then [.branch true] else .branch false :: (List.range' 0 a.length).map .load := by
  unfold ctEq
  split
  · rename_i h
    exact ⟨by rw [if_neg (fun e => h (by rw [e]))], rfl⟩
  · rename_i h
    have h := ctLoop_spec a b 0 (by simpa using h)
    exact ⟨h.1 1 (Or.inr rfl), by rw [← h.2 1]⟩

/-- C123: the comparison of digests gives the right answer, and what can be observed of it depends on the two lengths alone. -/
theorem C123_digest : (∀ a b : Bytes, (isEqualDigestRun a b).1 = true ↔ a = b) ∧ (∀ a b, (isEqualDigestRun a b).1 = isEqualDigest a b) ∧
    ∃ f : Nat → Nat → List Ev, ∀ a b, (isEqualDigestRun a b).2 = f a.length b.length := by
  have h1 : ∀ a b : Bytes, (isEqualDigestRun a b).1 = true ↔ a = b := by
    intro a b
    unfold isEqualDigestRun
    split
    · rename_i h
      simp only [Bool.false_eq_true, false_iff]
      intro e; exact h (by rw [e])
    · simp only [(ctEq_spec a b).1]
      by_cases e : a = b <;> simp [e]
  refine ⟨h1, fun a b => ?_, fun n m => if n ≠ m then [.branch true] else .branch false :: .branch false :: (List.range' 0 n).map .load, fun a b => ?_⟩
  · rw [Bool.eq_iff_iff, h1, isEqualDigest_iff]
  · unfold isEqualDigestRun
    split
    · rename_i h; exact (if_pos h).symm
    · rename_i h
      simp only [(ctEq_spec a b).2, if_neg h]

theorem mac_ok (k d t : Bytes) : (SharedKey.hmacSha256 k).verify d t = .ok () ↔ t = Sha2.hmac k d := by
  show (if t = Sha2.hmac k d then Res.ok () else .err SigErr.invalidSignature) = .ok () ↔ _
  split
  · rename_i h; simp [h]
  · rename_i h; simp [h]

theorem hmacRun_spec : (∀ k d, (hmacRun k d).1 = Sha2.hmac k d) ∧ ∃ f : Nat → Nat → List Ev, ∀ k d, (hmacRun k d).2 = f k.length d.length := by
  refine ⟨fun k d => ?_, fun n m =>
    (if n > 64 then .branch true :: List.replicate ((n + 72) / 64) .block else [.branch false]) ++
      (List.replicate ((64 + m + 72) / 64) .block ++ List.replicate ((64 + 32 + 72) / 64) .block), fun k d => ?_⟩
  · unfold hmacRun Sha2.hmac Sha2.hmacKey hashRun
    by_cases h : k.length > 64 <;> simp [h]
  · have hk : ∀ kk : Bytes, kk.length ≤ 64 → (kk ++ List.replicate (64 - kk.length) (0 : UInt8)).length = 64 := by
      intro kk h; simp; omega
    unfold hmacRun hashRun
    by_cases h : k.length > 64
    · have h2 := hk (Sha2.sha256 k) (by rw [Sha2.sha256_length]; omega)
      rw [Sha2.sha256_length] at h2
      simp only [h, if_true, List.length_append (bs := d), List.length_append (bs := Sha2.sha256 _), List.length_map, h2, Sha2.sha256_length]
    · have h2 := hk k (by omega)
      simp only [h, if_false, List.length_append (bs := d), List.length_append (bs := Sha2.sha256 _), List.length_map, h2, Sha2.sha256_length]

/-- C123: the check of an HMAC, step by step, gives the result of C42; and what can be observed of it depends on the lengths of key, data and tag and on the
result. -/
theorem C123_mac : (∀ k d t, (verifyRun k d t).1 = k.verify d t) ∧
    ∃ f : Nat → Nat → Nat → Bool → List Ev, ∀ k d t, (verifyRun (.hmacSha256 k) d t).2 =
      f k.length d.length t.length (decide ((SharedKey.hmacSha256 k).verify d t = .ok ())) := by
  obtain ⟨h1, f, h2⟩ := hmacRun_spec
  have ok : ∀ k d t, (SharedKey.hmacSha256 k).verify d t = .ok () ↔ t = Sha2.hmac k d := by
    intro k d t
    exact mac_ok k d t
  constructor
  · rintro ⟨k⟩ d t
    unfold verifyRun SharedKey.verify
    by_cases hl : t.length = 32
    · simp only [hl, ne_eq, not_true, if_false, (ctEq_spec _ _).1, h1]
      by_cases e : Sha2.hmac k d = t
      · simp [e]
      · simp [e, Ne.symm e]
    · have : t ≠ Sha2.hmac k d := by rintro rfl; exact hl (Sha2.hmac_length _ _)
      simp [hl, this]
  · refine ⟨fun n m l b => f n m ++ if l ≠ 32 then [.branch true] else .branch false :: ((.branch false :: (List.range' 0 32).map .load) ++ [.branch b]), ?_⟩
    intro k d t
    have hd : decide ((SharedKey.hmacSha256 k).verify d t = .ok ()) = decide (t = Sha2.hmac k d) := by
      rw [decide_eq_decide]; exact ok k d t
    rw [hd]
    unfold verifyRun
    by_cases hl : t.length = 32
    · simp only [hl, ne_eq, not_true, if_false, (ctEq_spec _ _).1, (ctEq_spec _ _).2, h1, h2, Sha2.hmac_length]
      by_cases e : Sha2.hmac k d = t
      · simp [e]
      · simp [e, Ne.symm e]
    · simp [hl, h2]

/-- C123: watching is of no use. For everybody who chooses what to send by what they see of the runs, there is somebody who only hears yes or no, sends the same,
and can compute from the answers everything the first one saw, whatever the key is. -/
theorem C123_no_use (n : Nat) (A : Sender (List Ev)) : ∃ (A' : Sender Bool) (view : Seen Bool → Seen (List Ev)),
    (∀ x, (view x).1 = x.1 ∧ (view x).2.1 = x.2.1) ∧ ∀ k : Bytes, k.length = n → ∀ m,
    talk (fun d t => (verifyRun (.hmacSha256 k) d t).2) A m =
      (talk (fun d t => decide ((SharedKey.hmacSha256 k).verify d t = .ok ())) A' m).map view := by
  obtain ⟨_, f, hf⟩ := C123_mac
  let view : Seen Bool → Seen (List Ev) := fun x => (x.1, x.2.1, f n x.1.length x.2.1.length x.2.2)
  refine ⟨fun h => A (h.map view), view, fun _ => ⟨rfl, rfl⟩, fun k hk m => ?_⟩
  induction m with
  | zero => rfl
  | succ m ih =>
    rw [talk, talk, ih, List.map_cons, hf, hk]

/-! ### A comparison that stops early -/

/-- How many places were read. -/
def loads (l : List Ev) : Nat := l.countP fun e => match e with | .load _ => true | _ => false

theorem loads_append (a b : List Ev) : loads (a ++ b) = loads a + loads b := List.countP_append

theorem loads_hmac (k d : Bytes) : loads (hmacRun k d).2 = 0 := by
  have hr : ∀ n, loads (List.replicate n .block) = 0 := by intro n; simp [loads, List.countP_replicate]
  unfold hmacRun hashRun
  simp only [loads_append, hr, Nat.add_zero]
  split
  · show loads (.branch true :: List.replicate _ .block) = 0
    simp [loads, List.countP_replicate]
  · rfl

theorem early_iff : ∀ (a b : Bytes) (i : Nat), a.length = b.length → ((earlyLoop a b i).1 = true ↔ a = b) := by
  intro a
  induction a with
  | nil => intro b i h; cases b <;> simp_all [earlyLoop]
  | cons c a ih =>
    intro b i h
    cases b with
    | nil => simp at h
    | cons d b =>
      have := ih b (i + 1) (by simpa using h)
      by_cases e : c = d <;> simp [earlyLoop, e, this]

theorem early_prefix (p x y : Bytes) (i : Nat) : loads (earlyLoop (p ++ x) (p ++ y) i).2 = p.length + loads (earlyLoop x y (i + p.length)).2 := by
  induction p generalizing i with
  | nil => simp
  | cons c p ih =>
    have h : loads (earlyLoop (c :: p ++ x) (c :: p ++ y) i).2 = 1 + loads (earlyLoop (p ++ x) (p ++ y) (i + 1)).2 := by
      simp [earlyLoop, loads, Nat.add_comm]
    rw [h, ih, List.length_cons, show i + 1 + p.length = i + (p.length + 1) from by omega]
    omega

theorem early_ne {c d : UInt8} (h : c ≠ d) (x y : Bytes) (i : Nat) : loads (earlyLoop (c :: x) (d :: y) i).2 = 1 := by
  simp [earlyLoop, h, loads]

theorem early_eq (c a b : UInt8) (x y : Bytes) (i : Nat) : 2 ≤ loads (earlyLoop (c :: a :: x) (c :: b :: y) i).2 := by
  have h := early_prefix [c] (a :: x) (b :: y) i
  have : ∀ j, 1 ≤ loads (earlyLoop (a :: x) (b :: y) j).2 := by
    intro j
    by_cases e : a = b <;> simp [earlyLoop, e, loads]
  have := this (i + [c].length)
  simp only [List.cons_append, List.nil_append, List.length_cons, List.length_nil] at h this
  rw [h]
  omega

/-- The bytes found so far, and the next one to try. -/
def found : List (Seen (List Ev)) → Bytes × Nat
  | [] => ([], 0)
  | x :: h => if (found h).1.length + 1 < loads x.2.2 then ((found h).1 ++ [UInt8.ofNat (found h).2], 0) else ((found h).1, (found h).2 + 1)

def guess (h : List (Seen (List Ev))) : Bytes := (found h).1 ++ UInt8.ofNat (found h).2 :: List.replicate (31 - (found h).1.length) 0

theorem early_verify (k d t : Bytes) : (earlyRun k d t).1 = true ↔ (SharedKey.hmacSha256 k).verify d t = .ok () := by
  rw [mac_ok]
  unfold earlyRun
  by_cases hl : t.length = 32
  · simp only [hl, ne_eq, not_true, if_false, hmacRun_spec.1]
    rw [early_iff _ _ _ (by rw [hl, Sha2.hmac_length])]
    exact eq_comm
  · simp only [hl, ne_eq, not_false_iff, if_true, Bool.false_eq_true, false_iff]
    rintro rfl; exact hl (Sha2.hmac_length _ _)

/-- C123: not so with a comparison that stops at the first difference, though it gives the same answers: after 8192 rounds somebody who watches has sent a tag
for data of their choice that is accepted, whatever the key is. -/
theorem C123_early : (∀ k d t, (earlyRun k d t).1 = true ↔ (SharedKey.hmacSha256 k).verify d t = .ok ()) ∧
    ∀ d, ∃ A : Sender (List Ev), ∀ k, ∃ x ∈ talk (fun d t => (earlyRun k d t).2) A 8192,
      x.1 = d ∧ (SharedKey.hmacSha256 k).verify d x.2.1 = .ok () := by
  refine ⟨early_verify, fun d => ⟨fun h => (d, guess h), fun k => ?_⟩⟩
  obtain ⟨T, hT⟩ : ∃ T, T = Sha2.hmac k d := ⟨_, rfl⟩
  have hl : T.length = 32 := by rw [hT, Sha2.hmac_length]
  have ok : ∀ t, t = T → (SharedKey.hmacSha256 k).verify d t = .ok () := by
    intro t ht; rw [ht, hT]; simp [SharedKey.verify]
  have inv : ∀ m, (∃ x ∈ talk (fun d t => (earlyRun k d t).2) (fun h => (d, guess h)) m, x.1 = d ∧ (SharedKey.hmacSha256 k).verify d x.2.1 = .ok ()) ∨
      ∃ p b ts, T = p ++ b :: ts ∧ (found (talk (fun d t => (earlyRun k d t).2) (fun h => (d, guess h)) m)).1 = p ∧
        (found (talk (fun d t => (earlyRun k d t).2) (fun h => (d, guess h)) m)).2 ≤ b.toNat ∧
        m ≤ 256 * p.length + (found (talk (fun d t => (earlyRun k d t).2) (fun h => (d, guess h)) m)).2 := by
    intro m
    induction m with
    | zero =>
      cases T with
      | nil => simp at hl
      | cons b ts => exact Or.inr ⟨[], b, ts, rfl, rfl, Nat.zero_le _, Nat.zero_le _⟩
    | succ m ih =>
      rcases ih with ⟨x, hx, h⟩ | ⟨p, b, ts, e, hp, hc, hm⟩
      · exact Or.inl ⟨x, List.mem_cons_of_mem _ hx, h⟩
      · rw [talk]
        generalize talk (fun d t => (earlyRun k d t).2) (fun h => (d, guess h)) m = h at hp hc hm ⊢
        obtain ⟨c, hcc⟩ : ∃ c, c = (found h).2 := ⟨_, rfl⟩
        rw [← hcc] at hc hm
        have hlen : p.length + (ts.length + 1) = 32 := by rw [← hl, e]; simp
        have hg : guess h = p ++ UInt8.ofNat c :: List.replicate ts.length 0 := by
          unfold guess
          rw [hp, ← hcc, show 31 - p.length = ts.length from by omega]
        have hgl : (guess h).length = 32 := by rw [hg]; simp; omega
        have hload : loads (earlyRun k d (guess h)).2 = p.length + loads (earlyLoop (b :: ts) (UInt8.ofNat c :: List.replicate ts.length 0) p.length).2 := by
          unfold earlyRun
          simp only [hgl, ne_eq, not_true, if_false, loads_append, loads_hmac, Nat.zero_add, hmacRun_spec.1, ← hT]
          show loads ([.branch false] ++ _) = _
          rw [loads_append, hg, e, early_prefix]
          simp [loads]
        have hfound : found ((d, guess h, (earlyRun k d (guess h)).2) :: h) =
            if p.length + 1 < loads (earlyRun k d (guess h)).2 then (p ++ [UInt8.ofNat c], 0) else (p, c + 1) := by
          rw [found, hp, ← hcc]
        by_cases hb : UInt8.ofNat c = b
        · cases ts with
          | nil =>
            refine Or.inl ⟨_, List.mem_cons_self .., rfl, ok _ ?_⟩
            rw [hg, hb, e]; rfl
          | cons b' ts =>
            right
            have : p.length + 1 < loads (earlyRun k d (guess h)).2 := by
              rw [hload, hb]
              have := early_eq b b' 0 ts (List.replicate ts.length 0) p.length
              rw [List.length_cons, List.replicate_succ]
              omega
            rw [hfound, if_pos this]
            refine ⟨p ++ [b], b', ts, by rw [e]; simp, by rw [hb], Nat.zero_le _, ?_⟩
            have := b.toNat_lt
            simp only [List.length_append, List.length_cons, List.length_nil]
            omega
        · right
          have : ¬ p.length + 1 < loads (earlyRun k d (guess h)).2 := by
            rw [hload, early_ne (Ne.symm hb)]; omega
          rw [hfound, if_neg this]
          refine ⟨p, b, ts, e, rfl, ?_, ?_⟩
          · have hne : c ≠ b.toNat := by
              rintro rfl; exact hb (by simp)
            show c + 1 ≤ b.toNat
            omega
          · show m + 1 ≤ 256 * p.length + (c + 1)
            omega
  rcases inv 8192 with h | ⟨p, b, ts, e, hp, hc, hm⟩
  · exact h
  · have := b.toNat_lt
    have hlen : p.length + (ts.length + 1) = 32 := by rw [← hl, e]; simp
    omega

/-! ### Examples -/

example : ctByte 7 7 = 1 ∧ ctByte 7 8 = 0 ∧ ctByte 0 128 = 0 := by decide
example : isEqualDigestRun [1, 2, 3] [1, 2, 3] = (true, [.branch false, .branch false, .load 0, .load 1, .load 2]) := by decide
-- the first byte differs, and all are read
example : isEqualDigestRun [1, 2, 3] [9, 2, 3] = (false, [.branch false, .branch false, .load 0, .load 1, .load 2]) := by decide
example : isEqualDigestRun [1, 2, 3] [1, 2] = (false, [.branch true]) := by decide
-- stopping at the first difference shows where it is
example : (earlyLoop [1, 2, 3] [9, 2, 3] 0).2 = [.load 0, .branch false] := by decide
example : (earlyLoop [1, 2, 3] [1, 9, 3] 0).2 = [.load 0, .branch true, .load 1, .branch false] := by decide

end Verif
