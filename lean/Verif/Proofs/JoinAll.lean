import Verif.Model.JoinAll
import Verif.Proofs.Hyper
/-!
Helper lemmas about `join_all`.
-/
namespace Verif
variable {R : Type}

/-! ### The small kind -/

def Slot.value : Slot R → Out R
  | .todo f => f.value
  | .done r => .ready r

def Fut.depth : Fut R → Nat
  | .pend f => f.depth + 1
  | _ => 0

def Slot.depth : Slot R → Nat
  | .todo f => f.depth
  | .done _ => 0

theorem slot_poll_none {s : Slot R} (h : s.poll = none) : s.value = .panic := by
  match s, h with
  | .todo .panic, _ => rfl

theorem slot_poll_some {s s' : Slot R} (h : s.poll = some s') : s'.value = s.value ∧ s'.depth ≤ s.depth - 1 ∧ (s.depth = 0 → s'.isDone = true) := by
  match s, h with
  | .todo (.ready r), h => injection h with h; subst h; exact ⟨rfl, by simp [Slot.depth, Fut.depth], fun _ => rfl⟩
  | .todo (.pend f), h => injection h with h; subst h; exact ⟨rfl, by simp [Slot.depth, Fut.depth], by simp [Slot.depth, Fut.depth]⟩
  | .done r, h => injection h with h; subst h; exact ⟨rfl, by simp [Slot.depth], fun _ => rfl⟩

theorem pollElems_none {l : List (Slot R)} (h : pollElems l = none) : ∃ s ∈ l, s.value = .panic := by
  induction l with
  | nil => cases h
  | cons s t ih =>
    unfold pollElems at h
    split at h
    · rename_i hs; exact ⟨s, by simp, slot_poll_none hs⟩
    · split at h
      · rename_i ht
        obtain ⟨x, hx, hv⟩ := ih ht
        exact ⟨x, by simp [hx], hv⟩
      · cases h

theorem pollElems_some {l l' : List (Slot R)} (h : pollElems l = some l') : List.Forall₂ (fun s s' => Slot.poll s = some s') l l' := by
  induction l generalizing l' with
  | nil => injection h with h; subst h; exact .nil
  | cons s t ih =>
    unfold pollElems at h
    split at h
    · cases h
    · rename_i s' hs
      split at h
      · cases h
      · rename_i t' ht
        injection h with h; subst h
        exact .cons hs (ih ht)

theorem pollSmall_sound {l : List (Slot R)} :
    (∀ l', pollSmall l = .inl l' → l'.map Slot.value = l.map Slot.value ∧ List.Forall₂ (fun s s' => Slot.poll s = some s') l l') ∧
    (∀ rs, pollSmall l = .inr (.ready rs) → l.map Slot.value = rs.map .ready) ∧
    (pollSmall l = .inr .panic → .panic ∈ l.map Slot.value) := by
  have hv : ∀ {l l' : List (Slot R)}, List.Forall₂ (fun s s' => Slot.poll s = some s') l l' → l'.map Slot.value = l.map Slot.value := by
    intro l l' h
    induction h with
    | nil => rfl
    | cons h _ ih => simp [(slot_poll_some h).1, ih]
  unfold pollSmall
  cases hp : pollElems l with
  | none =>
    refine ⟨by simp, by simp, fun _ => ?_⟩
    obtain ⟨s, hs, h⟩ := pollElems_none hp
    exact List.mem_map.2 ⟨s, hs, h⟩
  | some l' =>
    have hf := pollElems_some hp
    simp only
    split
    · rename_i hd
      refine ⟨by simp, ?_, by simp⟩
      intro rs h
      injection h with h; injection h with h
      rw [← hv hf, ← h]
      clear h hv hf hp
      induction l' with
      | nil => rfl
      | cons s t ih =>
        simp only [List.all_cons, Bool.and_eq_true] at hd
        match s, hd with
        | .done r, hd => simp [Slot.value, Slot.output, ih hd.2]
    · refine ⟨?_, by simp, by simp⟩
      intro l'' h
      injection h with h; subst h
      exact ⟨hv hf, hf⟩

theorem runSmall_sound {n : Nat} {l : List (Slot R)} {o : Out (List R)} (h : runSmall n l = some o) :
    (∀ rs, o = .ready rs → l.map Slot.value = rs.map .ready) ∧ (o = .panic → .panic ∈ l.map Slot.value) := by
  induction n generalizing l with
  | zero => cases h
  | succ n ih =>
    have hs := pollSmall_sound (l := l)
    unfold runSmall at h
    split at h
    · rename_i l' hl
      have := ih h
      rwa [(hs.1 _ hl).1] at this
    · rename_i o' ho
      injection h with h; subst h
      exact ⟨fun rs e => hs.2.1 rs (by rw [ho, e]), fun e => hs.2.2 (by rw [ho, e])⟩

theorem runSmall_total {n : Nat} {l : List (Slot R)} (h : ∀ s ∈ l, s.depth ≤ n) : ∃ o, runSmall (n + 1) l = some o := by
  induction n generalizing l with
  | zero =>
    unfold runSmall
    cases hp : pollSmall l with
    | inr o => exact ⟨o, rfl⟩
    | inl l' =>
      exfalso
      unfold pollSmall at hp
      split at hp
      · cases hp
      · rename_i l'' hl
        split at hp
        · cases hp
        · rename_i hd
          apply hd
          rw [List.all_eq_true]
          intro s' hs'
          obtain ⟨s, hs, e⟩ := forall₂_mem_right (pollElems_some hl) s' hs'
          exact (slot_poll_some e).2.2 (Nat.le_zero.1 (h s hs))
  | succ n ih =>
    rw [runSmall]
    cases hp : pollSmall l with
    | inr o => exact ⟨o, rfl⟩
    | inl l' =>
      apply ih
      intro s' hs'
      obtain ⟨s, hs, e⟩ := forall₂_mem_right (pollSmall_sound.1 l' hp).2 s' hs'
      have := (slot_poll_some e).2.1
      have := h s hs
      omega

/-! ### The big kind -/

theorem withIndex_mem {α : Type} {n i : Nat} {a : α} {l : List α} : (i, a) ∈ withIndex n l ↔ n ≤ i ∧ l[i - n]? = some a := by
  induction l generalizing n with
  | nil => simp [withIndex]
  | cons b t ih =>
    simp only [withIndex, List.mem_cons, Prod.mk.injEq, ih]
    constructor
    · rintro (⟨rfl, rfl⟩ | ⟨h1, h2⟩)
      · simp
      · refine ⟨by omega, ?_⟩
        rw [show i - n = (i - (n + 1)) + 1 by omega]; simpa using h2
    · rintro ⟨h1, h2⟩
      rcases Nat.eq_or_lt_of_le h1 with rfl | h
      · left; simpa using h2.symm
      · right
        rw [show i - n = (i - (n + 1)) + 1 by omega] at h2
        exact ⟨by omega, by simpa using h2⟩

theorem withIndex_fst {α : Type} (n : Nat) (l : List α) : (withIndex n l).map Prod.fst = List.range' n l.length := by
  induction l generalizing n with
  | nil => rfl
  | cons b t ih => simp [withIndex, ih, List.range'_succ]

/-- What holds at every point of a run. -/
structure BigInv (fs : List (Fut R)) (b : Big R) : Prop where
  le : b.next ≤ fs.length
  outs : (fs.take b.next).map Fut.value = b.out.map .ready
  run : ∀ i f, (i, f) ∈ b.running → b.next ≤ i ∧ ∃ g, fs[i]? = some g ∧ f.value = g.value
  heap : ∀ i r, (i, r) ∈ b.heap → b.next ≤ i ∧ ∃ g, fs[i]? = some g ∧ g.value = .ready r
  cover : ∀ i, b.next ≤ i → i < fs.length → i ∈ b.running.map Prod.fst ∨ i ∈ b.heap.map Prod.fst
  nodup : (b.running.map Prod.fst ++ b.heap.map Prod.fst).Nodup

theorem inv_start (fs : List (Fut R)) : BigInv fs (Big.start fs) := by
  refine ⟨by simp [Big.start], by simp [Big.start], ?_, by simp [Big.start], ?_, ?_⟩
  · intro i f h
    have := withIndex_mem.1 h
    exact ⟨Nat.zero_le _, f, by simpa using this.2, rfl⟩
  · intro i _ h
    left
    simp [Big.start, withIndex_fst, h]
  · simp [Big.start, withIndex_fst, List.nodup_range']

/-- The next output is taken: the common part of `pop` and `pollNext`. -/
theorem outs_succ {fs : List (Fut R)} {n : Nat} {out : List R} {r : R} {g : Fut R} (h : (fs.take n).map Fut.value = out.map .ready)
    (hg : fs[n]? = some g) (hv : g.value = .ready r) : n + 1 ≤ fs.length ∧ (fs.take (n + 1)).map Fut.value = (out ++ [r]).map .ready := by
  have hl : n < fs.length := by
    rcases Nat.lt_or_ge n fs.length with h | h
    · exact h
    · rw [List.getElem?_eq_none h] at hg; cases hg
  refine ⟨hl, ?_⟩
  rw [List.take_add_one, hg, List.map_append, h]
  simp [hv]

theorem inv_step {fs : List (Fut R)} {b b' : Big R} (hi : BigInv fs b) (hs : Big.Step b (.going b')) : BigInv fs b' := by
  obtain ⟨running, heap, next, out⟩ := b
  have hn := hi.nodup
  cases hs with
  | @pop r h1 h2 e =>
    simp only at e hn; subst e
    obtain ⟨_, g, hg, hv⟩ := hi.heap next r (by simp)
    obtain ⟨h3, h4⟩ := outs_succ hi.outs hg hv
    have hne : next ∉ running.map Prod.fst ++ (h1 ++ h2).map Prod.fst := by
      have : (next :: (running.map Prod.fst ++ (h1 ++ h2).map Prod.fst)).Nodup := by
        refine (List.Perm.nodup_iff ?_).1 hn
        simp only [List.map_append, List.map_cons]
        rw [← List.append_assoc, ← List.append_assoc]
        exact List.perm_middle
      exact (List.nodup_cons.1 this).1
    have hne' : ∀ i, next ≤ i → i ∈ running.map Prod.fst ++ (h1 ++ h2).map Prod.fst → next + 1 ≤ i := by
      intro i h hm
      rcases Nat.eq_or_lt_of_le h with rfl | h
      · exact absurd hm hne
      · exact h
    refine ⟨h3, h4, ?_, ?_, ?_, ?_⟩
    · intro i f h
      obtain ⟨ha, hb⟩ := hi.run i f h
      exact ⟨hne' i ha (List.mem_append_left _ (List.mem_map.2 ⟨_, h, rfl⟩)), hb⟩
    · intro i r h
      obtain ⟨ha, hb⟩ := hi.heap i r (by simp only [List.mem_append, List.mem_cons] at h ⊢; tauto)
      exact ⟨hne' i ha (List.mem_append_right _ (List.mem_map.2 ⟨_, h, rfl⟩)), hb⟩
    · intro i ha hb
      simp only at ha
      rcases hi.cover i (by simp only; omega) hb with h | h
      · exact Or.inl h
      · right
        simp only [List.map_append, List.map_cons, List.mem_append, List.mem_cons] at h ⊢
        rcases h with h | h | h
        · exact Or.inl h
        · omega
        · exact Or.inr h
    · refine hn.sublist ?_
      simp only [List.map_append, List.map_cons]
      exact List.Sublist.append_left (List.Sublist.append_left (List.sublist_cons_self _ _) _) _
  | @pollPending i f r1 r2 hh e =>
    simp only at e hn; subst e
    refine ⟨hi.le, hi.outs, ?_, hi.heap, ?_, by simpa using hn⟩
    · intro j f' h
      simp only [List.mem_append, List.mem_cons, Prod.mk.injEq] at h
      rcases h with h | ⟨rfl, rfl⟩ | h
      · exact hi.run j f' (by simp [h])
      · exact hi.run j (.pend f') (by simp)
      · exact hi.run j f' (by simp [h])
    · intro j ha hb
      simpa using hi.cover j ha hb
  | @pollNext r r1 r2 hh e =>
    simp only at e hn hh; subst e
    obtain ⟨_, g, hg, hv⟩ := hi.run next (.ready r) (by simp)
    obtain ⟨h3, h4⟩ := outs_succ hi.outs hg hv.symm
    have hne : next ∉ (r1 ++ r2).map Prod.fst ++ heap.map Prod.fst := by
      have : (next :: ((r1 ++ r2).map Prod.fst ++ heap.map Prod.fst)).Nodup := by
        refine (List.Perm.nodup_iff ?_).1 hn
        simp only [List.map_append, List.map_cons, List.append_assoc]
        exact List.perm_middle
      exact (List.nodup_cons.1 this).1
    have hne' : ∀ i, next ≤ i → i ∈ (r1 ++ r2).map Prod.fst ++ heap.map Prod.fst → next + 1 ≤ i := by
      intro i h hm
      rcases Nat.eq_or_lt_of_le h with rfl | h
      · exact absurd hm hne
      · exact h
    refine ⟨h3, h4, ?_, ?_, ?_, ?_⟩
    · intro i f h
      obtain ⟨ha, hb⟩ := hi.run i f (by simp only [List.mem_append, List.mem_cons] at h ⊢; tauto)
      exact ⟨hne' i ha (List.mem_append_left _ (List.mem_map.2 ⟨_, h, rfl⟩)), hb⟩
    · intro i r h
      obtain ⟨ha, hb⟩ := hi.heap i r h
      exact ⟨hne' i ha (List.mem_append_right _ (List.mem_map.2 ⟨_, h, rfl⟩)), hb⟩
    · intro i ha hb
      simp only at ha
      rcases hi.cover i (by simp only; omega) hb with h | h
      · left
        simp only [List.map_append, List.map_cons, List.mem_append, List.mem_cons] at h ⊢
        rcases h with h | h | h
        · exact Or.inl h
        · omega
        · exact Or.inr h
      · exact Or.inr h
    · refine hn.sublist ?_
      simp only [List.map_append, List.map_cons]
      exact List.Sublist.append_right (List.Sublist.append_left (List.sublist_cons_self _ _) _) _
  | @pollEarly i r r1 r2 hh hne e =>
    simp only at e hn hh hne; subst e
    obtain ⟨hle, g, hg, hv⟩ := hi.run i _ (List.mem_append_right _ (List.mem_cons_self ..))
    refine ⟨hi.le, hi.outs, ?_, ?_, ?_, ?_⟩
    · intro j f h
      exact hi.run j f (by simp only [List.mem_append, List.mem_cons] at h ⊢; tauto)
    · intro j r' h
      rcases List.mem_cons.1 h with h | h
      · injection h with h1 h2; subst h1; subst h2
        exact ⟨hle, g, hg, hv.symm⟩
      · exact hi.heap j r' h
    · intro j ha hb
      have := hi.cover j ha hb
      simp only [List.map_append, List.map_cons, List.mem_append, List.mem_cons] at this ⊢
      tauto
    · refine (List.Perm.nodup_iff ?_).1 hn
      simp only [List.map_append, List.map_cons, List.append_assoc]
      refine List.Perm.append_left _ ?_
      exact List.perm_middle.symm

theorem inv_run {fs : List (Fut R)} {a : Big R} {s : BigState R} (hr : Big.Run a s) (ha : BigInv fs a) (b : Big R) (e : s = .going b) :
    BigInv fs b := by
  induction hr generalizing b with
  | here => injection e with e; subst e; exact ha
  | more _ hs ih => subst e; exact inv_step (ih _ rfl) hs

theorem run_sound {fs : List (Fut R)} {o : Out (List R)} (hr : Big.Run (Big.start fs) (.finished o)) :
    (∀ rs, o = .ready rs → fs.map Fut.value = rs.map .ready) ∧ (o = .panic → .panic ∈ fs.map Fut.value) := by
  cases hr with
  | @more b _ hr hs =>
    have hi := inv_run hr (inv_start fs) b rfl
    cases hs with
    | @pollPanic i r1 r2 hh e =>
      refine ⟨by simp, fun _ => ?_⟩
      obtain ⟨_, g, hg, hv⟩ := hi.run i .panic (by rw [e]; simp)
      exact List.mem_map.2 ⟨g, List.mem_of_getElem? hg, hv.symm⟩
    | finish hh e =>
      refine ⟨?_, by simp⟩
      intro rs h
      injection h with h; subst h
      have : b.next = fs.length := by
        rcases Nat.eq_or_lt_of_le hi.le with h | h
        · exact h
        · exfalso
          rcases hi.cover b.next (Nat.le_refl _) h with h | h
          · rw [e] at h; simp at h
          · obtain ⟨x, hx, hx'⟩ := List.mem_map.1 h
            obtain ⟨i, r⟩ := x
            simp only at hx'; subst hx'
            exact hh r hx
      have ho := hi.outs
      rw [this, List.take_length] at ho
      exact ho

/-- Work left. -/
def Big.work (b : Big R) : Nat := (b.running.map (fun x => 2 * x.2.depth + 2)).sum + b.heap.length

theorem step_work {b b' : Big R} (hs : Big.Step b (.going b')) : b'.work < b.work := by
  obtain ⟨running, heap, next, out⟩ := b
  cases hs with
  | pop e => simp only at e; subst e; simp [Big.work]
  | pollPending hh e => simp only at e; subst e; simp [Big.work, Fut.depth]
  | pollNext hh e => simp only at e; subst e; simp [Big.work, Fut.depth]
  | pollEarly hh hn e => simp only at e; subst e; simp [Big.work, Fut.depth]; omega

theorem step_exists (b : Big R) : ∃ s, Big.Step b s := by
  by_cases hh : ∀ r, (b.next, r) ∉ b.heap
  · match hr : b.running with
    | [] => exact ⟨_, .finish hh hr⟩
    | (i, .pend f) :: t => exact ⟨_, .pollPending (r1 := []) hh hr⟩
    | (i, .panic) :: t => exact ⟨_, .pollPanic (r1 := []) hh hr⟩
    | (i, .ready r) :: t =>
      by_cases hi : i = b.next
      · subst hi; exact ⟨_, .pollNext (r1 := []) hh hr⟩
      · exact ⟨_, .pollEarly (r1 := []) hh hi hr⟩
  · simp only [not_forall, not_not] at hh
    obtain ⟨r, hr⟩ := hh
    obtain ⟨h1, h2, e⟩ := List.append_of_mem hr
    exact ⟨_, .pop e⟩

theorem run_finishes (a b : Big R) (hr : Big.Run a (.going b)) : ∃ o, Big.Run a (.finished o) := by
  induction hw : b.work using Nat.strongRecOn generalizing b with
  | _ n ih =>
    obtain ⟨s, hs⟩ := step_exists b
    cases s with
    | finished o => exact ⟨o, .more hr hs⟩
    | going b' => exact ih _ (by rw [← hw]; exact step_work hs) b' (.more hr hs) rfl

/-! ### Both kinds -/

theorem joinAll_sound {fs : List (Fut R)} {o : Out (List R)} (h : JoinAll fs o) :
    (∀ rs, o = .ready rs → fs.map Fut.value = rs.map .ready) ∧ (o = .panic → .panic ∈ fs.map Fut.value) := by
  unfold JoinAll at h
  split at h
  · obtain ⟨n, h⟩ := h
    have := runSmall_sound h
    rwa [List.map_map, show (Slot.value ∘ Slot.todo : Fut R → Out R) = Fut.value from rfl] at this
  · exact run_sound h

theorem joinAll_total (fs : List (Fut R)) : ∃ o, JoinAll fs o := by
  unfold JoinAll
  split
  · have : ∀ l : List (Slot R), ∃ n, ∀ s ∈ l, s.depth ≤ n := by
      intro l
      induction l with
      | nil => exact ⟨0, by simp⟩
      | cons s t ih =>
        obtain ⟨n, hn⟩ := ih
        refine ⟨max s.depth n, fun x hx => ?_⟩
        rcases List.mem_cons.1 hx with rfl | hx
        · exact Nat.le_max_left _ _
        · exact Nat.le_trans (hn x hx) (Nat.le_max_right _ _)
    have this := this (fs.map Slot.todo)
    obtain ⟨n, hn⟩ := this
    obtain ⟨o, ho⟩ := runSmall_total hn
    exact ⟨o, n + 1, ho⟩
  · exact run_finishes _ _ (.here _)

end Verif
