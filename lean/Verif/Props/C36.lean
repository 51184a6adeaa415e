import Verif.Proofs.JoinAll
import Verif.Props.C01
/-!
C36 Results do not depend on the polling schedule.
C56 Dropping the signing future leaves the message as it was.
-/
namespace Verif
open Spec
variable {R : Type}

/-- C36, `join_all`: the results are those of the futures run alone, in input order, whatever the schedule; and there is such an
outcome exactly when no future panics. -/
theorem C36_join_ready (fs : List (Fut R)) (rs : List R) : JoinAll fs (.ready rs) ↔ fs.map Fut.value = rs.map .ready := by
  have inj : ∀ {a b : List R}, a.map Out.ready = b.map Out.ready → a = b := fun h =>
    List.map_injective_iff.2 (fun _ _ h => by injection h) h
  constructor
  · intro h; exact (joinAll_sound h).1 rs rfl
  · intro h
    obtain ⟨o, ho⟩ := joinAll_total fs
    cases o with
    | ready rs' =>
      have := (joinAll_sound ho).1 rs' rfl
      rw [h] at this
      rw [inj this]; exact ho
    | panic =>
      have := (joinAll_sound ho).2 rfl
      rw [h] at this
      simp at this

/-- C36, `join_all`: it panics exactly when one of the futures does, whatever the schedule. -/
theorem C36_join_panic (fs : List (Fut R)) : JoinAll fs .panic ↔ ∃ f ∈ fs, f.value = .panic := by
  constructor
  · intro h; exact List.mem_map.1 ((joinAll_sound h).2 rfl)
  · intro h
    obtain ⟨o, ho⟩ := joinAll_total fs
    cases o with
    | panic => exact ho
    | ready rs =>
      have := (joinAll_sound ho).1 rs rfl
      have hm := List.mem_map.2 h
      rw [this] at hm
      simp at hm

/-- C36: two schedules never give different outcomes. -/
theorem C36_join_unique (fs : List (Fut R)) (o o' : Out (List R)) (h : JoinAll fs o) (h' : JoinAll fs o') : o = o' := by
  cases o with
  | panic =>
    cases o' with
    | panic => rfl
    | ready rs =>
      obtain ⟨f, hf, e⟩ := (C36_join_panic fs).1 h
      have := (C36_join_ready fs rs).1 h'
      have hm : Out.panic ∈ fs.map Fut.value := List.mem_map.2 ⟨f, hf, e⟩
      rw [this] at hm; simp at hm
  | ready rs =>
    rw [C36_join_ready] at h
    cases o' with
    | ready rs' =>
      rw [C36_join_ready, h] at h'
      rw [List.map_injective_iff.2 (fun _ _ h => by injection h) h']
    | panic =>
      obtain ⟨f, hf, e⟩ := (C36_join_panic fs).1 h'
      have hm : Out.panic ∈ fs.map Fut.value := List.mem_map.2 ⟨f, hf, e⟩
      rw [h] at hm; simp at hm

/-- C36: the executor cannot get stuck, and cannot go on for ever: at most so many polls of unfinished futures are possible. -/
theorem C36_no_deadlock (fs : List (Fut R)) :
    (∀ b, Big.Run (Big.start fs) (.going b) → ∃ s, Big.Step b s) ∧
    ¬ ∃ run : Nat → Big R, ∀ n, Big.Step (run n) (.going (run (n + 1))) := by
  refine ⟨fun b _ => step_exists b, ?_⟩
  rintro ⟨run, h⟩
  have : ∀ n, (run n).work + n ≤ (run 0).work := by
    intro n
    induction n with
    | zero => simp
    | succ n ih => have := step_work (h n); omega
  have := this ((run 0).work + 1)
  omega

/-- The gathered results of calls are the outcome of futures computing them. -/
theorem gather_join {ε ε' α β : Type} {fs : List (Fut (Except ε α))} {l : List β} {g : β → Res ε α}
    (hf : List.Forall₂ (fun f b => Fut.Computes f (g b)) fs l) (out : Out (List (Except ε α))) :
    JoinAll fs out ↔ out.toRes = (gather (l.map g) : Res ε' _) := by
  have hval : ∀ {x : Res ε α} {r : Except ε α}, (Fut.ofRes x).value = .ready r ↔ x = ofExcept r := by
    intro x r
    cases x <;> cases r <;> simp [Fut.ofRes, Fut.value, ofExcept]
  have hpan : ∀ {x : Res ε α}, (Fut.ofRes x).value = .panic ↔ x = .panic := by
    intro x; cases x <;> simp [Fut.ofRes, Fut.value]
  have hmap : fs.map Fut.value = (l.map g).map (fun x => (Fut.ofRes x).value) := by
    clear out
    induction hf with
    | nil => rfl
    | cons h _ ih => simp only [List.map_cons, ih]; rw [h]
  cases out with
  | ready rs =>
    rw [C36_join_ready, hmap]
    constructor
    · intro h
      refine ((gather_ok _ rs).2 ?_).symm
      generalize l.map g = xs at h
      clear hmap hf
      induction xs generalizing rs with
      | nil => cases rs with
        | nil => rfl
        | cons _ _ => simp at h
      | cons x t ih =>
        cases rs with
        | nil => simp at h
        | cons r rs =>
          simp only [List.map_cons, List.cons.injEq] at h ⊢
          exact ⟨hval.1 h.1, ih rs h.2⟩
    · intro h
      rw [(gather_ok _ rs).1 h.symm, List.map_map]
      refine List.map_congr_left (fun r _ => ?_)
      exact hval.2 rfl
  | panic =>
    rw [C36_join_panic]
    constructor
    · rintro ⟨f, hfm, e⟩
      refine ((gather_panic _).2 ?_).symm
      have : Out.panic ∈ fs.map Fut.value := List.mem_map.2 ⟨f, hfm, e⟩
      rw [hmap] at this
      obtain ⟨x, hx, e⟩ := List.mem_map.1 this
      rw [← hpan.1 e]; exact hx
    · intro h
      have := (gather_panic _).1 h.symm
      have : Out.panic ∈ fs.map Fut.value := by
        rw [hmap]; exact List.mem_map.2 ⟨_, this, rfl⟩
      exact List.mem_map.1 this

theorem exists_futs {ε α β : Type} (g : β → Res ε α) (l : List β) :
    ∃ fs : List (Fut (Except ε α)), List.Forall₂ (fun f b => Fut.Computes f (g b)) fs l := by
  induction l with
  | nil => exact ⟨[], .nil⟩
  | cons a t ih =>
    obtain ⟨fs, h⟩ := ih
    exact ⟨Fut.ofRes (g a) :: fs, .cons rfl h⟩

/-- C36, verification: every schedule, with any number of suspensions in the futures, gives what the calls give one after the other. -/
theorem C36_verify (now : UInt64) (m : Msg) (keys : List (VerifyingKey × Option Str)) (rf : Option Request)
    (o : Res HyperErr (List (Except HyperErr Str))) : VerifyAsync now m keys rf o ↔ o = verifySignatures now m keys rf := by
  unfold VerifyAsync verifySignatures
  split
  · rfl
  · cases hx : extractSignatures m rf with
    | err e => rfl
    | panic => rfl
    | ok map =>
      simp only [Res.bind_ok]
      unfold verifyInner
      constructor
      · rintro ⟨fs, hf, out, hj, rfl⟩
        exact (gather_join (g := fun ki : VerifyingKey × Option Str => verifyOne now map ki.1 ki.2) hf out).1 hj
      · rintro rfl
        obtain ⟨fs, hf⟩ := exists_futs (fun ki : VerifyingKey × Option Str => verifyOne now map ki.1 ki.2) keys
        obtain ⟨out, hj⟩ := joinAll_total fs
        exact ⟨fs, hf, out, hj, ((gather_join hf out).1 hj).symm⟩

/-- What is true of a signing call at each position. -/
def SetState (m : Msg) (l : List (SigParams × SigningKey × Option Str)) (rf : Option Request) (h : Headers) : SetPc → Prop
  | .start => h = m.headers
  | .joining fs => h = m.headers ∧ ∃ bs, signBases m l rf = .ok bs ∧ List.Forall₂ (fun f b => Fut.Computes f (b.1.headers b.2.1 b.2.2)) fs bs
  | .finished r => setSignatures m l rf = (h, r)

theorem set_run (m : Msg) (l : List (SigParams × SigningKey × Option Str)) (rf : Option Request) (h : Headers) (pc : SetPc)
    (hr : SetRun m l rf (h, pc)) : SetState m l rf h pc := by
  have hw : m.withHeaders m.headers = m := by cases m <;> rfl
  generalize hs : (h, pc) = st at hr
  induction hr generalizing h pc with
  | created => injection hs with h1 h2; subst h1; subst h2; rfl
  | @more a b _ hstep ih =>
    obtain ⟨h0, pc0⟩ := a
    have ih := ih h0 pc0 rfl
    cases hstep with
    | @baseErr _ e he =>
      injection hs with h1 h2; subst h1; subst h2
      simp only [SetState] at ih ⊢; subst ih
      rw [hw] at he
      unfold setSignatures; rw [he]; rfl
    | basePanic he =>
      injection hs with h1 h2; subst h1; subst h2
      simp only [SetState] at ih ⊢; subst ih
      rw [hw] at he
      unfold setSignatures; rw [he]; rfl
    | @bases _ bs fs he hf =>
      injection hs with h1 h2; subst h1; subst h2
      simp only [SetState] at ih ⊢; subst ih
      rw [hw] at he
      exact ⟨rfl, bs, he, hf⟩
    | @panic _ fs hj =>
      injection hs with h1 h2; subst h1; subst h2
      simp only [SetState] at ih ⊢
      obtain ⟨rfl, bs, he, hf⟩ := ih
      have := (gather_join (ε' := HyperErr) hf _).1 hj
      unfold setSignatures signAll
      rw [he, Res.bind_ok, ← this]; rfl
    | @joined _ fs rs hj =>
      simp only [SetState] at ih
      obtain ⟨rfl, bs, he, hf⟩ := ih
      have hg := (gather_join (ε' := HyperErr) hf _).1 hj
      have hset : setSignatures m l rf =
          (match Res.collect okOrErr rs with
          | .ok hs => appendAll m.headers hs
          | .err e => (m.headers, .err e)
          | .panic => (m.headers, .panic)) := by
        unfold setSignatures signAll
        rw [he, Res.bind_ok, ← hg]; rfl
      unfold setRest at hs
      split at hs
      · rename_i hc; injection hs with h1 h2; subst h1; subst h2; show setSignatures m l rf = _; rw [hset, hc]
      · rename_i hc; injection hs with h1 h2; subst h1; subst h2; show setSignatures m l rf = _; rw [hset, hc]
      · rename_i hc; injection hs with h1 h2; subst h1; subst h2; show setSignatures m l rf = _; rw [hset, hc]

/-- C36, signing: a finished call gives the same header map and result under every schedule. -/
theorem C36_set (m : Msg) (l : List (SigParams × SigningKey × Option Str)) (rf : Option Request) (h : Headers) (r : Res HyperErr Unit) :
    SetRun m l rf (h, .finished r) ↔ setSignatures m l rf = (h, r) := by
  constructor
  · intro hr; exact set_run m l rf h _ hr
  · intro he
    have hw : m.withHeaders m.headers = m := by cases m <;> rfl
    -- some run finishes
    have : ∃ h' r', SetRun m l rf (h', .finished r') := by
      cases hb : signBases m l rf with
      | err e => exact ⟨_, _, .more .created (.baseErr (by rw [hw]; exact hb))⟩
      | panic => exact ⟨_, _, .more .created (.basePanic (by rw [hw]; exact hb))⟩
      | ok bs =>
        obtain ⟨fs, hf⟩ := exists_futs (fun b : SigBase × SigningKey × Option Str => b.1.headers b.2.1 b.2.2) bs
        have h1 := SetRun.more .created (SetStep.bases (fs := fs) (by rw [hw]; exact hb) hf)
        obtain ⟨out, hj⟩ := joinAll_total fs
        cases out with
        | panic => exact ⟨_, _, .more h1 (.panic hj)⟩
        | ready rs =>
          have h2 := SetRun.more h1 (.joined hj)
          have : ∃ h' r', setRest m.headers rs = (h', .finished r') := by
            unfold setRest; split <;> exact ⟨_, _, rfl⟩
          obtain ⟨h', r', e⟩ := this
          rw [e] at h2
          exact ⟨h', r', h2⟩
    obtain ⟨h', r', hr⟩ := this
    have := set_run m l rf h' _ hr
    simp only [SetState] at this
    rw [he] at this
    injection this with h1 h2; subst h1; subst h2
    exact hr

/-- C56: a signing call that is dropped before it finished, at any point of any schedule, has not changed the header map. -/
theorem C56_dropped (m : Msg) (l : List (SigParams × SigningKey × Option Str)) (rf : Option Request) (h : Headers) (pc : SetPc)
    (hr : SetRun m l rf (h, pc)) (hn : ∀ r, pc ≠ .finished r) : h = m.headers := by
  have := set_run m l rf h pc hr
  cases pc with
  | start => exact this
  | joining fs => exact this.1
  | finished r => exact absurd rfl (hn r)

-- three futures finishing in another order than they were given
example : JoinAll [.pend (.pend (.ready 1)), .ready 2, .pend (.ready 3)] (.ready [1, 2, 3]) := by
  rw [C36_join_ready]; rfl
-- more than thirty, the first one being the slowest
example : JoinAll (.pend (.pend (.ready 0)) :: List.replicate 40 (.ready 7)) (.ready (0 :: List.replicate 40 7)) := by
  rw [C36_join_ready]; rfl
example : JoinAll [.pend (.ready 1), .pend (.pend .panic)] (.panic : Out (List Nat)) := by
  rw [C36_join_panic]; exact ⟨_, List.mem_cons_of_mem _ (List.mem_singleton.2 rfl), rfl⟩

end Verif
