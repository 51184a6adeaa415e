import Verif.Model.Repair
import Verif.Spec.Repaired
import Verif.Props.C16
import Verif.Proofs.Hyper
/-! The repaired library reads what the library reads, and does not panic. -/
namespace Verif.Repair
open Sfv Spec

theorem caught_ok {α : Type} {e : SigErr} {r : Res SigErr α} {a : α} : caught e r = .ok a ↔ r = .ok a := by
  cases r <;> simp [caught]

theorem caught_ne_panic {α : Type} {e : SigErr} {r : Res SigErr α} : caught e r ≠ .panic := by
  cases r <;> simp [caught]

theorem bind_ne_panic {ε α β : Type} {x : Res ε α} {f : α → Res ε β} (h : x ≠ .panic) (hf : ∀ a, x = .ok a → f a ≠ .panic) : (x >>= f) ≠ .panic := by
  intro hp
  rcases Res.bind_eq_panic.1 hp with h' | ⟨a, ha, h'⟩
  · exact h h'
  · exact hf a ha h'

theorem cparamsOf_ne_panic (ps : Params) : cparamsOf ps ≠ .panic := by
  apply bind_ne_panic
  · apply collect_ne_panic
    intro kv
    unfold CParam.ofKV
    repeat' split
    all_goals first | exact bind_ne_panic Res.ofOption_ne_panic (by simp) | simp
  · simp

theorem check_ne_panic (i : CId) : CId.check i ≠ .panic := by
  unfold CId.check
  repeat' split
  all_goals simp

theorem idOfItem_ok {it : Item} {i : CId} : idOfItem it = .ok i ↔ CId.ofItem it = .ok i := by
  unfold idOfItem CId.ofItem nameOf
  simp only [Res.bind_eq_ok, caught_ok]

theorem idOfStr_ok {s : Str} {i : CId} : idOfStr s = .ok i ↔ CId.ofStr s = .ok i := by
  unfold idOfStr CId.ofStr
  simp only [Res.bind_eq_ok, idOfItem_ok]

theorem idOfStr_ne_panic (s : Str) : idOfStr s ≠ .panic := by
  apply bind_ne_panic Res.ofOption_ne_panic
  intro it _
  exact bind_ne_panic caught_ne_panic (fun _ _ => bind_ne_panic (cparamsOf_ne_panic _) (fun _ _ => check_ne_panic _))

theorem setKVs_ok {ps : Params} {p q : SigParams} : setKVs p ps = .ok q ↔ p.setKVs ps = .ok q := by
  induction ps generalizing p with
  | nil => rfl
  | cons kv t ih => simp only [setKVs, SigParams.setKVs, Res.bind_eq_ok, caught_ok, ih]

theorem setKVs_ne_panic (ps : Params) (p : SigParams) : setKVs p ps ≠ .panic := by
  induction ps generalizing p with
  | nil => simp [setKVs]
  | cons kv t ih => exact bind_ne_panic caught_ne_panic (fun _ _ => ih _)

theorem ofEntry_ok {e : Entry} {p : SigParams} : ofEntry e = .ok p ↔ SigParams.ofEntry e = .ok p := by
  cases e with
  | item i => simp [ofEntry, SigParams.ofEntry]
  | inner l =>
    simp only [ofEntry, SigParams.ofEntry, Res.bind_eq_ok, Res.collect_ok_iff, idOfStr_ok]
    constructor
    · rintro ⟨ids, h1, h2⟩
      refine ⟨ids, h1, ?_⟩
      split at h2
      · cases h2
      · rename_i hu; rw [if_neg hu]; exact setKVs_ok.1 h2
    · rintro ⟨ids, h1, h2⟩
      refine ⟨ids, h1, ?_⟩
      split at h2
      · cases h2
      · rename_i hu; rw [if_neg hu]; exact setKVs_ok.2 h2

theorem ofEntry_ne_panic (e : Entry) : ofEntry e ≠ .panic := by
  cases e with
  | item i => simp [ofEntry]
  | inner l =>
    refine bind_ne_panic (collect_ne_panic (fun i => idOfStr_ne_panic _) _) (fun ids _ => ?_)
    split
    · simp
    · exact setKVs_ne_panic _ _

theorem ofStr_ok {s : Str} {p : SigParams} : ofStr s = .ok p ↔ SigParams.ofStr s = .ok p := by
  unfold ofStr SigParams.ofStr
  rw [Res.bind_eq_ok, Res.bind_eq_ok]
  refine exists_congr fun l => and_congr_right fun _ => ?_
  split
  · exact ofEntry_ok
  · simp

theorem ofStr_ne_panic (s : Str) : ofStr s ≠ .panic := by
  refine bind_ne_panic Res.ofOption_ne_panic (fun l _ => ?_)
  split
  · exact ofEntry_ne_panic _
  · simp

theorem parseOne_ok_iff {a : Dict} {kv : Str × Entry} {r : Str × SigHeaders} : parseOne a kv = .ok r ↔ Verif.parseOne a kv = .ok r := by
  unfold parseOne Verif.parseOne
  simp only [Res.bind_eq_ok, ofEntry_ok]
  rfl

theorem tryParse_ok {s t : Str} {l : List (Str × SigHeaders)} : tryParse s t = .ok l ↔ SigHeaders.tryParse s t = .ok l := by
  unfold tryParse SigHeaders.tryParse
  simp only [Res.bind_eq_ok]
  refine exists_congr fun b => and_congr_right fun _ => exists_congr fun a => and_congr_right fun _ => ?_
  have e : ∀ r, Res.collect (parseOne a) b = .ok r ↔ Res.collect (Verif.parseOne a) b = .ok r := by
    intro r
    simp only [Res.collect_ok_iff, parseOne_ok_iff]
  split
  · rfl
  split
  · rfl
  split
  · rfl
  split
  · rfl
  simp only [Res.bind_eq_ok, e]

theorem tryParse_ne_panic (s t : Str) : tryParse s t ≠ .panic := by
  refine bind_ne_panic Res.ofOption_ne_panic (fun b hb => bind_ne_panic Res.ofOption_ne_panic (fun a ha => ?_))
  have hb := Res.ofOption_eq_ok.1 hb
  have ha := Res.ofOption_eq_ok.1 ha
  have nb := (parseDict_legal hb).1
  have na := (parseDict_legal ha).1
  split
  · simp
  rename_i h1
  split
  · simp
  rename_i h2
  split
  · simp
  rename_i h3
  split
  · simp
  simp only [ne_eq, Decidable.not_not, List.all_eq_true] at h1 h2 h3
  refine bind_ne_panic ?_ (by simp)
  intro hp
  obtain ⟨l1, l2, hl, _, kv, hk, hp⟩ := Res.collect_eq_panic.1 hp
  have hkv : kv ∈ b := by rw [← hl]; exact List.mem_append_right _ (List.mem_of_head? hk)
  rcases Res.bind_eq_panic.1 hp with h | ⟨p, _, h⟩
  · exact ofEntry_ne_panic _ h
  · have hsub : (a.map Prod.fst).Subset (b.map Prod.fst) := by
      intro k hk
      obtain ⟨x, hx, rfl⟩ := List.mem_map.1 hk
      exact imGet_isSome.1 (h2 x hx)
    have hperm := (List.subperm_of_subset na hsub).perm_of_length_le (by simp [h1])
    have hin : kv.1 ∈ a.map Prod.fst := hperm.mem_iff.2 (List.mem_map_of_mem hkv)
    obtain ⟨e, he⟩ := Option.isSome_iff_exists.1 (imGet_isSome.2 hin)
    obtain ⟨x, hx⟩ := Option.isSome_iff_exists.1 (h3 _ (imGet_mem he))
    rw [he] at h
    simp only [Option.bind_some] at h
    rw [hx] at h
    cases h

/-! Errors stay the same. -/

/-- As `Spec.Repaired.Instead`, but both may panic. -/
inductive Near {α : Type} (E : List SigErr) : Res SigErr α → Res SigErr α → Prop where
  | same (r : Res SigErr α) : Near E r r
  | caught {e : SigErr} : e ∈ E → Near E .panic (.err e)

theorem Near.instead {α : Type} {E : List SigErr} {r r' : Res SigErr α} (h : Near E r r') (hp : r' ≠ .panic) : Repaired.Instead E r r' := by
  cases h with
  | same =>
    cases r with
    | ok a => exact .ok a
    | err e => exact .err e
    | panic => exact absurd rfl hp
  | caught he => exact .caught he

theorem Near.bind {α β : Type} {E : List SigErr} {x x' : Res SigErr α} {f f' : α → Res SigErr β} (h : Near E x x') (hf : ∀ a, Near E (f a) (f' a)) :
    Near E (x >>= f) (x' >>= f') := by
  cases h with
  | same =>
    cases x with
    | ok a => exact hf a
    | err e => exact .same _
    | panic => exact .same _
  | caught he => exact .caught he

theorem Near.collect {α β : Type} {E : List SigErr} {f f' : α → Res SigErr β} (hf : ∀ a, Near E (f a) (f' a)) :
    ∀ l, Near E (Res.collect f l) (Res.collect f' l)
  | [] => .same _
  | a :: t => by
    have ha := hf a
    have ht := Near.collect hf t
    unfold Res.collect
    revert ha
    generalize f a = x
    generalize f' a = x'
    intro ha
    cases ha with
    | caught he => exact .caught he
    | same =>
      cases x with
      | err e => exact .same _
      | panic => exact .same _
      | ok b =>
        revert ht
        generalize Res.collect f t = y
        generalize Res.collect f' t = y'
        intro ht
        cases ht with
        | caught he => exact .caught he
        | same => exact .same _

theorem near_caught {α : Type} {E : List SigErr} {e : SigErr} (he : e ∈ E) (r : Res SigErr α) : Near E r (caught e r) := by
  cases r with
  | panic => exact .caught he
  | ok a => exact .same _
  | err e => exact .same _

theorem near_idOfStr {E : List SigErr} (he : .invalidComponentName ∈ E) (s : Str) : Near E (CId.ofStr s) (idOfStr s) := by
  unfold idOfStr CId.ofStr
  exact Near.bind (.same _) fun it => Near.bind (near_caught he _) fun n => .same _

theorem near_setKVs {E : List SigErr} (he : .invalidSignatureParams ∈ E) : ∀ (ps : Params) (p : SigParams), Near E (p.setKVs ps) (setKVs p ps)
  | [], _ => .same _
  | kv :: t, p => by
    unfold setKVs SigParams.setKVs
    exact Near.bind (near_caught he _) fun p => near_setKVs he t p

theorem near_ofEntry (e : Entry) : Near [.invalidComponentName, .invalidSignatureParams] (SigParams.ofEntry e) (ofEntry e) := by
  cases e with
  | item i => exact .same _
  | inner l =>
    refine Near.bind (Near.collect (fun i => near_idOfStr (by simp) _) _) fun ids => ?_
    split
    · exact .same _
    · exact near_setKVs (by simp) _ _

theorem near_ofStr (s : Str) : Near [.invalidComponentName, .invalidSignatureParams] (SigParams.ofStr s) (ofStr s) := by
  refine Near.bind (.same _) fun l => ?_
  match l with
  | [.inner i] => exact near_ofEntry _
  | [] => exact .same _
  | [.item i] => exact .same _
  | .inner _ :: _ :: _ => exact .same _
  | .item _ :: _ :: _ => exact .same _

theorem near_tryParse (s t : Str) : Near [.invalidComponentName, .invalidSignatureParams] (SigHeaders.tryParse s t) (tryParse s t) := by
  refine Near.bind (.same _) fun b => Near.bind (.same _) fun a => ?_
  split
  · exact .same _
  split
  · exact .same _
  split
  · exact .same _
  split
  · exact .same _
  exact Near.bind (Near.collect (fun kv => Near.bind (near_ofEntry _) fun p => .same _) _) fun l => .same _

theorem extractSignatureHeaders_ok_iff {m : Msg} {l : List (Str × SigHeaders)} :
    extractSignatureHeaders m = .ok l ↔ Verif.extractSignatureHeaders m = .ok l := by
  unfold extractSignatureHeaders Verif.extractSignatureHeaders
  simp only
  split
  · rfl
  · simp only [Res.bind_eq_ok, Res.mapErr_eq_ok, tryParse_ok]

theorem headerTexts_ne_panic (h : Headers) (n : Str) : headerTexts h n ≠ .panic :=
  collect_ne_panic (fun _ => Res.ofOption_ne_panic) _

theorem extractSignatureHeaders_ne_panic (m : Msg) : extractSignatureHeaders m ≠ .panic := by
  unfold extractSignatureHeaders
  simp only
  split
  · simp
  · refine bind_ne_panic (headerTexts_ne_panic _ _) (fun _ _ => bind_ne_panic (headerTexts_ne_panic _ _) (fun _ _ => ?_))
    rw [ne_eq, Res.mapErr_eq_panic]; exact tryParse_ne_panic _ _

end Verif.Repair
