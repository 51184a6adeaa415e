import Verif.Spec.Clean
import Verif.Proofs.Value
import Verif.Proofs.Canon
import Verif.Proofs.ParamsRead
/-!
Component values, identifiers and parameters are single lines; consequences for the text of a base.
-/
namespace Verif
open Sfv Spec

theorem printable_oneLine {s : Str} (h : ∀ c ∈ s, Printable c) : OneLine s := by
  intro hc; have := h _ hc; revert this; decide

theorem oneLine_append {a b : Str} (ha : OneLine a) (hb : OneLine b) : OneLine (a ++ b) := by
  unfold OneLine at *; simp [ha, hb]

theorem oneLine_cons {c : Char} {b : Str} (hc : c ≠ '\n') (hb : OneLine b) : OneLine (c :: b) := by
  unfold OneLine at *; simp [hb, Ne.symm hc]

theorem oneLine_join {sep : Str} {l : List Str} (hs : OneLine sep) (hl : ∀ a ∈ l, OneLine a) : OneLine (join sep l) := by
  have := join_all (p := fun c => c ≠ '\n') (sep := sep) (l := l) (by rintro c hc rfl; exact hs hc)
    (by rintro a ha c hc rfl; exact hl a ha hc)
  intro h; exact this _ h rfl

theorem toUpper_ne_nl {c : Char} (h : c ≠ '\n') : c.toUpper ≠ '\n' := by
  unfold Char.toUpper
  split
  · rename_i hc
    intro e
    have := congrArg Char.toNat e
    have h1 : ('a').toNat ≤ c.toNat := hc.1
    have h2 : c.toNat ≤ ('z').toNat := hc.2
    have h3 : (c.val + ('A'.val - 'a'.val)).toNat = 10 := this
    have e1 : ('A'.val - 'a'.val : UInt32) = 4294967264 := by decide
    rw [e1, UInt32.toNat_add] at h3
    have e2 : c.val.toNat = c.toNat := rfl
    have e3 : ('a').toNat = 97 := rfl
    have e4 : ('z').toNat = 122 := rfl
    have e5 : (4294967264 : UInt32).toNat = 4294967264 := rfl
    omega
  · exact h

theorem toLower_ne_nl {c : Char} (h : c ≠ '\n') : c.toLower ≠ '\n' := by
  unfold Char.toLower
  split
  · rename_i hc
    intro e
    have := congrArg Char.toNat e
    have h1 : ('A').toNat ≤ c.toNat := hc.1
    have h2 : c.toNat ≤ ('Z').toNat := hc.2
    have h3 : (c.val + ('a'.val - 'A'.val)).toNat = 10 := this
    have e1 : ('a'.val - 'A'.val : UInt32) = 32 := by decide
    rw [e1, UInt32.toNat_add] at h3
    have e2 : c.val.toNat = c.toNat := rfl
    have e3 : ('A').toNat = 65 := rfl
    have e4 : ('Z').toNat = 90 := rfl
    have e5 : (32 : UInt32).toNat = 32 := rfl
    omega
  · exact h

theorem oneLine_map {f : Char → Char} (hf : ∀ c, c ≠ '\n' → f c ≠ '\n') {s : Str} (h : OneLine s) : OneLine (s.map f) := by
  intro hc
  obtain ⟨x, hx, e⟩ := List.mem_map.1 hc
  exact hf x (by rintro rfl; exact h hx) e

theorem oneLine_getD {o : Option Str} (h : ∀ s, o = some s → OneLine s) : OneLine (o.getD []) := by
  cases o with
  | none => unfold OneLine; simp
  | some s => exact h s rfl

theorem oneLine_nil : OneLine [] := by unfold OneLine; simp

theorem oneLine_sub {a b : Str} (h : ∀ c ∈ a, c ∈ b) (hb : OneLine b) : OneLine a := fun hc => hb (h _ hc)

theorem digits_oneLine (n : Nat) : OneLine (natStr n) := by
  intro h; have := natStr_digits n _ h; revert this; decide

theorem hvToStr_oneLine {b : Bytes} {s : Str} (h : hvToStr b = some s) : OneLine s := by
  intro hc
  rcases (hvToStr_some h).2 _ hc with h | h
  · revert h; decide
  · revert h; decide

theorem splitOn_mem (c : Char) (s : Str) : ∀ a ∈ splitOn c s, ∀ x ∈ a, x ∈ s := by
  induction s with
  | nil => intro a ha x hx; simp [splitOn] at ha; subst ha; exact hx
  | cons y t ih =>
    intro a ha x hx
    simp only [splitOn] at ha
    split at ha
    · rcases List.mem_cons.1 ha with rfl | ha
      · simp at hx
      · exact List.mem_cons_of_mem _ (ih a ha x hx)
    · split at ha
      · simp at ha; subst ha; simp at hx; simp [hx]
      · rename_i p ps e
        rcases List.mem_cons.1 ha with rfl | ha
        · rcases List.mem_cons.1 hx with rfl | hx
          · simp
          · exact List.mem_cons_of_mem _ (ih p (by rw [e]; simp) x hx)
        · exact List.mem_cons_of_mem _ (ih a (by rw [e]; simp [ha]) x hx)

theorem applied_oneLine {ps : List CParam} {vs out : List Str} (h : Applied ps vs out) :
    (∀ t ∈ vs, OneLine t) → ∀ t ∈ out, OneLine t := by
  induction h with
  | done vs => exact id
  | req _ ih => exact ih
  | sf h1 _ ih =>
    intro _
    apply ih
    intro t ht
    obtain ⟨v, _, hc⟩ := forall₂_mem_right h1 t ht
    exact printable_oneLine (canon_printable hc)
  | key h1 _ ih =>
    intro _
    exact ih (fun t ht => printable_oneLine (members_printable h1 t ht))

theorem fieldValue_oneLine {h : Headers} {f : Str} {ps : List CParam} {v : Str} (hv : FieldValue h f ps v) : OneLine v := by
  obtain ⟨ts, out, h1, h2, rfl⟩ := hv
  apply oneLine_join (by decide)
  apply applied_oneLine h2
  intro t ht
  obtain ⟨l, _, hl⟩ := forall₂_mem_right h1 t ht
  exact hvToStr_oneLine hl

theorem path_oneLine {u : Uri} (hu : OneLineUri u) : OneLine u.path := by
  unfold Uri.path
  split
  · split
    · decide
    · exact hu.path
  · exact oneLine_nil

theorem pqData_oneLine {u : Uri} (hu : OneLineUri u) : OneLine u.pqData := by
  unfold Uri.pqData
  split
  · exact hu.path
  · rename_i q hq
    exact oneLine_append hu.path (oneLine_cons (by decide) (hu.query q hq))

theorem trimEnd_sub (s : Str) : ∀ c ∈ trimEnd s, c ∈ s := by
  intro c hc
  unfold trimEnd at hc
  rw [List.mem_reverse] at hc
  exact List.mem_reverse.1 (List.dropWhile_sublist _ |>.subset hc)

theorem trim_sub (s : Str) : ∀ c ∈ trim s, c ∈ s := by
  intro c hc
  exact (List.dropWhile_sublist _).subset (trimEnd_sub _ c hc)

theorem sigParamsValue_oneLine {h : Headers} {v : Str} (hv : RequestValue.SigParamsValue h v) : OneLine v := by
  obtain ⟨l, t, k, _, ht, e, _⟩ := hv
  have : OneLine t := by
    rcases ht with ht | ⟨_, rfl⟩
    · exact hvToStr_oneLine ht
    · exact oneLine_nil
  apply oneLine_sub _ this
  intro c hc
  apply trim_sub
  rw [e]; simp [hc]

theorem requestValue_oneLine {r : Request} (hr : WfRequest r) {d : Derived} {ps : List CParam} {v : Str}
    (hv : RequestValue r d ps v) : OneLine v := by
  have hq : OneLine (r.uri.query.getD []) := oneLine_getD hr.uri.query
  have ha : OneLine (r.uri.authority.getD []) := oneLine_getD hr.uri.authority
  cases d <;> simp only [RequestValue] at hv
  · subst hv; exact oneLine_map (fun _ => toUpper_ne_nl) hr.method
  · subst hv
    unfold Uri.toStr
    refine oneLine_append (oneLine_append (oneLine_append ?_ ?_) (path_oneLine hr.uri)) ?_
    · split
      · rename_i s hs; exact oneLine_append (hr.uri.scheme s hs) (by decide)
      · exact oneLine_nil
    · split
      · rename_i s hs; exact hr.uri.authority s hs
      · exact oneLine_nil
    · split
      · rename_i s hs; exact oneLine_cons (by decide) (hr.uri.query s hs)
      · exact oneLine_nil
  · subst hv; exact oneLine_map (fun _ => toLower_ne_nl) ha
  · subst hv; exact oneLine_map (fun _ => toLower_ne_nl) (oneLine_getD hr.uri.scheme)
  · subst hv
    split
    · exact ha
    · split
      · decide
      · apply oneLine_getD
        intro s hs
        unfold Uri.pathAndQuery at hs
        have := pqData_oneLine hr.uri
        split at hs
        · injection hs with hs
          subst hs
          split
          · decide
          · rename_i c t e
            rw [e] at this
            split
            · exact this
            · exact oneLine_cons (by decide) this
        · cases hs
  · subst hv
    split
    · decide
    · exact path_oneLine hr.uri
  · subst hv; exact oneLine_cons (by decide) hq
  · obtain ⟨n, _, _, rfl⟩ := hv
    apply oneLine_join (by decide)
    intro a ha
    obtain ⟨p, hp, e⟩ := List.mem_filterMap.1 ha
    split at e
    · injection e with e
      subst e
      apply oneLine_sub (b := r.uri.query.getD []) _ hq
      intro c hc
      exact splitOn_mem '&' _ p (List.mem_of_mem_filter hp) c (List.mem_of_mem_drop hc)
    · cases e
  · exact sigParamsValue_oneLine hv

theorem valueIn_oneLine {m : Msg} (hm : WfMsg m) {i : CId} {v : Str} (hv : ValueIn m i v) : OneLine v := by
  obtain ⟨n, ps⟩ := i
  cases n with
  | field f => exact fieldValue_oneLine hv
  | derived d =>
    cases m with
    | req r => exact requestValue_oneLine hm hv.2
    | res s =>
      have h2 := hv.2
      cases d <;> simp only [ResponseValue] at h2
      · subst h2; exact digits_oneLine _
      · exact sigParamsValue_oneLine h2

theorem hasValue_oneLine {m : Msg} {rf : Option Request} (hm : WfMsg m) (hf : ∀ r, rf = some r → WfRequest r) {i : CId} {v : Str}
    (hv : HasValue m rf i v) : OneLine v := by
  unfold HasValue at hv
  split at hv
  · obtain ⟨s, r, _, h2, h3⟩ := hv
    exact valueIn_oneLine (m := .req r) (hf r h2) h3
  · exact valueIn_oneLine hm hv

theorem _root_.Verif.Spec.WfMsg.wfHeaders {m : Msg} (h : WfMsg m) : WfHeaders m.headers := by
  cases m with
  | req r => exact WfRequest.headers h
  | res s => exact h

theorem derived_oneLine (d : Derived) : OneLine d.toStr := by cases d <;> decide

theorem id_disp_oneLine {i : CId} (h : OneLineId i) : OneLine i.disp := by
  unfold CId.disp
  apply oneLine_append
  · unfold CName.disp
    split
    · rename_i f hf
      exact oneLine_cons (by decide) (oneLine_append (h.name f hf) (by decide))
    · exact oneLine_cons (by decide) (oneLine_append (derived_oneLine _) (by decide))
  · rw [cparamsDisp_eq]
    intro hc
    obtain ⟨p, hp, hx⟩ := List.mem_flatMap.1 hc
    have : OneLine p.disp := by
      cases p with
      | key s => exact oneLine_append (oneLine_append (by decide) (h.key s hp)) (by decide)
      | name s => exact oneLine_append (oneLine_append (by decide) (h.param s hp)) (by decide)
      | _ => decide
    exact oneLine_cons (c := ';') (by decide) this hx

theorem dispNum_oneLine {n : Str} (hn : OneLine n) (o : Option UInt64) : OneLine (dispNum n o) := by
  cases o with
  | none => exact oneLine_nil
  | some t => exact oneLine_cons (by decide) (oneLine_append hn (oneLine_cons (by decide) (digits_oneLine _)))

theorem dispText_oneLine {n : Str} (hn : OneLine n) {o : Option Str} (h : ∀ s, o = some s → OneLine s) : OneLine (dispText n o) := by
  cases o with
  | none => exact oneLine_nil
  | some t =>
    exact oneLine_cons (by decide) (oneLine_append hn (oneLine_cons (by decide) (oneLine_cons (by decide)
      (oneLine_append (h t rfl) (by decide)))))

theorem params_disp_oneLine {p : SigParams} (h : OneLineParams p) : OneLine p.disp := by
  unfold SigParams.disp
  refine oneLine_cons (by decide) (oneLine_append ?_ (oneLine_cons (by decide) ?_))
  · rw [joinIds_eq]
    apply oneLine_join (by decide)
    intro a ha
    obtain ⟨i, hi, rfl⟩ := List.mem_map.1 ha
    exact id_disp_oneLine (h.ids i hi)
  · exact oneLine_append (oneLine_append (oneLine_append (oneLine_append (oneLine_append (dispNum_oneLine (by decide) _)
      (dispNum_oneLine (by decide) _)) (dispText_oneLine (by decide) h.nonce)) (dispText_oneLine (by decide) h.alg))
      (dispText_oneLine (by decide) h.keyid)) (dispText_oneLine (by decide) h.tag)

/-! ### Splitting a base into its lines -/

/-- The lines of a base. -/
theorem splitOn_baseText (ids : List CId) (vs : List Str) (params : Str) (hlen : ids.length = vs.length)
    (hi : ∀ i ∈ ids, OneLine i.disp) (hv : ∀ v ∈ vs, OneLine v) (hp : OneLine params) :
    splitOn '\n' (baseText ids vs params) =
      List.zipWith (fun i v => i.disp ++ c! ": " ++ v) ids vs ++ [c! "\"@signature-params\": " ++ params] := by
  unfold baseText
  induction ids generalizing vs with
  | nil =>
    simp only [List.zipWith_nil_left, List.flatten_nil, List.nil_append]
    exact splitOn_no _ (oneLine_append (by decide) hp)
  | cons i t ih =>
    cases vs with
    | nil => simp at hlen
    | cons v vs =>
      have h1 : OneLine (i.disp ++ c! ": " ++ v) := oneLine_append (oneLine_append (hi i (by simp)) (by decide)) (hv v (by simp))
      have e : (List.zipWith (fun (i : CId) v => i.disp ++ c! ": " ++ v ++ c! "\n") (i :: t) (v :: vs)).flatten ++ c! "\"@signature-params\": " ++ params
          = (i.disp ++ c! ": " ++ v) ++ '\n' :: ((List.zipWith (fun (i : CId) v => i.disp ++ c! ": " ++ v ++ c! "\n") t vs).flatten ++ c! "\"@signature-params\": " ++ params) := by
        simp
      rw [e, splitOn_append _ _ h1, ih vs (by simpa using hlen) (fun j hj => hi j (by simp [hj])) (fun w hw => hv w (by simp [hw]))]
      simp

/-- Two texts where the character after a common beginning differs cannot both continue. -/
theorem prefix_unique {a b x y x' y' : Str} {c : Char} {s s' : Char} (h1 : a ++ c :: x = b ++ c :: y) (h2 : a ++ s :: x' = b ++ s' :: y')
    (hs : s ≠ c) (hs' : s' ≠ c) : a = b := by
  rcases List.append_eq_append_iff.1 h1 with ⟨u, hb, hx⟩ | ⟨u, ha, hx⟩
  · cases u with
    | nil => simpa using hb.symm
    | cons z u =>
      injection hx with hz hx
      subst hz hb
      simp at h2
      exact absurd h2.1 hs
  · cases u with
    | nil => simpa using ha
    | cons z u =>
      injection hx with hz hx
      subst hz ha
      simp at h2
      exact absurd h2.1.symm hs'

theorem zipWith_cancel (ids ids' : List CId) (vs vs' : List Str) (a b : Str) (hlen : ids.length = vs.length) (hlen' : ids'.length = vs'.length)
    (h1 : List.zipWith (fun (i : CId) v => i.disp ++ c! ": " ++ v) ids vs = List.zipWith (fun (i : CId) v => i.disp ++ c! ": " ++ v) ids' vs')
    (h2 : join [' '] (ids.map CId.disp) ++ ')' :: a = join [' '] (ids'.map CId.disp) ++ ')' :: b) :
    ids.map CId.disp = ids'.map CId.disp ∧ vs = vs' := by
  induction ids generalizing ids' vs vs' a b with
  | nil =>
    cases vs with
    | cons v t => simp at hlen
    | nil =>
      cases ids' with
      | nil => cases vs' with
        | nil => exact ⟨rfl, rfl⟩
        | cons v t => simp at hlen'
      | cons i t => cases vs' with
        | nil => simp at hlen'
        | cons v t => simp at h1
  | cons i t ih =>
    cases vs with
    | nil => simp at hlen
    | cons v vs =>
      cases ids' with
      | nil => cases vs' with
        | nil => simp at h1
        | cons v t => simp at hlen'
      | cons i' t' =>
        cases vs' with
        | nil => simp at hlen'
        | cons v' vs' =>
          simp only [List.zipWith_cons_cons] at h1
          injection h1 with h3 h4
          have k : ∀ (i : CId) (t : List CId) (a : Str), ∃ s x, s ≠ ':' ∧
              join [' '] ((i :: t).map CId.disp) ++ ')' :: a = i.disp ++ s :: x := by
            intro i t a
            cases t with
            | nil => exact ⟨')', a, by decide, rfl⟩
            | cons j t =>
              exact ⟨' ', join [' '] ((j :: t).map CId.disp) ++ ')' :: a, by decide, by
                rw [List.map_cons, join_cons _ _ (by simp)]; simp⟩
          obtain ⟨s, x, hs, e⟩ := k i t a
          obtain ⟨s', x', hs', e'⟩ := k i' t' b
          have hd : i.disp = i'.disp := by
            apply prefix_unique (c := ':') (x := ' ' :: v) (y := ' ' :: v') (s := s) (s' := s') (x' := x) (y' := x') _ _ hs hs'
            · simpa using h3
            · rw [← e, ← e', h2]
          rw [hd] at h3
          have hv : v = v' := by simpa using h3
          have h5 : ∃ a' b', join [' '] (t.map CId.disp) ++ ')' :: a' = join [' '] (t'.map CId.disp) ++ ')' :: b' := by
            cases t with
            | nil => cases t' with
              | nil => exact ⟨a, a, rfl⟩
              | cons j t' => cases vs' with
                | nil => simp at hlen'
                | cons => cases vs with
                  | nil => simp at h4
                  | cons => simp at hlen
            | cons j t => cases t' with
              | nil => cases vs with
                | nil => simp at hlen
                | cons => cases vs' with
                  | nil => simp at h4
                  | cons => simp at hlen'
              | cons j' t' =>
                refine ⟨a, b, ?_⟩
                rw [List.map_cons, List.map_cons (f := CId.disp) (a := i'), join_cons _ _ (by simp), join_cons _ _ (by simp), hd] at h2
                simpa using h2
          obtain ⟨a', b', h5⟩ := h5
          obtain ⟨h6, h7⟩ := ih t' vs vs' a' b' (by simpa using hlen) (by simpa using hlen') h4 h5
          exact ⟨by rw [List.map_cons, List.map_cons, hd, h6], by rw [hv, h7]⟩

end Verif
