import Mathlib.Data.List.Nodup
import Verif.Proofs.Length
import Verif.Props.C74
import Verif.Spec.Size
/-!
Lengths of component values, identifiers and signature parameters, for C85.
-/
namespace Verif
open Sfv Spec Grammar

/-! ### Field values -/

/-- Lengths of texts, with two more for each. -/
def tot (ts : List Str) : Nat := (ts.map (fun t => t.length + 2)).sum

@[simp] theorem tot_nil : tot [] = 0 := rfl
@[simp] theorem tot_cons (t : Str) (ts : List Str) : tot (t :: ts) = t.length + 2 + tot ts := by simp [tot]

theorem len_commas_le (ts : List Str) : (Wire.commas ts).length ≤ tot ts := by
  rw [commas_eq]
  induction ts with
  | nil => simp
  | cons a t ih =>
    by_cases ht : t = []
    · subst ht; simp
    · rw [join_cons _ _ ht, tot_cons, List.length_append, List.length_append]
      simp only [List.length_cons, List.length_nil]; omega

theorem sep_piece {α : Type} {T : α → Str → Prop} {l : List α} {t : Str} (h : SepText T l t) : ∀ x ∈ l, ∃ u, T x u ∧ u.length ≤ t.length := by
  induction h with
  | one h => intro x hx; simp at hx; subst hx; exact ⟨_, h, le_refl _⟩
  | cons h _ _ _ ih =>
    intro x hx
    rcases List.mem_cons.1 hx with rfl | hx
    · exact ⟨_, h, by simp⟩
    · obtain ⟨u, h1, h2⟩ := ih x hx
      exact ⟨u, h1, by simp; omega⟩

theorem len_member_entry {k : Str} {e : Entry} {t : Str} (h : MemberText (k, e) t) : (serEntry e).length ≤ 2 * t.length := by
  cases h with
  | value hk h => have := len_entry h; simp; omega
  | flag hk h hm =>
    have := len_map h hm
    have : 0 < k.length := by
      obtain ⟨⟨c, hc, _⟩, _⟩ := hk
      cases k with
      | nil => cases hc
      | cons => simp
    simp [serEntry, serItem, serBare]; omega

theorem len_dict_entry {d : Dict} {k : Str} {e : Entry} {s : Str} (h : DictText d s) (he : (k, e) ∈ d) : (serEntry e).length ≤ 2 * s.length := by
  obtain ⟨raw, h1, h2⟩ := h
  have hr := mapOf_sub h2 _ he
  rcases h1 with ⟨rfl, _⟩ | ⟨n, t, a, ht, _, rfl⟩
  · cases hr
  · obtain ⟨u, h3, h4⟩ := sep_piece ht _ hr
    have := len_member_entry h3
    simp only [List.length_append]; omega

theorem len_canon {v t : Str} (h : Wire.Canon v t) : t.length ≤ 2 * v.length := by
  rcases h with ⟨l, h1, h2⟩ | ⟨_, d, h1, h2⟩
  · have h3 := (canonList_iff.1 h2).2
    unfold serList at h3
    split at h3
    · cases h3
    · injection h3 with h3; subst h3
      rw [len_join]; exact len_list h1
  · have h3 := (canonDict_iff.1 h2).2
    unfold serDict at h3
    split at h3
    · cases h3
    · injection h3 with h3; subst h3
      rw [len_join]; exact len_dict h1

theorem tot_members {k : Str} {vs out : List Str} (h : Wire.Members k vs out) : tot out ≤ 2 * tot vs := by
  induction h with
  | nil => simp
  | has h1 h2 h3 _ ih =>
    obtain ⟨_, rfl⟩ := canonEntry_iff.1 h3
    have := len_dict_entry h1 h2
    simp only [tot_cons]; omega
  | lacks _ _ _ ih => simp only [tot_cons]; omega

theorem tot_canon {vs out : List Str} (h : List.Forall₂ Wire.Canon vs out) : tot out ≤ 2 * tot vs := by
  induction h with
  | nil => simp
  | cons h _ ih => have := len_canon h; simp only [tot_cons]; omega

/-- Parameters that rewrite a field value. -/
def rewr (ps : List CParam) : Nat := ps.countP (fun p => match p with | .sf | .key _ => true | _ => false)

theorem tot_applied {ps : List CParam} {vs out : List Str} (h : Wire.Applied ps vs out) : tot out ≤ 2 ^ rewr ps * tot vs := by
  induction h with
  | done => simp [rewr]
  | req _ ih => simpa [rewr] using ih
  | @sf ps vs mid out h _ ih =>
    have h1 := tot_canon h
    have h2 : rewr (.sf :: ps) = rewr ps + 1 := by simp [rewr]
    rw [h2, pow_succ]
    calc tot out ≤ 2 ^ rewr ps * tot mid := ih
      _ ≤ 2 ^ rewr ps * (2 * tot vs) := Nat.mul_le_mul_left _ h1
      _ = _ := by rw [mul_assoc]
  | @key k ps vs mid out h _ ih =>
    have h1 := tot_members h
    have h2 : rewr (.key k :: ps) = rewr ps + 1 := by simp [rewr]
    rw [h2, pow_succ]
    calc tot out ≤ 2 ^ rewr ps * tot mid := ih
      _ ≤ 2 ^ rewr ps * (2 * tot vs) := Nat.mul_le_mul_left _ h1
      _ = _ := by rw [mul_assoc]

theorem lineText_len {l : Bytes} {t : Str} (h : Wire.LineText l t) : t.length = l.length := by
  have := congrArg List.length h.2
  simpa using this

theorem tot_lines {h : Headers} {n : Str} {ts : List Str} (ht : Wire.LinesText h n ts) : tot ts ≤ linesSize h := by
  have h1 : tot ts = ((Wire.linesOf h n).map (fun l => l.length + 2)).sum := by
    unfold Wire.LinesText at ht
    generalize Wire.linesOf h n = ls at ht
    induction ht with
    | nil => rfl
    | cons hx _ ih => rw [tot_cons, ih, lineText_len hx]; simp
  rw [h1]
  unfold Wire.linesOf linesSize
  clear ht h1
  induction h with
  | nil => simp
  | cons a t ih =>
    rw [List.filter_cons]
    split
    · simp only [List.map_cons, List.sum_cons]; omega
    · simp only [List.map_cons, List.sum_cons]; omega

theorem len_fieldValue {h : Headers} {n : Str} {ps : List CParam} {v : Str} (hv : Wire.FieldValue h n ps v) :
    v.length ≤ 2 ^ rewr ps * linesSize h := by
  obtain ⟨ts, out, h1, h2, rfl⟩ := hv
  calc _ ≤ tot out := len_commas_le _
    _ ≤ 2 ^ rewr ps * tot ts := tot_applied h2
    _ ≤ _ := Nat.mul_le_mul_left _ (tot_lines h1)

/-! ### Derived values -/

theorem uri_lens (u : Uri) : (u.authority.getD []).length ≤ (Wire.uriText u).length ∧ (u.scheme.getD []).length ≤ (Wire.uriText u).length ∧
    u.pathData.length + (Wire.queryText u).length ≤ (Wire.uriText u).length ∧ (u.query.getD []).length ≤ (Wire.queryText u).length := by
  obtain ⟨s, a, p, q⟩ := u
  unfold Wire.uriText
  refine ⟨by simp only [List.length_append]; omega, ?_, ?_, ?_⟩
  · cases s <;> simp
  · simp only [List.length_append]
    have : p.length ≤ (if p = [] ∧ (q ≠ none ∨ s ≠ none) then c! "/" else p).length := by
      split
      · rename_i h; rw [h.1]; simp
      · exact le_refl _
    omega
  · cases q <;> simp [Wire.queryText]

theorem len_queryValues {n : Str} {ps vs : List Str} (h : Wire.QueryValues n ps vs) : tot vs ≤ (ps.map (fun p => p.length + 1)).sum := by
  induction h with
  | nil => simp
  | hit _ _ ih => simp only [tot_cons, List.map_cons, List.sum_cons, List.length_append, List.length_cons]; omega
  | miss _ _ ih => simp only [List.map_cons, List.sum_cons]; omega

theorem len_pieces {q : Str} {ps : List Str} (h : Wire.Pieces q ps) : (ps.map (fun p => p.length + 1)).sum ≤ q.length + 1 := by
  rw [h.1, intercalate_join]
  clear h
  induction ps with
  | nil => simp
  | cons a t ih =>
    by_cases ht : t = []
    · subst ht; simp
    · rw [join_cons _ _ ht]
      simp only [List.map_cons, List.sum_cons, List.length_append, List.length_cons, List.length_nil]; omega

theorem len_sigParamsValue {h : Headers} {v : Str} (hv : Wire.SigParamsValue h v) : v.length ≤ linesSize h := by
  obtain ⟨l, t, k, h1, h2, ⟨a, b, h3, _⟩, _⟩ := hv
  have h4 : l.length ≤ linesSize h := by
    have hm : l ∈ Wire.linesOf h (c! "signature-input") := List.mem_of_mem_head? h1
    unfold Wire.linesOf at hm
    obtain ⟨kv, hk, rfl⟩ := List.mem_map.1 hm
    have hk := (List.mem_filter.1 hk).1
    have := List.single_le_sum (l := h.map fun kv => kv.1.length + kv.2.length + 4) (fun _ _ => Nat.zero_le _) _ (List.mem_map_of_mem hk)
    unfold linesSize; omega
  have h5 := lineText_len h2
  rw [h3] at h5
  simp only [List.length_append, List.length_cons] at h5
  omega

theorem len_requestValue {r : Request} {d : Derived} {ps : List CParam} {v : Str} (h : Wire.RequestValue r d ps v) : v.length ≤ reqSize r := by
  obtain ⟨u1, u2, u3, u4⟩ := uri_lens r.uri
  unfold reqSize
  cases d with
  | method => simp only [Wire.RequestValue] at h; subst h; simp; omega
  | targetUri => simp only [Wire.RequestValue] at h; subst h; omega
  | authority => simp only [Wire.RequestValue] at h; subst h; rw [List.length_map]; omega
  | scheme => simp only [Wire.RequestValue] at h; subst h; rw [List.length_map]; omega
  | requestTarget =>
    simp only [Wire.RequestValue] at h; subst h
    unfold Wire.targetText
    split
    · omega
    split
    · simp; omega
    split
    · simp
    split
    · rw [List.length_append]; omega
    · rw [List.length_cons, List.length_append]; omega
  | path =>
    simp only [Wire.RequestValue] at h; subst h
    split
    · simp; omega
    · omega
  | query => simp only [Wire.RequestValue] at h; subst h; rw [List.length_cons]; omega
  | queryParam =>
    obtain ⟨n, l1, l2, pcs, vs, _, _, h3, _, h5, rfl⟩ := h
    have := len_commas_le vs
    have := len_queryValues h5
    have := len_pieces h3
    omega
  | status => cases h
  | signatureParams => have := len_sigParamsValue h; omega

theorem len_responseValue {s : Response} {d : Derived} {v : Str} (h : Wire.ResponseValue s d v) : v.length ≤ resSize s := by
  unfold resSize
  cases d with
  | status => simp only [Wire.ResponseValue] at h; subst h; omega
  | signatureParams => have := len_sigParamsValue h; omega
  | _ => cases h

theorem len_valueIn {m : Msg} {i : CId} {v : Str} (h : Wire.ValueIn m i v) : v.length ≤ 2 ^ rewrites i * msgSize m := by
  have hp : 1 ≤ 2 ^ rewrites i := Nat.one_le_two_pow
  obtain ⟨n, ps⟩ := i
  have hr : rewr ps = rewrites ⟨n, ps⟩ := rfl
  cases n with
  | field f =>
    cases m with
    | req r =>
      have := len_fieldValue (h : Wire.FieldValue _ _ _ _)
      rw [hr] at this
      exact this.trans (Nat.mul_le_mul_left _ (by simp only [msgSize, reqSize]; omega))
    | res r =>
      have := len_fieldValue (h : Wire.FieldValue _ _ _ _)
      rw [hr] at this
      exact this.trans (Nat.mul_le_mul_left _ (by simp only [msgSize, resSize]; omega))
  | derived d =>
    cases m with
    | req r => exact (len_requestValue h.2).trans (Nat.le_mul_of_pos_left _ hp)
    | res r => exact (len_responseValue h.2).trans (Nat.le_mul_of_pos_left _ hp)

theorem len_hasValue {m : Msg} {rf : Option Request} {i : CId} {v : Str} (h : Wire.HasValue m rf i v) : v.length ≤ 2 ^ rewrites i * bothSize m rf := by
  rcases h with ⟨_, h⟩ | ⟨_, s, r, rfl, rfl, h⟩
  · exact (len_valueIn h).trans (Nat.mul_le_mul_left _ (by unfold bothSize; omega))
  · refine (len_valueIn h).trans (Nat.mul_le_mul_left _ ?_)
    simp only [bothSize, msgSize]; omega

/-! ### Identifiers and parameters -/

theorem cparam_len {kv : Str × Bare} {p : CParam} (h : Wire.ParamOf kv p) : (';' :: p.disp).length ≤ (serParam kv).length := by
  have esc : ∀ s : Str, s.length ≤ (escStr s).length := by
    intro s
    induction s with
    | nil => simp
    | cons c t ih => simp only [escStr]; split <;> simp <;> omega
  cases h with
  | key | name => rename_i s; have := esc s; simp [serParam, CParam.disp, serBare]; omega
  | _ => simp [serParam, CParam.disp]

theorem escStr_len (s : Str) : s.length ≤ (escStr s).length := by
  induction s with
  | nil => simp
  | cons c t ih => simp only [escStr]; split <;> simp <;> omega

theorem coveredId_len {it : Item} {i : CId} (h : Wire.CoveredId it i) : i.disp.length ≤ (serItem it).length + 2 := by
  rcases h with ⟨n, h1, h2, h3, _⟩ | ⟨_, t, ht, _, _, rfl⟩
  · have e := escStr_len n
    have : (cparamsDisp i.params).length ≤ (serParams it.params).length := by
      rw [cparamsDisp_eq]
      generalize it.params = a at h3
      generalize i.params = b at h3
      induction h3 with
      | nil => simp
      | @cons kv p ps l h _ ih =>
        have := cparam_len h
        show _ ≤ (serParam kv ++ serParams ps).length
        rw [List.flatMap_cons, List.length_append, List.length_append]; omega
    simp only [CId.disp, nameDisp, nameOf_text h2, serItem, h1, serBare, List.length_append, List.length_cons, List.length_nil]
    omega
  · obtain ⟨hl, rfl⟩ := canonItem_iff.1 ht
    simp [CId.disp, nameDisp, nameText, cparamsDisp_eq]

theorem serBare_pos {b : Bare} (h : LegalBare b) : 1 ≤ (serBare b).length := by
  have n : ∀ k, 1 ≤ (natStr k).length := fun k => List.length_pos_iff.2 (natStr_ne_nil k)
  have i : ∀ z : Int, 1 ≤ (serInt z).length := by
    intro z
    cases z with
    | ofNat k => exact n k
    | negSucc k => simp [serInt]
  cases b with
  | int z => exact i z
  | dec z => simp [serBare, serDec]; omega
  | tok s =>
    obtain ⟨⟨c, hc, _⟩, _⟩ := h
    cases s with
    | nil => cases hc
    | cons => simp [serBare]
  | date z => simp [serBare]
  | str s => simp [serBare]
  | bytes s => simp [serBare]
  | bool v => cases v <;> simp [serBare]
  | disp s => simp [serBare]

theorem len_spaces (l : List Str) : (join [' '] l).length = (l.map List.length).sum + (l.length - 1) := by
  induction l with
  | nil => rfl
  | cons a t ih =>
    by_cases ht : t = []
    · subst ht; simp
    · have := List.length_pos_iff.2 ht
      rw [join_cons _ _ ht, List.length_append, List.length_append, ih]
      simp only [List.map_cons, List.sum_cons, List.length_cons, List.length_nil]; omega

theorem ids_len {is : List Item} {l : List CId} (h : List.Forall₂ Wire.CoveredId is l) :
    ((l.map CId.disp).map List.length).sum ≤ ((is.map serItem).map List.length).sum + 2 * l.length := by
  induction h with
  | nil => simp
  | cons h _ ih =>
    have := coveredId_len h
    simp only [List.map_cons, List.sum_cons, List.length_cons] at ih ⊢; omega

theorem items_pos {is : List Item} (h : ∀ i ∈ is, LegalItem i) : is.length ≤ ((is.map serItem).map List.length).sum := by
  induction is with
  | nil => simp
  | cons a t ih =>
    have h1 := serBare_pos (h a (by simp)).1
    have h2 := ih (fun i hi => h i (by simp [hi]))
    simp only [List.map_cons, List.sum_cons, List.length_cons, serItem, List.length_append] at h2 ⊢; omega

theorem dispText_len (k : Str) (o : Option Str) : (dispText k o).length ≤ plen (kvText k o) := by
  cases o with
  | none => simp [dispText]
  | some s => have := escStr_len s; simp [dispText, kvText, plen, serParam, serBare]; omega

theorem plen_append (a b : List (Str × Bare)) : plen (a ++ b) = plen a + plen b := by simp [plen]

/-- Parameters that were read from an inner list: at most twice as long, and the list has two characters for each identifier. -/
theorem paramsOf_len {l : InnerList} {p : SigParams} (hl : LegalEntry (.inner l)) (h : Wire.ParamsOf l p) :
    p.disp.length ≤ 2 * (serInner l).length ∧ 2 * p.covered.length + 1 ≤ (serInner l).length := by
  have h1 := ids_len h.covered
  have h2 := plen_mono (paramsKV_nodup p) (paramsKV_sub h)
  have h3 := items_pos hl.1
  have h4 := h.covered.length_eq
  rw [← len_serParams l.params] at h2
  simp only [paramsKV, plen_append] at h2
  have n1 : ∀ k o, plen (kvNum k o) = (dispNum k o).length := fun k o => by rw [dispNum_eq, len_serParams]
  have t1 := dispText_len (c! "nonce") p.nonce
  have t2 := dispText_len (c! "alg") p.alg
  have t3 := dispText_len (c! "keyid") p.keyid
  have t4 := dispText_len (c! "tag") p.tag
  rw [n1, n1] at h2
  unfold SigParams.disp serInner
  rw [joinIds_eq]
  simp only [List.length_cons, List.length_append, len_spaces, List.length_map] at h2 ⊢
  omega

/-- An identifier that was read has at most two parameters that rewrite. -/
theorem coveredId_rewrites {it : Item} {i : CId} (hl : LegalItem it) (h : Wire.CoveredId it i) : rewrites i ≤ 2 := by
  rcases h with ⟨n, h1, h2, h3, _⟩ | ⟨_, t, ht, _, _, rfl⟩
  · have hn := hl.2.1
    have key : rewr i.params = (it.params.map Prod.fst).count (c! "sf") + (it.params.map Prod.fst).count (c! "key") := by
      generalize it.params = a at h3
      generalize i.params = b at h3
      induction h3 with
      | nil => rfl
      | @cons kv p ps l h _ ih =>
        have e : rewr (p :: l) = rewr l + rewr [p] := by simp only [rewr, List.countP_cons, List.countP_nil]; omega
        rw [e, ih]
        simp only [List.map_cons, List.count_cons]
        cases h <;> simp [rewr] <;> omega
    have c1 := List.nodup_iff_count_le_one.1 hn (c! "sf")
    have c2 := List.nodup_iff_count_le_one.1 hn (c! "key")
    show rewr i.params ≤ 2
    omega
  · simp [rewrites]

end Verif
