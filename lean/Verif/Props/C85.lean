import Verif.Proofs.LengthValue
import Verif.Props.C84
/-!
C85: how much text there is to hash. The texts built for all carried signatures together are at most quadratic in the size of the
message, and messages exist for which they are.
-/
namespace Verif
open Spec Sfv Grammar

section
variable {m : Msg} {rf : Option Request}

/-- C85: the value of a component is at most as long as the message and the request it answers, times two for each `sf` or `key`. -/
theorem C85_value {i : CId} {v : Str} (h : Wire.HasValue m rf i v) : v.length ≤ 2 ^ rewrites i * bothSize m rf := len_hasValue h

/-- C85: the length of a signature base. -/
theorem C85_base {p : SigParams} {t : Str} (h : Wire.BaseOf m rf p t) :
    t.length ≤ 3 * (paramsText p).length + 21 + (p.covered.map (fun i => 2 ^ rewrites i)).sum * bothSize m rf := by
  obtain ⟨u, h1, rfl⟩ := h
  have h2 : u.length ≤ ((p.covered.map idText).map List.length).sum + 3 * p.covered.length +
      (p.covered.map (fun i => 2 ^ rewrites i)).sum * bothSize m rf := by
    generalize p.covered = c at h1
    induction h1 with
    | nil => simp
    | cons hv _ ih =>
      have := len_hasValue hv
      simp only [List.length_append, List.map_cons, List.sum_cons, List.length_cons, List.length_nil, Nat.add_mul] at ih ⊢
      omega
  have h3 : ((p.covered.map idText).map List.length).sum + p.covered.length ≤ (paramsText p).length := by
    unfold paramsText
    rw [intercalate_join]
    simp only [List.length_append]
    have := len_spaces (p.covered.map idText)
    rw [List.length_map] at this
    have e : (" ".toList : Str) = [' '] := rfl
    rw [e, this]
    simp only [show ("(".toList).length = 1 from rfl, show (")".toList).length = 1 from rfl]
    omega
  have h4 : 2 * p.covered.length ≤ ((p.covered.map idText).map List.length).sum := by
    generalize p.covered = c
    induction c with
    | nil => simp
    | cons i t ih =>
      have : 2 ≤ (idText i).length := by
        unfold idText quoted
        simp only [List.length_append, show ("\"".toList).length = 1 from rfl]; omega
      simp only [List.map_cons, List.sum_cons, List.length_cons]; omega
  simp only [List.length_append, List.length_cons, List.length_nil]
  omega

theorem sum_rewrites {c : List CId} (h : ∀ i ∈ c, rewrites i ≤ 2) : (c.map (fun i => 2 ^ rewrites i)).sum ≤ 4 * c.length := by
  induction c with
  | nil => simp
  | cons a t ih =>
    have h1 := ih (fun i hi => h i (by simp [hi]))
    have h2 : 2 ^ rewrites a ≤ 2 ^ 2 := Nat.pow_le_pow_right (by omega) (h a (by simp))
    simp only [List.map_cons, List.sum_cons, List.length_cons]; omega

theorem size_pos : 14 ≤ bothSize m rf := by
  unfold bothSize
  cases m <;> simp only [msgSize, reqSize, resSize] <;> omega

/-- The base of a carried signature against its member of Signature-Input. -/
theorem base_member {kv : Str × Entry} {h : SigHeaders} {il : InnerList} (hl : LegalEntry kv.2) (hk : kv.2 = .inner il)
    (hp : Wire.ParamsOf il h.params) (h1 : 1 ≤ kv.1.length) {t : Str} (ht : Wire.BaseOf m rf h.params t) :
    t.length ≤ (serMember kv).length * (9 + 2 * bothSize m rf) := by
  obtain ⟨k, e⟩ := kv
  simp only at hk hl h1
  subst hk
  obtain ⟨a, b⟩ := paramsOf_len hl hp
  rw [C58_params_text] at a
  have c := C85_base ht
  have d : ∀ i ∈ h.params.covered, rewrites i ≤ 2 := by
    intro i hi
    obtain ⟨it, hit, hc⟩ := forall₂_mem_right hp.covered i hi
    exact coveredId_rewrites (hl.1 it hit) hc
  have f := Nat.mul_le_mul_right (bothSize m rf) (sum_rewrites d)
  rw [serMember_other _ (by simp)]
  simp only [serEntry, List.length_append, List.length_cons]
  have g : 4 * h.params.covered.length * bothSize m rf ≤ 2 * (serInner il).length * bothSize m rf := Nat.mul_le_mul_right _ (by omega)
  have g2 : 2 ≤ (serInner il).length := by simp only [serInner, List.length_cons, List.length_append]; omega
  have i : (k.length + ((serInner il).length + 1)) * (9 + 2 * bothSize m rf) =
      9 * (k.length + ((serInner il).length + 1)) + 2 * (serInner il).length * bothSize m rf + 2 * (k.length + 1) * bothSize m rf := by ring
  rw [i]
  omega

/-- C85: the signature bases of all carried signatures together: at most six times the product of the sizes. -/
theorem C85_total {l : List (Str × SigHeaders)} (hl : Wire.Carries m.headers l) {sub : List (Str × SigHeaders)} (hs : sub.Sublist l)
    {ts : List Str} (ht : List.Forall₂ (fun kv t => Wire.BaseOf m rf kv.2.params t) sub ts) :
    (ts.map List.length).sum ≤ 6 * (msgSize m * bothSize m rf) := by
  obtain ⟨us, vs, h1, _, _, _, a, b, _, hb, hA⟩ := hl
  have hd := len_dict hb
  have hleg := parseDict_legal ((parseDict_iff _ _).2 hb)
  have hn : total serMember b ≤ 2 * linesSize m.headers := hd.trans (Nat.mul_le_mul_left _ ((len_commas_le us).trans (tot_lines h1)))
  have hsz : linesSize m.headers ≤ msgSize m := by cases m <;> simp only [msgSize, reqSize, resSize, Msg.headers] <;> omega
  have key : (ts.map List.length).sum ≤ (b.map (fun x => (serMember x).length)).sum * (9 + 2 * bothSize m rf) := by
    have ho := hA.order
    have hleg' := hleg.2
    clear hA hd hn hb h1 hleg
    induction ho generalizing sub ts with
    | nil => cases hs; cases ht; simp
    | @cons kv kh b l hx _ ih =>
      simp only [List.map_cons, List.sum_cons, Nat.add_mul]
      have hl' : ∀ kv ∈ b, LegalKey kv.1 ∧ LegalEntry kv.2 := fun x hx => hleg' x (by simp [hx])
      cases hs with
      | cons _ hs => have := ih hs ht hl'; omega
      | cons_cons _ hs =>
        cases ht with
        | @cons _ t _ ts h1 h2 =>
          have := ih hs h2 hl'
          obtain ⟨_, _, _, il, e1, e2⟩ := hx
          obtain ⟨k1, k2⟩ := hleg' kv (by simp)
          have kp : 1 ≤ kv.1.length := by
            obtain ⟨⟨c, hc, _⟩, _⟩ := k1
            cases hh : kv.1 with
            | nil => rw [hh] at hc; cases hc
            | cons => simp
          have := base_member (m := m) (rf := rf) k2 e1 e2 kp h1
          simp only [List.map_cons, List.sum_cons]; omega
  have h3 : (b.map (fun x => (serMember x).length)).sum ≤ 2 * msgSize m := by unfold total at hn; omega
  have h4 : 9 + 2 * bothSize m rf ≤ 3 * bothSize m rf := by have := size_pos (m := m) (rf := rf); omega
  calc _ ≤ _ := key
    _ ≤ 2 * msgSize m * (3 * bothSize m rf) := Nat.mul_le_mul h3 h4
    _ = _ := by ring

/-- C85: the same for the octets that are hashed. -/
theorem C85_octets {l : List (Str × SigHeaders)} (hl : Wire.Carries m.headers l) {sub : List (Str × SigHeaders)} (hs : sub.Sublist l)
    {ts : List Str} (ht : List.Forall₂ (fun kv t => Wire.BaseOf m rf kv.2.params t) sub ts) :
    (ts.map (fun t => (utf8 t).length)).sum ≤ 24 * (msgSize m * bothSize m rf) := by
  have h := C85_total hl hs ht
  have u : ∀ t : Str, (utf8 t).length ≤ 4 * t.length := by
    intro t
    induction t with
    | nil => simp [utf8]
    | cons c t ih =>
      have : (String.utf8EncodeChar c).length ≤ 4 := by rw [String.length_utf8EncodeChar]; exact Char.utf8Size_le_four c
      simp only [utf8, List.flatMap_cons, List.length_append, List.length_cons] at ih ⊢; omega
  have : (ts.map (fun t => (utf8 t).length)).sum ≤ 4 * (ts.map List.length).sum := by
    clear ht h
    induction ts with
    | nil => simp
    | cons a t ih => have := u a; simp only [List.map_cons, List.sum_cons]; omega
  omega

end

/-! ### The bound is reached -/

/-- A signature with its own label that covers the field `f`. -/
def c85Sig (i : Nat) : SigHeaders := ⟨'a' :: natStr i, [], { covered := [⟨.field (c! "f"), []⟩] }⟩

/-- A request with a field `f` of length `n` and `k` signatures that cover it. -/
def c85Req (n k : Nat) : Request where
  method := c! "GET"
  uri := ⟨none, none, c! "/", none⟩
  headers := [(c! "f", utf8 (List.replicate n 'x')),
    (c! "signature-input", utf8 (join (c! ", ") ((List.range k).map (fun i => (c85Sig i).inputValue)))),
    (c! "signature", utf8 (join (c! ", ") ((List.range k).map (fun i => (c85Sig i).signatureValue))))]
  body := .data []

theorem c85_safe (i : Nat) : SafeHeaders (c85Sig i) := by
  refine ⟨⟨⟨'a', rfl, Or.inl (by decide)⟩, ?_⟩, ?_⟩
  · intro c hc
    rcases List.mem_cons.1 hc with rfl | hc
    · exact Or.inl (by decide)
    · exact Or.inr (Or.inl (natStr_digits i c hc))
  · exact (C74_params { covered := [⟨.field (c! "f"), []⟩] }).1 (by decide +kernel)

theorem c85_wf (n k : Nat) : WfHeaders (c85Req n k).headers := by
  intro kv hkv
  simp only [c85Req, List.mem_cons, List.not_mem_nil, or_false] at hkv
  have a : WfName (c! "f") := ⟨by decide, by decide, by decide⟩
  have b : WfName (c! "signature-input") := ⟨by decide, by decide, by decide⟩
  have c : WfName (c! "signature") := ⟨by decide, by decide, by decide⟩
  rcases hkv with rfl | rfl | rfl
  · exact a
  · exact b
  · exact c

theorem join_printable {l : List Str} (h : ∀ s ∈ l, ∀ c ∈ s, Printable c) : ∀ c ∈ join (c! ", ") l, Printable c := by
  induction l with
  | nil => intro c hc; cases hc
  | cons a t ih =>
    by_cases ht : t = []
    · subst ht; intro c hc; exact h a (by simp) c (by simpa using hc)
    · intro c hc
      rw [join_cons _ _ ht, List.mem_append, List.mem_append] at hc
      rcases hc with (hc | hc) | hc
      · exact h a (by simp) c hc
      · revert c; decide
      · exact ih (fun s hs => h s (by simp [hs])) c hc

theorem len_utf8_printable {s : Str} (h : ∀ c ∈ s, Printable c) : (utf8 s).length = s.length := by
  rw [utf8_ascii (fun c hc => by have := h c hc; unfold Printable at this; omega), List.length_map]

/-- C85: with a field of length `n` and `k` signatures, each in 27 characters or less, there are `k` texts of length at least `n`, for
every key without an id. -/
theorem C85_quadratic (now : UInt64) (n k : Nat) (h1 : 1 ≤ k) (h2 : k ≤ 10 ^ 6) :
    reqSize (c85Req n k) ≤ n + 27 * k + 60 ∧ WfHeaders (c85Req n k).headers ∧
    ∃ l, Wire.Carries (c85Req n k).headers l ∧ l.length = k ∧
      ∀ kv ∈ l, Wire.ForKey none kv.2 ∧ Wire.InTime now kv.2 ∧ ∃ t, Wire.BaseOf (.req (c85Req n k)) none kv.2.params t ∧ n ≤ t.length := by
  have p1 : ∀ c ∈ List.replicate n 'x', Printable c := by
    intro c hc; rw [List.eq_of_mem_replicate hc]; decide
  have p2 : ∀ c ∈ join (c! ", ") ((List.range k).map (fun i => (c85Sig i).inputValue)), Printable c := by
    refine join_printable ?_
    intro s hs
    obtain ⟨i, _, rfl⟩ := List.mem_map.1 hs
    exact safe_input_printable (c85_safe i)
  have p3 : ∀ c ∈ join (c! ", ") ((List.range k).map (fun i => (c85Sig i).signatureValue)), Printable c := by
    refine join_printable ?_
    intro s hs
    obtain ⟨i, _, rfl⟩ := List.mem_map.1 hs
    exact safe_signature_printable (c85_safe i).name
  refine ⟨?_, c85_wf n k, (List.range k).map (fun i => ((c85Sig i).name, c85Sig i)), ?_, by simp, ?_⟩
  · have d : ∀ i < k, (natStr i).length ≤ 6 := fun i hi => natStr_length (k := 5) (by omega)
    have a1 : (join (c! ", ") ((List.range k).map (fun i => (c85Sig i).inputValue))).length ≤ 15 * k := by
      have := len_commas_le ((List.range k).map (fun i => (c85Sig i).inputValue))
      rw [commas_eq] at this
      refine this.trans ?_
      unfold tot
      rw [List.map_map]
      refine (List.sum_le_card_nsmul _ 15 ?_).trans (by simp; omega)
      intro x hx
      obtain ⟨i, hi, rfl⟩ := List.mem_map.1 hx
      have := d i (List.mem_range.1 hi)
      have e : (c85Sig i).inputValue = 'a' :: (natStr i ++ c! "=(\"f\")") := rfl
      simp only [Function.comp, e, List.length_cons, List.length_append, List.length_nil]; omega
    have a2 : (join (c! ", ") ((List.range k).map (fun i => (c85Sig i).signatureValue))).length ≤ 12 * k := by
      have := len_commas_le ((List.range k).map (fun i => (c85Sig i).signatureValue))
      rw [commas_eq] at this
      refine this.trans ?_
      unfold tot
      rw [List.map_map]
      refine (List.sum_le_card_nsmul _ 12 ?_).trans (by simp; omega)
      intro x hx
      obtain ⟨i, hi, rfl⟩ := List.mem_map.1 hx
      have := d i (List.mem_range.1 hi)
      have e : (c85Sig i).signatureValue = 'a' :: (natStr i ++ c! "=::") := rfl
      simp only [Function.comp, e, List.length_cons, List.length_append, List.length_nil]; omega
    have a3 := len_utf8_printable p1
    rw [List.length_replicate] at a3
    have a4 := len_utf8_printable p2
    have a5 := len_utf8_printable p3
    simp only [reqSize, linesSize, c85Req, List.map_cons, List.map_nil, List.sum_cons, List.sum_nil, a3, a4, a5]
    have u : (Wire.uriText ⟨none, none, c! "/", none⟩).length = 1 := by decide
    rw [u]
    simp only [List.length_cons, List.length_nil]
    omega
  · refine ⟨[join (c! ", ") ((List.range k).map (fun i => (c85Sig i).inputValue))],
      [join (c! ", ") ((List.range k).map (fun i => (c85Sig i).signatureValue))], ?_, ?_, by simp, by simp, ?_⟩
    · exact .cons (lineText_iff.2 (hvToStr_utf8 p2)) .nil
    · exact .cons (lineText_iff.2 (hvToStr_utf8 p3)) .nil
    · refine headersText_iff.2 ?_
      have := tryParse_members (hs := (List.range k).map c85Sig) (by
        intro h hh; obtain ⟨i, _, rfl⟩ := List.mem_map.1 hh; exact c85_safe i) (by
        rw [List.map_map]
        refine List.Nodup.map ?_ List.nodup_range
        intro a b hab
        exact natStr_inj (List.cons_inj_right _ |>.1 hab))
      rw [List.map_map, List.map_map, List.map_map] at this
      simpa [Wire.commas, Function.comp_def] using this
  · intro kv hkv
    obtain ⟨i, _, rfl⟩ := List.mem_map.1 hkv
    refine ⟨Or.inl rfl, (fun e he => by cases he), _, ⟨_, .cons (v := List.replicate n 'x') (Or.inl ⟨by decide, ?_⟩) .nil, rfl⟩, ?_⟩
    · exact ⟨[_], [_], .cons (lineText_iff.2 (hvToStr_utf8 p1)) .nil, .done, by simp [Wire.commas]⟩
    · simp only [List.length_append, List.length_replicate]; omega

/-- C85: the work is not linear in the size: no constant bounds the signature bases of a message by its size. -/
theorem C85_not_linear (c : Nat) (hc : c ≤ 10 ^ 4) : ∃ r l ts, WfHeaders r.headers ∧ Wire.Carries r.headers l ∧
    List.Forall₂ (fun kv t => Wire.BaseOf (.req r) none kv.2.params t) l ts ∧ c * reqSize r < (ts.map List.length).sum := by
  obtain ⟨N, hN⟩ : ∃ N, N = 27 * (2 * c + 10) + 60 := ⟨_, rfl⟩
  obtain ⟨h1, h2, l, h3, h4, h5⟩ := C85_quadratic 0 N (2 * c + 10) (by omega) (by omega)
  generalize c85Req N (2 * c + 10) = r at h1 h2 h3 h5
  have : ∃ ts, List.Forall₂ (fun kv t => Wire.BaseOf (.req r) none kv.2.params t) l ts ∧ l.length * N ≤ (ts.map List.length).sum := by
    clear h1 h2 h3 h4
    induction l with
    | nil => exact ⟨[], .nil, by simp⟩
    | cons a t ih =>
      obtain ⟨ts, i1, i2⟩ := ih (fun kv hk => h5 kv (by simp [hk]))
      obtain ⟨_, _, u, u1, u2⟩ := h5 a (by simp)
      refine ⟨u :: ts, .cons u1 i1, ?_⟩
      simp only [List.length_cons, List.map_cons, List.sum_cons, Nat.add_mul, one_mul]; omega
  obtain ⟨ts, t1, t2⟩ := this
  refine ⟨r, l, ts, h2, h3, t1, lt_of_lt_of_le ?_ t2⟩
  rw [h4]
  calc c * _ ≤ c * (N + N) := Nat.mul_le_mul_left _ (by omega)
    _ = 2 * c * N := by ring
    _ < _ := Nat.mul_lt_mul_of_pos_right (by omega) (by omega)

/-! ### Cases -/

-- the message of C85_quadratic, small
set_option maxRecDepth 4000 in
example : (c85Req 3 2).headers = [(c! "f", utf8 (c! "xxx")), (c! "signature-input", utf8 (c! "a0=(\"f\"), a1=(\"f\")")),
    (c! "signature", utf8 (c! "a0=::, a1=::"))] := by decide +kernel

-- a head of 54060 octets or less, 1000 texts of 27000 characters or more
example : reqSize (c85Req 27000 1000) ≤ 54060 := (C85_quadratic 0 27000 1000 (by omega) (by omega)).1

-- a value longer than its lines: `1,2` is written `1, 2`
example : Wire.HasValue (.req { exReq with headers := [(c! "f", utf8 (c! "1,2"))] }) none ⟨.field (c! "f"), [.sf]⟩ (c! "1, 2") := by
  refine wireHasValue_iff.2 ?_
  simp only [HasValue, List.mem_singleton]
  rw [if_neg (by decide)]
  exact ⟨[c! "1,2"], [c! "1, 2"], .cons (by decide +kernel) .nil,
    .sf (.cons (Or.inl ⟨[.item ⟨.int 1, []⟩, .item ⟨.int 2, []⟩], by decide +kernel, by decide +kernel⟩) .nil) (.done _), by decide⟩

end Verif
