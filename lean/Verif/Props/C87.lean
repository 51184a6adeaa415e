import Verif.Props.C74
import Verif.Props.C86
import Verif.Props.C09
/-!
C87 Refusing backslashes in Signature-Input makes up for the missing escapes.
-/
namespace Verif
open Sfv Spec Grammar

/-- No line of Signature-Input has a backslash. -/
def NoBackslash (h : Headers) : Prop := ∀ l ∈ Wire.linesOf h (c! "signature-input"), ∀ b ∈ l, b.toNat ≠ 92

instance (h : Headers) : Decidable (NoBackslash h) := by unfold NoBackslash; infer_instance

/-! ### Texts without a backslash -/

theorem body_clean {s t : Str} (h : StringBody s t) (hb : '\\' ∉ t) : specials s = 0 := by
  induction h with
  | nil => rfl
  | plain _ h2 h3 _ ih =>
    have := ih (fun h => hb (by simp [h]))
    rw [specials_zero] at *
    intro c hc
    rcases List.mem_cons.1 hc with rfl | hc
    · exact ⟨h2, h3⟩
    · exact this c hc
  | escaped => simp at hb

theorem bare_clean {s t : Str} (h : BareText (.str s) t) (hb : '\\' ∉ t) : specials s = 0 := by
  cases h with
  | str h => exact body_clean h (fun h => hb (by simp [h]))

theorem params_clean {raw : List (Str × Bare)} {t : Str} (h : ParamsText raw t) (hb : '\\' ∉ t) :
    ∀ k s, (k, Bare.str s) ∈ raw → specials s = 0 := by
  induction h with
  | nil => simp
  | flag _ _ ih =>
    intro k s hk
    rcases List.mem_cons.1 hk with hk | hk
    · cases hk
    · exact ih (fun h => hb (by simp [h])) k s hk
  | value _ h1 _ ih =>
    intro k s hk
    rcases List.mem_cons.1 hk with hk | hk
    · injection hk with _ hk; subst hk; exact bare_clean h1 (fun h => hb (by simp [h]))
    · exact ih (fun h => hb (by simp [h])) k s hk

/-- No string of the item needs an escape. -/
def CleanItem (i : Item) : Prop := (∀ s, i.bare = .str s → specials s = 0) ∧ ∀ k s, (k, Bare.str s) ∈ i.params → specials s = 0

theorem item_clean {i : Item} {t : Str} (h : ItemText i t) (hb : '\\' ∉ t) : CleanItem i := by
  obtain ⟨raw, b, p, h1, h2, h3, rfl⟩ := h
  refine ⟨fun s hs => ?_, fun k s hk => ?_⟩
  · rw [hs] at h1; exact bare_clean h1 (fun h => hb (by simp [h]))
  · exact params_clean h2 (fun h => hb (by simp [h])) k s (mapOf_sub h3 _ hk)

theorem items_clean {is : List Item} {t : Str} (h : ItemsText is t) (hb : '\\' ∉ t) : ∀ i ∈ is, CleanItem i := by
  induction h with
  | nil => simp
  | one h =>
    intro i hi
    rw [List.mem_singleton] at hi; subst hi
    exact item_clean h (fun h => hb (by simp [h]))
  | cons h _ ih =>
    intro i hi
    rcases List.mem_cons.1 hi with rfl | hi
    · exact item_clean h (fun h => hb (by simp [h]))
    · exact ih (fun h => hb (by simp [h])) i hi

theorem inner_clean {l : InnerList} {t : Str} (h : EntryText (.inner l) t) (hb : '\\' ∉ t) :
    (∀ i ∈ l.items, CleanItem i) ∧ ∀ k s, (k, Bare.str s) ∈ l.params → specials s = 0 := by
  cases h with
  | inner h1 h2 h3 =>
    exact ⟨items_clean h1 (fun h => hb (by simp [h])), fun k s hk => params_clean h2 (fun h => hb (by simp [h])) k s (mapOf_sub h3 _ hk)⟩

theorem members_text {l : List (Str × Entry)} {t : Str} (h : SepText MemberText l t) :
    ∀ x ∈ l, ∃ u, MemberText x u ∧ ∀ c ∈ u, c ∈ t := by
  induction h with
  | one h =>
    intro x hx
    rw [List.mem_singleton] at hx; subst hx
    exact ⟨_, h, fun _ => id⟩
  | cons h _ _ _ ih =>
    intro x hx
    rcases List.mem_cons.1 hx with rfl | hx
    · exact ⟨_, h, fun c hc => by simp [hc]⟩
    · obtain ⟨u, h1, h2⟩ := ih x hx
      exact ⟨u, h1, fun c hc => by simp [h2 c hc]⟩

theorem dict_clean {d : Dict} {s : Str} (h : DictText d s) (hb : '\\' ∉ s) {k : Str} {l : InnerList} (hk : (k, Entry.inner l) ∈ d) :
    (∀ i ∈ l.items, CleanItem i) ∧ ∀ k s, (k, Bare.str s) ∈ l.params → specials s = 0 := by
  obtain ⟨raw, hf, hm⟩ := h
  have hk := mapOf_sub hm _ hk
  rcases hf with ⟨rfl, _⟩ | ⟨n, t, a, hs, _, rfl⟩
  · cases hk
  · obtain ⟨u, h1, h2⟩ := members_text hs _ hk
    cases h1 with
    | value _ h1 => exact inner_clean h1 (fun h => hb (by simp [h2 _ (show '\\' ∈ _ by simp [h])]))

theorem id_clean {it : Item} {i : CId} (hc : CleanItem it) (h : Wire.CoveredId it i) : idSpecials i = 0 := by
  rcases h with ⟨n, h1, h2, h3, _⟩ | ⟨_, t, ht, hq, _, rfl⟩
  · unfold idSpecials
    rw [nameOf_text h2, hc.1 n h1, Nat.zero_add]
    have hp := hc.2
    generalize it.params = ps at h3 hp
    generalize i.params = l at h3
    induction h3 with
    | nil => rfl
    | @cons kv p ps l h _ ih =>
      have : paramSpecials p = 0 := by
        cases h with
        | @key s => exact hp _ s (List.mem_cons_self)
        | @name s => exact hp _ s (List.mem_cons_self)
        | _ => rfl
      rw [List.map_cons, List.sum_cons, this, ih (fun k s hk => hp k s (List.mem_cons_of_mem _ hk))]
  · obtain ⟨hl, rfl⟩ := canonItem_iff.1 ht
    have : specials (serItem it) = 0 := specials_zero.2 (fun c hc => ⟨(plain_serItem hl hq c hc).2.1, (plain_serItem hl hq c hc).2.2⟩)
    simp [idSpecials, nameText, this]

theorem paramsOf_clean {l : InnerList} {p : SigParams} (h : Wire.ParamsOf l p)
    (h1 : ∀ i ∈ l.items, CleanItem i) (h2 : ∀ k s, (k, Bare.str s) ∈ l.params → specials s = 0) : allSpecials p = 0 := by
  have ht : ∀ {k : Str} {o : Option Str}, Wire.TextOf l.params k o → textSpecials o = 0 := by
    intro k o ho
    cases o with
    | none => rfl
    | some s => exact h2 k s ((ho s).1 rfl)
  unfold allSpecials
  rw [ht h.nonce, ht h.alg, ht h.keyid, ht h.tag]
  simp only [Nat.add_zero]
  rw [List.sum_eq_zero_iff]
  intro n hn
  obtain ⟨i, hi, rfl⟩ := List.mem_map.1 hn
  obtain ⟨it, hit, hc⟩ := forall₂_mem_right h.covered i hi
  exact id_clean (h1 it hit) hc

/-! ### What is read -/

theorem commas_mem {c : Char} (ts : List Str) (h : c ∈ Wire.commas ts) : c = ',' ∨ c = ' ' ∨ ∃ t ∈ ts, c ∈ t := by
  unfold Wire.commas at h
  induction ts with
  | nil => cases h
  | cons a t ih =>
    cases t with
    | nil => exact Or.inr (Or.inr ⟨a, by simp, by simpa [List.intercalate] using h⟩)
    | cons b t =>
      rw [List.intercalate_cons_cons] at h
      rcases List.mem_append.1 h with h | h
      · rcases List.mem_append.1 h with h | h
        · exact Or.inr (Or.inr ⟨a, by simp, h⟩)
        · simp at h; tauto
      · rcases ih h with h | h | ⟨x, hx, h⟩
        · exact Or.inl h
        · exact Or.inr (Or.inl h)
        · exact Or.inr (Or.inr ⟨x, by simp [hx], h⟩)

/-- C87: everything read from headers without a backslash in Signature-Input can be written as it is: no name, no parameter and no
text has a quote or a backslash. -/
theorem C87_read {h : Headers} {l : List (Str × SigHeaders)} (hb : NoBackslash h) (hc : Wire.Carries h l) :
    ∀ kv ∈ l, SafeParams kv.2.params := by
  obtain ⟨ts, us, h1, _, _, _, a, b, _, hd, hab⟩ := hc
  intro kv hkv
  obtain ⟨⟨k, e⟩, hke, _, _, _, il, he, hp⟩ := forall₂_mem_right hab.order kv hkv
  simp only at he; subst he
  have hno : '\\' ∉ Wire.commas ts := by
    intro hm
    rcases commas_mem ts hm with h | h | ⟨t, ht, hx⟩
    · cases h
    · cases h
    · obtain ⟨ln, hln, hlt⟩ := forall₂_mem_right h1 t ht
      have : '\\'.toNat ∈ t.map Char.toNat := List.mem_map_of_mem hx
      rw [hlt.2] at this
      obtain ⟨x, hx, hx2⟩ := List.mem_map.1 this
      exact hb ln hln x hx hx2
  obtain ⟨c1, c2⟩ := dict_clean hd hno hke
  have hl := ((parseDict_legal ((parseDict_iff _ _).2 hd)).2 _ hke).2
  exact safeParams_of hl hp (paramsOf_clean hp c1 c2)

/-- C87: C09 in full for a verifier that refuses backslashes and a holder that signs only parameters that can be written: success
means that the holder signed exactly these parameters for a message in which every covered component has the received value. -/
theorem C87_bound {now : UInt64} {m : Msg} {rf : Option Request} {vk : VerifyingKey} {S : Signing → Prop} (hS : OnlySigned vk S)
    (hwf : ∀ x, S x → x.Wf ∧ SafeParams x.p) (hm : WfMsg m) (hf : ∀ r, rf = some r → WfRequest r) (hb : NoBackslash m.headers)
    {id : Option Str} {n : Str} (h : verifySignature now m vk id rf = .ok n) :
    ∃ l sh, Carries m.headers l ∧ (n, sh) ∈ l ∧ ∃ x, S x ∧ x.p = sh.params ∧
      ∀ i ∈ sh.params.covered, ∃ v, HasValue m rf i v ∧ HasValue x.m x.rf i v :=
  C09_safe hS hwf hm hf (fun _ hc => C87_read hb (wireCarries_iff.2 hc)) h

/-! ### What is written -/

theorem safe_text_clean {s : Str} (h : SafeText s) : '\\' ∉ s := fun hs => (h _ hs).2.2 rfl

theorem quoted_clean {s : Str} (h : '\\' ∉ s) : '\\' ∉ quoted s := by simp [quoted, h]

theorem decimal_clean (n : Nat) : '\\' ∉ decimal n := by
  intro h
  have := Nat.isDigit_of_mem_toDigits (by decide) (by decide) h
  revert this; decide

theorem safe_id_clean {i : CId} (h : SafeId i) : '\\' ∉ idText i := by
  unfold idText
  rw [List.mem_append]
  rintro (hx | hx)
  · revert hx
    cases hn : i.name with
    | field f => exact quoted_clean (safe_text_clean (h.nameText f hn))
    | derived d => exact quoted_clean (by cases d <;> decide)
  · obtain ⟨t, ht, hx⟩ := List.mem_flatten.1 hx
    obtain ⟨p, hp, rfl⟩ := List.mem_map.1 ht
    revert hx
    cases p with
    | key k => simpa [paramText] using quoted_clean (safe_text_clean (h.keyText k hp))
    | name k => simpa [paramText] using quoted_clean (safe_text_clean (h.nameParam k hp))
    | _ => decide

theorem safe_no_backslash {p : SigParams} (h : SafeParams p) : '\\' ∉ paramsText p := by
  have num : ∀ (n : String) (o : Option UInt64), '\\' ∉ n.toList → '\\' ∉ ifPresent n (fun t : UInt64 => decimal t.toNat) o := by
    intro n o hn
    cases o with
    | none => simp [ifPresent]
    | some t => simp [ifPresent, hn, decimal_clean]
  have txt : ∀ (n : String) (o : Option Str), '\\' ∉ n.toList → (∀ s, o = some s → SafeText s) → '\\' ∉ ifPresent n quoted o := by
    intro n o hn ho
    cases o with
    | none => simp [ifPresent]
    | some t => simp [ifPresent, hn, quoted_clean (safe_text_clean (ho t rfl))]
  have ids : '\\' ∉ List.intercalate " ".toList (p.covered.map idText) := by
    have hi := h.ids
    generalize p.covered = l at hi
    induction l with
    | nil => simp [List.intercalate]
    | cons a t ih =>
      cases t with
      | nil => simpa [List.intercalate] using safe_id_clean (hi a (by simp))
      | cons b t =>
        rw [List.map_cons, List.map_cons, List.intercalate_cons_cons]
        have := ih (fun i h => hi i (by simp [h]))
        rw [List.map_cons] at this
        simp only [List.mem_append, not_or]
        exact ⟨⟨safe_id_clean (hi a (by simp)), by decide⟩, this⟩
  unfold paramsText
  simp only [List.mem_append, not_or]
  exact ⟨⟨⟨⟨⟨⟨⟨⟨by decide, ids⟩, by decide⟩, num _ _ (by decide)⟩, num _ _ (by decide)⟩, txt _ _ (by decide) h.nonce⟩,
    txt _ _ (by decide) h.alg⟩, txt _ _ (by decide) h.keyid⟩, txt _ _ (by decide) h.tag⟩

/-- C87: refusing backslashes costs nothing among users of this library: signing with parameters that can be written and legal names
puts none into Signature-Input. -/
theorem C87_written {m : Msg} {rf : Option Request} (hw : WfHeaders m.headers) (hf : ∀ r, rf = some r → WfHeaders r.headers)
    {l : List Signer} (hsafe : ∀ x ∈ l, SafeParams x.1 ∧ LegalKey x.label) (hb : NoBackslash m.headers) {h' : Headers}
    (h : setSignatures m l rf = (h', .ok ())) : NoBackslash h' := by
  obtain ⟨hs, h1, _, rfl⟩ := (setSignatures_ok hw hf l h').1 h
  intro ln hln
  rw [linesOf_eq, fieldLines_append, List.mem_append] at hln
  rcases hln with hln | hln
  · exact hb ln hln
  · rw [fieldLines_sigLines_input] at hln
    obtain ⟨sh, hsh, rfl⟩ := List.mem_map.1 hln
    obtain ⟨x, hx, hsx⟩ := forall₂_mem_right h1 sh hsh
    have hss : SafeHeaders sh := by
      obtain ⟨e1, e2, _⟩ := hsx
      exact ⟨by rw [e1]; exact (hsafe x hx).2, by rw [e2]; exact (hsafe x hx).1⟩
    have hp := safe_input_printable hss
    intro b hb' hb92
    rw [utf8_ascii (fun c hc => by have := hp c hc; unfold Printable at this; omega)] at hb'
    obtain ⟨c, hc, rfl⟩ := List.mem_map.1 hb'
    have hlt : c.toNat < 128 := by have := hp c hc; unfold Printable at this; omega
    have h92 : c.toNat = 92 := by
      rw [UInt8.toNat_ofNat'] at hb92
      omega
    have hcb : c = '\\' := Char.toNat_inj.1 h92
    subst hcb
    rw [(C58_header_values sh).1, List.mem_append, List.mem_append] at hc
    rcases hc with (hc | hc) | hc
    · have := hss.name.2 _ hc
      revert this; decide
    · revert hc; decide
    · exact safe_no_backslash hss.params hc

/-! ### Examples -/

/-- C87: the condition is needed. All other hypotheses of `C87_bound` hold here and its conclusion does not: what is accepted has other
parameters than what was signed. -/
theorem C87_needed : ∃ (vk : VerifyingKey) (x : Signing) (r : Request), OnlySigned vk (· = x) ∧ x.Wf ∧ SafeParams x.p ∧ WfMsg (.req r) ∧
    r.verifySignature 0 vk none = .ok (c! "sig") ∧ ¬ NoBackslash r.headers ∧
    ∀ l sh, Carries r.headers l → (c! "sig", sh) ∈ l → x.p ≠ sh.params := by
  refine ⟨onlyKey dText, dSigning, { exReq with headers := dHeaders }, onlyKey_spec dSigning_base,
    ⟨exWf _ dSigning_wf, (by intro r h; cases h), safe_one_line dSigning_safe⟩, dSigning_safe, exWf _ dHeaders_wf, by decide, by decide, ?_⟩
  intro l sh hl hsh e
  have h1 := (extractSignatureHeaders_ok (m := .req { exReq with headers := dHeaders }) dHeaders_wf l).2 hl
  have h2 : extractSignatureHeaders (.req { exReq with headers := dHeaders }) =
      .ok [(c! "sig", ⟨c! "sig", [1], { covered := [⟨.field (c! "x-dict\";key=\"a"), []⟩] }⟩)] := by decide
  rw [h2] at h1
  injection h1 with h1
  subst h1
  rw [List.mem_singleton] at hsh
  injection hsh with _ hsh
  subst hsh
  revert e; decide

/-- What the holder sends. -/
def c87Headers : Headers := [(c! "x-dict", utf8 (c! "b=1")), (c! "signature-input", utf8 (c! "sig=(\"x-dict\";key=\"a\")")),
  (c! "signature", utf8 (c! "sig=:AQ==:"))]

-- it is accepted and has no backslash, so that C87_bound applies to it
example : ∃ l sh, Carries c87Headers l ∧ (c! "sig", sh) ∈ l ∧ ∃ x, x = dSigning ∧ x.p = sh.params ∧
    ∀ i ∈ sh.params.covered, ∃ v, HasValue (.req { exReq with headers := c87Headers }) none i v ∧ HasValue x.m x.rf i v :=
  C87_bound (now := 0) (m := .req { exReq with headers := c87Headers }) (rf := none) (id := none) (n := c! "sig") (onlyKey_spec dSigning_base)
    (by rintro x rfl; exact ⟨⟨exWf _ dSigning_wf, (by intro r h; cases h), safe_one_line dSigning_safe⟩, dSigning_safe⟩)
    (exWf _ (by
      intro kv hkv
      simp only [c87Headers, List.mem_cons, List.not_mem_nil, or_false] at hkv
      rcases hkv with rfl | rfl | rfl <;> exact ⟨by decide, by decide, by decide⟩)) (by intro r h; cases h) (by decide) (by decide)

end Verif
