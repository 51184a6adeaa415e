import Verif.Spec.Verify
import Verif.Props.C13
import Verif.Props.C22
/-!
The verification pipeline of httpsig-hyper in terms of `Spec/Verify`.
-/
namespace Verif
open Sfv Spec

namespace Res
variable {ε ε' α β : Type}

/-- Rust `Result::ok` on a call that returned. -/
def toOpt : Res ε α → Option α
  | .ok a => some a
  | _ => none

@[simp] theorem toOpt_ok (a : α) : (Res.ok a : Res ε α).toOpt = some a := rfl
@[simp] theorem toOpt_err (e : ε) : (Res.err e : Res ε α).toOpt = none := rfl
@[simp] theorem toOpt_panic : (Res.panic : Res ε α).toOpt = none := rfl

theorem toOpt_eq_some {x : Res ε α} {a : α} : x.toOpt = some a ↔ x = .ok a := by cases x <;> simp

theorem filterOk_of_not_panic {f : α → Res ε β} {l : List α} (h : ∀ a ∈ l, f a ≠ .panic) :
    (filterOk f l : Res ε' (List β)) = .ok (l.filterMap (fun a => (f a).toOpt)) := by
  induction l with
  | nil => rfl
  | cons a t ih =>
    simp only [filterOk, List.filterMap_cons]
    rw [ih (fun b hb => h b (by simp [hb]))]
    cases hf : f a with
    | ok b => rfl
    | err e => rfl
    | panic => exact absurd hf (h a (by simp))

theorem filterOk_panic {f : α → Res ε β} {l : List α} :
    (filterOk f l : Res ε' (List β)) = .panic ↔ ∃ a ∈ l, f a = .panic := by
  constructor
  · intro h
    by_contra hn
    rw [filterOk_of_not_panic (fun a ha hp => hn ⟨a, ha, hp⟩)] at h
    cases h
  · rintro ⟨a, ha, hp⟩
    induction l with
    | nil => simp at ha
    | cons b t ih =>
      simp only [filterOk]
      rcases List.mem_cons.1 ha with rfl | ha
      · rw [hp]
      · rw [ih ha]
        cases f b <;> rfl

end Res

/-! ### Reading the signature headers -/

theorem contains_iff {h : Headers} (hw : WfHeaders h) (n : Str) : h.contains n = true ↔ fieldLines h n ≠ [] := by
  unfold Headers.contains; rw [getAll_fieldLines hw]; simp

theorem lineTexts_nil {ls : List Bytes} {ts : List Str} (h : LineTexts ls ts) : ts = [] ↔ ls = [] := by
  cases h <;> simp

theorem extractSignatureHeaders_ok {m : Msg} (hw : WfHeaders m.headers) (l : List (Str × SigHeaders)) :
    extractSignatureHeaders m = .ok l ↔ Carries m.headers l := by
  unfold extractSignatureHeaders Carries
  simp only
  constructor
  · intro h
    split at h
    · cases h
    rename_i hc
    simp only [Bool.and_eq_true, not_not] at hc
    obtain ⟨ts, h1, h⟩ := Res.bind_eq_ok.1 h
    obtain ⟨us, h2, h⟩ := Res.bind_eq_ok.1 h
    have h1 := (headerTexts_ok hw _ _).1 h1
    have h2 := (headerTexts_ok hw _ _).1 h2
    obtain ⟨a, b, ha, hb, hA⟩ := (C13_labels_agree _ _ _).1 (Res.mapErr_eq_ok.1 h)
    exact ⟨ts, us, a, b, h1, h2, fun e => (contains_iff hw _).1 hc.1 ((lineTexts_nil h1).1 e),
      fun e => (contains_iff hw _).1 hc.2 ((lineTexts_nil h2).1 e), ha, hb, hA⟩
  · rintro ⟨ts, us, a, b, h1, h2, h3, h4, h5⟩
    have h5 := (C13_labels_agree _ _ _).2 ⟨a, b, h5⟩
    rw [if_neg]
    · rw [(headerTexts_ok hw hSignatureInput ts).2 h1, (headerTexts_ok hw hSignature us).2 h2]
      simp only [Res.bind_ok]
      rw [h5]; rfl
    · simp only [Bool.and_eq_true, not_not]
      exact ⟨(contains_iff hw _).2 (fun e => h3 ((lineTexts_nil h1).2 e)), (contains_iff hw _).2 (fun e => h4 ((lineTexts_nil h2).2 e))⟩

theorem extractSignatureHeaders_nodup {m : Msg} {l : List (Str × SigHeaders)} (h : extractSignatureHeaders m = .ok l) :
    (l.map Prod.fst).Nodup := by
  unfold extractSignatureHeaders at h
  simp only at h
  split at h
  · cases h
  obtain ⟨ts, _, h⟩ := Res.bind_eq_ok.1 h
  obtain ⟨us, _, h⟩ := Res.bind_eq_ok.1 h
  exact C13_labels_distinct _ _ _ (Res.mapErr_eq_ok.1 h)

theorem carries_nodup {h : Headers} {l : List (Str × SigHeaders)} (hc : Carries h l) : (l.map Prod.fst).Nodup := by
  obtain ⟨ts, us, a, b, _, _, _, _, h5⟩ := hc
  exact C13_labels_distinct _ _ _ ((C13_labels_agree _ _ _).2 ⟨a, b, h5⟩)

theorem carries_name {h : Headers} {l : List (Str × SigHeaders)} (hc : Carries h l) : ∀ kv ∈ l, kv.2.name = kv.1 := by
  obtain ⟨ts, us, a, b, _, _, _, _, _, _, hA⟩ := hc
  exact fun kv hkv => (hA.pairing kv hkv).1

/-- Both fields are there and can be read as text: these are the lines. -/
def SigTexts (h : Headers) (ts us : List Str) : Prop :=
  LineTexts (fieldLines h (c! "signature-input")) ts ∧ LineTexts (fieldLines h (c! "signature")) us ∧ ts ≠ [] ∧ us ≠ []

theorem lineTexts_inj {ls : List Bytes} {a b : List Str} (h1 : LineTexts ls a) (h2 : LineTexts ls b) : a = b := by
  unfold LineTexts at *
  induction h1 generalizing b with
  | nil => cases h2; rfl
  | cons h _ ih =>
    cases h2 with
    | cons h' t' => rw [h] at h'; injection h' with h'; rw [h', ih t']

theorem headerTexts_or (h : Headers) (n : Str) : (∃ ts, headerTexts h n = .ok ts) ∨ headerTexts h n = .err .toStr := by
  unfold headerTexts
  induction h.getAll n with
  | nil => exact Or.inl ⟨[], rfl⟩
  | cons a t ih =>
    rw [Res.collect]
    cases hvToStr a with
    | none => exact Or.inr rfl
    | some s =>
      rcases ih with ⟨ts, h⟩ | h
      · rw [h]; exact Or.inl ⟨s :: ts, rfl⟩
      · rw [h]; exact Or.inr rfl

theorem extract_of_texts {m : Msg} (hw : WfHeaders m.headers) {ts us : List Str} (h : SigTexts m.headers ts us) :
    extractSignatureHeaders m = (SigHeaders.tryParse (join (c! ", ") us) (join (c! ", ") ts)).mapErr .httpSig := by
  obtain ⟨h1, h2, h3, h4⟩ := h
  unfold extractSignatureHeaders
  simp only
  rw [if_neg]
  · rw [(headerTexts_ok hw hSignatureInput ts).2 h1, (headerTexts_ok hw hSignature us).2 h2]
    rfl
  · simp only [Bool.and_eq_true, not_not]
    exact ⟨(contains_iff hw _).2 (fun e => h3 ((lineTexts_nil h1).2 e)), (contains_iff hw _).2 (fun e => h4 ((lineTexts_nil h2).2 e))⟩

/-- Absent, not text, or text. -/
theorem extract_cases {m : Msg} (hw : WfHeaders m.headers) :
    ((fieldLines m.headers (c! "signature-input") = [] ∨ fieldLines m.headers (c! "signature") = []) ∧
      extractSignatureHeaders m = .err .noSignatureHeaders ∧ ¬ ∃ ts us, SigTexts m.headers ts us) ∨
    (fieldLines m.headers (c! "signature-input") ≠ [] ∧ fieldLines m.headers (c! "signature") ≠ [] ∧
      (¬ ∃ ts us, SigTexts m.headers ts us) ∧ extractSignatureHeaders m = .err .toStr) ∨
    (fieldLines m.headers (c! "signature-input") ≠ [] ∧ fieldLines m.headers (c! "signature") ≠ [] ∧ ∃ ts us, SigTexts m.headers ts us) := by
  by_cases ha : fieldLines m.headers (c! "signature-input") = [] ∨ fieldLines m.headers (c! "signature") = []
  · refine Or.inl ⟨ha, ?_, ?_⟩
    · unfold extractSignatureHeaders
      simp only
      rw [if_pos]
      simp only [Bool.and_eq_true]
      rintro ⟨h1, h2⟩
      rcases ha with h | h
      · exact (contains_iff hw _).1 h1 h
      · exact (contains_iff hw _).1 h2 h
    · rintro ⟨ts, us, h1, h2, h3, h4⟩
      rcases ha with h | h
      · exact h3 ((lineTexts_nil h1).2 h)
      · exact h4 ((lineTexts_nil h2).2 h)
  · rw [not_or] at ha
    refine Or.inr ?_
    by_cases ht : ∃ ts us, SigTexts m.headers ts us
    · exact Or.inr ⟨ha.1, ha.2, ht⟩
    · refine Or.inl ⟨ha.1, ha.2, ht, ?_⟩
      unfold extractSignatureHeaders
      simp only
      rw [if_neg (by simp only [Bool.and_eq_true, not_not]; exact ⟨(contains_iff hw _).2 ha.1, (contains_iff hw _).2 ha.2⟩)]
      rcases headerTexts_or m.headers hSignatureInput with ⟨ts, h1⟩ | h1
      · rw [h1]
        rcases headerTexts_or m.headers hSignature with ⟨us, h2⟩ | h2
        · exfalso
          have h1 := (headerTexts_ok hw _ _).1 h1
          have h2 := (headerTexts_ok hw _ _).1 h2
          exact ht ⟨ts, us, h1, h2, fun e => ha.1 ((lineTexts_nil h1).1 e), fun e => ha.2 ((lineTexts_nil h2).1 e)⟩
        · rw [h2]; rfl
      · rw [h1]; rfl

theorem hasMessageSignature_iff {h : Headers} (hw : WfHeaders h) :
    hasMessageSignature h = true ↔ fieldLines h (c! "signature") ≠ [] ∧ fieldLines h (c! "signature-input") ≠ [] := by
  unfold hasMessageSignature
  rw [Bool.and_eq_true, contains_iff hw, contains_iff hw]
  rfl

/-! ### Candidates -/

/-- The entry of `extract_signatures` for one signature. -/
def entryOf (m : Msg) (rf : Option Request) (kv : Str × SigHeaders) : Option (Str × (SigBase × SigHeaders)) :=
  (buildBase m kv.2.params rf).toOpt.map (fun b => (kv.1, (b, kv.2)))

theorem filterMap_keys_nodup {l : List (Str × SigHeaders)} (h : (l.map Prod.fst).Nodup) {β : Type}
    (f : Str × SigHeaders → Option (Str × β)) (hf : ∀ kv x, f kv = some x → x.1 = kv.1) :
    ((l.filterMap f).map Prod.fst).Nodup := by
  have hsub : ∀ l : List (Str × SigHeaders), ((l.filterMap f).map Prod.fst).Sublist (l.map Prod.fst) := by
    intro l
    induction l with
    | nil => simp
    | cons a t ih =>
      rw [List.filterMap_cons]
      cases hfa : f a with
      | none => exact List.Sublist.cons _ ih
      | some x =>
        simp only [List.map_cons]
        rw [hf a x hfa]
        exact ih.cons_cons _
  exact (hsub l).nodup h

theorem extractSignatures_eq (m : Msg) (rf : Option Request) :
    extractSignatures m rf = (extractSignatureHeaders m >>= fun l => .ok (l.filterMap (entryOf m rf))) := by
  unfold extractSignatures
  cases hl : extractSignatureHeaders m with
  | err e => rfl
  | panic => rfl
  | ok l =>
    simp only [Res.bind_ok]
    rw [Res.filterOk_of_not_panic]
    · have e : (fun kv : Str × SigHeaders => Res.toOpt (do
          let b ← buildBase m kv.2.params rf
          Res.ok (ε := HyperErr) (kv.1, (b, kv.2)))) = entryOf m rf := by
        funext kv
        unfold entryOf
        cases buildBase m kv.2.params rf <;> rfl
      simp only [Res.bind_ok]
      rw [e, imOfList_of_nodup]
      apply filterMap_keys_nodup (extractSignatureHeaders_nodup hl)
      intro kv x hx
      unfold entryOf at hx
      obtain ⟨b, _, rfl⟩ := Option.map_eq_some_iff.1 hx
      rfl
    · intro kv _ hp
      rcases Res.bind_eq_panic.1 hp with h | ⟨b, _, h⟩
      · exact buildBase_ne_panic _ _ _ h
      · cases h

theorem buildBase_params {m : Msg} {p : SigParams} {rf : Option Request} {b : SigBase} (h : buildBase m p rf = .ok b) : b.params = p :=
  (buildBase_ok.1 h).1

/-- The key id condition as the code tests it. -/
def keyTest (id : Option Str) (kv : Str × (SigBase × SigHeaders)) : Bool :=
  match id with
  | none => true
  | some i => kv.2.1.keyid == some i

theorem filterKeyId_eq (map : List (Str × (SigBase × SigHeaders))) (id : Option Str) :
    filterKeyId map id = map.filter (keyTest id) := by
  cases id with
  | none => simp only [filterKeyId]; exact (List.filter_eq_self.2 (fun _ _ => rfl)).symm
  | some i => rfl

/-- The candidates as a list. -/
def cands (m : Msg) (rf : Option Request) (id : Option Str) (l : List (Str × SigHeaders)) : List (Str × (SigBase × SigHeaders)) :=
  (l.filterMap (entryOf m rf)).filter (keyTest id)

theorem mem_cands {m : Msg} {rf : Option Request} {id : Option Str} {l : List (Str × SigHeaders)} {x : Str × (SigBase × SigHeaders)} :
    x ∈ cands m rf id l ↔ ∃ kv ∈ l, buildBase m kv.2.params rf = .ok x.2.1 ∧ ForKey id kv.2 ∧ x.1 = kv.1 ∧ x.2.2 = kv.2 := by
  unfold cands
  rw [List.mem_filter, List.mem_filterMap]
  constructor
  · rintro ⟨⟨kv, hkv, he⟩, ht⟩
    unfold entryOf at he
    obtain ⟨b, hb, rfl⟩ := Option.map_eq_some_iff.1 he
    have hb := Res.toOpt_eq_some.1 hb
    refine ⟨kv, hkv, hb, ?_, rfl, rfl⟩
    intro i hi
    subst hi
    simp only [keyTest, SigBase.keyid, beq_iff_eq] at ht
    rw [buildBase_params hb] at ht
    exact ht
  · rintro ⟨kv, hkv, hb, hk, h1, h2⟩
    obtain ⟨n, b, h⟩ := x
    simp only at hb h1 h2
    subst h1 h2
    refine ⟨⟨kv, hkv, ?_⟩, ?_⟩
    · unfold entryOf; rw [hb]; rfl
    · cases id with
      | none => rfl
      | some i =>
        simp only [keyTest, SigBase.keyid, beq_iff_eq]
        rw [buildBase_params hb]
        exact hk i rfl

/-- Verification of one candidate as the code does it. -/
def tryOne (now : UInt64) (k : VerifyingKey) (x : Str × (SigBase × SigHeaders)) : Res SigErr Str := do
  x.2.1.verify now k x.2.2
  Res.ok x.1

theorem tryOne_ok {now : UInt64} {k : VerifyingKey} {x : Str × (SigBase × SigHeaders)} {n : Str} :
    tryOne now k x = .ok n ↔ x.1 = n ∧ x.2.1.verify now k x.2.2 = .ok () := by
  unfold tryOne
  rw [Res.bind_eq_ok]
  constructor
  · rintro ⟨u, h1, h2⟩; injection h2 with h2; exact ⟨h2, h1⟩
  · rintro ⟨h1, h2⟩; exact ⟨(), h2, by rw [h1]⟩

theorem tryOne_panic {now : UInt64} {k : VerifyingKey} {x : Str × (SigBase × SigHeaders)} :
    tryOne now k x = .panic ↔ x.2.1.verify now k x.2.2 = .panic := by
  unfold tryOne
  rw [Res.bind_eq_panic]
  constructor
  · rintro (h | ⟨u, _, h⟩)
    · exact h
    · cases h
  · exact Or.inl

theorem verifyOne_eq (now : UInt64) (map : List (Str × (SigBase × SigHeaders))) (k : VerifyingKey) (id : Option Str) :
    verifyOne now map k id =
      (if filterKeyId map id = [] then .err .noSignatureHeaders
       else match (Res.filterOk (tryOne now k) (filterKeyId map id) : Res HyperErr (List Str)) with
        | .ok names => match names.head? with
          | none => .err .invalidSignature
          | some n => .ok n
        | .err e => .err e
        | .panic => .panic) := by
  unfold verifyOne
  simp only
  congr 1
  have : (fun kv : Str × (SigBase × SigHeaders) => (do kv.2.1.verify now k kv.2.2; Res.ok kv.1 : Res SigErr Str)) = tryOne now k := rfl
  rw [this]
  cases h : (Res.filterOk (tryOne now k) (filterKeyId map id) : Res HyperErr (List Str)) with
  | err e => rfl
  | panic => rfl
  | ok names =>
    simp only
    rw [← isOfList_head]
    cases isOfList names <;> rfl

theorem verify_base {now : UInt64} {b : SigBase} {k : VerifyingKey} {h : SigHeaders} :
    b.verify now k h = if h.params.isExpired now then .err .expiredSignatureParams else k.verify b.bytes h.signature := rfl

theorem isExpired_false {now : UInt64} {h : SigHeaders} : h.params.isExpired now = false ↔ InTime now h := by
  unfold SigParams.isExpired InTime
  cases h.params.expires with
  | none => simp
  | some e =>
    simp only [decide_eq_false_iff_not, Option.some.injEq, forall_eq']
    exact UInt64.not_lt

theorem verify_eq_iff {now : UInt64} {b : SigBase} {k : VerifyingKey} {h : SigHeaders} {r : Res SigErr Unit}
    (hr : r ≠ .err .expiredSignatureParams) : b.verify now k h = r ↔ InTime now h ∧ k.verify b.bytes h.signature = r := by
  rw [verify_base, ← isExpired_false]
  cases h.params.isExpired now with
  | true => simp only [if_true]; constructor
            · intro h; exact absurd h.symm hr
            · rintro ⟨h, _⟩; cases h
  | false => simp

/-! ### The outcome for one key -/

section outcome
variable {now : UInt64} {m : Msg} {rf : Option Request} {k : VerifyingKey} {id : Option Str}

/-- Rebuilding a base, in terms of the specification. -/
theorem base_iff (hw : WfHeaders m.headers) (hf : ∀ r, rf = some r → WfHeaders r.headers) (p : SigParams) (Q : Bytes → Prop) :
    (∃ b, buildBase m p rf = .ok b ∧ Q b.bytes) ↔ ∃ text, BaseOf m rf p text ∧ Q (utf8 text) := by
  constructor
  · rintro ⟨b, h1, h2⟩
    exact ⟨b.disp, (buildBase_spec hw hf b.disp).1 ⟨b, h1, rfl⟩, h2⟩
  · rintro ⟨t, h1, h2⟩
    obtain ⟨b, h3, h4⟩ := (buildBase_spec hw hf t).2 h1
    exact ⟨b, h3, by unfold SigBase.bytes; rw [h4]; exact h2⟩

theorem accepts_iff (hw : WfHeaders m.headers) (hf : ∀ r, rf = some r → WfHeaders r.headers) (h : SigHeaders) :
    Accepts now m rf k id h ↔ ∃ b, buildBase m h.params rf = .ok b ∧ ForKey id h ∧ b.verify now k h = .ok () := by
  unfold Accepts
  rw [← base_iff hw hf h.params (fun d => ForKey id h ∧ InTime now h ∧ k.verify d h.signature = .ok ())]
  simp only [verify_eq_iff (r := .ok ()) (by simp)]

theorem crashes_iff (hw : WfHeaders m.headers) (hf : ∀ r, rf = some r → WfHeaders r.headers) (h : SigHeaders) :
    Crashes now m rf k id h ↔ ∃ b, buildBase m h.params rf = .ok b ∧ ForKey id h ∧ b.verify now k h = .panic := by
  unfold Crashes
  rw [← base_iff hw hf h.params (fun d => ForKey id h ∧ InTime now h ∧ k.verify d h.signature = .panic)]
  simp only [verify_eq_iff (r := .panic) (by simp)]

theorem candidate_iff (hw : WfHeaders m.headers) (hf : ∀ r, rf = some r → WfHeaders r.headers) (h : SigHeaders) :
    Candidate m rf id h ↔ ∃ b, buildBase m h.params rf = .ok b ∧ ForKey id h := by
  unfold Candidate
  have := base_iff (m := m) (rf := rf) hw hf h.params (fun _ => True)
  simp only [and_true] at this
  rw [← this]
  constructor
  · rintro ⟨⟨b, hb⟩, hk⟩; exact ⟨b, hb, hk⟩
  · rintro ⟨b, hb, hk⟩; exact ⟨⟨b, hb⟩, hk⟩

theorem cands_nil (hw : WfHeaders m.headers) (hf : ∀ r, rf = some r → WfHeaders r.headers) (l : List (Str × SigHeaders)) :
    cands m rf id l = [] ↔ ∀ kv ∈ l, ¬ Candidate m rf id kv.2 := by
  constructor
  · intro h kv hkv hc
    obtain ⟨b, hb, hk⟩ := (candidate_iff hw hf kv.2).1 hc
    have : (kv.1, (b, kv.2)) ∈ cands m rf id l := mem_cands.2 ⟨kv, hkv, hb, hk, rfl, rfl⟩
    rw [h] at this; simp at this
  · intro h
    apply List.eq_nil_iff_forall_not_mem.2
    intro x hx
    obtain ⟨kv, hkv, hb, hk, _, _⟩ := mem_cands.1 hx
    exact h kv hkv ((candidate_iff hw hf kv.2).2 ⟨_, hb, hk⟩)

theorem cands_panic (hw : WfHeaders m.headers) (hf : ∀ r, rf = some r → WfHeaders r.headers) (l : List (Str × SigHeaders)) :
    (∃ x ∈ cands m rf id l, tryOne now k x = .panic) ↔ ∃ kv ∈ l, Crashes now m rf k id kv.2 := by
  constructor
  · rintro ⟨x, hx, hp⟩
    obtain ⟨kv, hkv, hb, hk, _, h2⟩ := mem_cands.1 hx
    have := tryOne_panic.1 hp
    rw [h2] at this
    exact ⟨kv, hkv, (crashes_iff hw hf kv.2).2 ⟨_, hb, hk, this⟩⟩
  · rintro ⟨kv, hkv, hc⟩
    obtain ⟨b, hb, hk, hv⟩ := (crashes_iff hw hf kv.2).1 hc
    exact ⟨(kv.1, (b, kv.2)), mem_cands.2 ⟨kv, hkv, hb, hk, rfl, rfl⟩, tryOne_panic.2 hv⟩

/-- What one entry contributes to the list of accepted names. -/
def nameOf (now : UInt64) (m : Msg) (rf : Option Request) (k : VerifyingKey) (id : Option Str) (kv : Str × SigHeaders) : Option Str :=
  ((entryOf m rf kv).filter (keyTest id)).bind (fun x => (tryOne now k x).toOpt)

theorem names_eq (l : List (Str × SigHeaders)) :
    (cands m rf id l).filterMap (fun x => (tryOne now k x).toOpt) = l.filterMap (nameOf now m rf k id) := by
  unfold cands
  rw [List.filterMap_filter, List.filterMap_filterMap]
  apply List.filterMap_congr
  intro kv _
  unfold nameOf
  cases entryOf m rf kv with
  | none => rfl
  | some x => cases h : keyTest id x <;> simp [h, Option.filter]

theorem nameOf_some (hw : WfHeaders m.headers) (hf : ∀ r, rf = some r → WfHeaders r.headers) (kv : Str × SigHeaders) (n : Str) :
    nameOf now m rf k id kv = some n ↔ kv.1 = n ∧ Accepts now m rf k id kv.2 := by
  rw [accepts_iff hw hf]
  unfold nameOf
  rw [Option.bind_eq_some_iff]
  have key : ∀ x, (entryOf m rf kv).filter (keyTest id) = some x ↔ x ∈ cands m rf id [kv] := by
    intro x
    unfold cands
    rw [List.mem_filter, Option.filter_eq_some_iff]
    simp only [List.filterMap_cons, List.filterMap_nil]
    cases entryOf m rf kv with
    | none => simp
    | some y =>
      simp only [List.mem_singleton, Option.some.injEq]
      exact ⟨fun h => ⟨h.1.symm, h.2⟩, fun h => ⟨h.1.symm, h.2⟩⟩
  constructor
  · rintro ⟨x, hx, ht⟩
    obtain ⟨kv', hkv, hb, hk, e1, e2⟩ := mem_cands.1 ((key x).1 hx)
    simp only [List.mem_cons, List.not_mem_nil, or_false] at hkv
    subst hkv
    obtain ⟨e3, hv⟩ := tryOne_ok.1 (Res.toOpt_eq_some.1 ht)
    rw [e2] at hv
    exact ⟨by rw [← e1, e3], x.2.1, hb, hk, hv⟩
  · rintro ⟨rfl, b, hb, hk, hv⟩
    exact ⟨(kv.1, (b, kv.2)), (key _).2 (mem_cands.2 ⟨kv, by simp, hb, hk, rfl, rfl⟩), Res.toOpt_eq_some.2 (tryOne_ok.2 ⟨rfl, hv⟩)⟩

/-- The complete outcome of the verification with one key. -/
theorem verifyOne_cases (hw : WfHeaders m.headers) (hf : ∀ r, rf = some r → WfHeaders r.headers) (l : List (Str × SigHeaders)) :
    let r := verifyOne now (l.filterMap (entryOf m rf)) k id
    (r = .panic ↔ ∃ kv ∈ l, Crashes now m rf k id kv.2) ∧
    (∀ n, r = .ok n ↔ (∀ kv ∈ l, ¬ Crashes now m rf k id kv.2) ∧ FirstWith (Accepts now m rf k id) l n) ∧
    (r = .err .noSignatureHeaders ↔ ∀ kv ∈ l, ¬ Candidate m rf id kv.2) ∧
    (r = .err .invalidSignature ↔ (∀ kv ∈ l, ¬ Crashes now m rf k id kv.2) ∧ (∃ kv ∈ l, Candidate m rf id kv.2) ∧
      ∀ kv ∈ l, ¬ Accepts now m rf k id kv.2) ∧
    (∀ e, r = .err e → e = .noSignatureHeaders ∨ e = .invalidSignature) := by
  simp only
  rw [verifyOne_eq, filterKeyId_eq]
  have hcd : (l.filterMap (entryOf m rf)).filter (keyTest id) = cands m rf id l := rfl
  rw [hcd]
  have crCand : ∀ h, Crashes now m rf k id h → Candidate m rf id h := by
    rintro h ⟨t, h1, h2, _⟩; exact ⟨⟨t, h1⟩, h2⟩
  have acCand : ∀ h, Accepts now m rf k id h → Candidate m rf id h := by
    rintro h ⟨t, h1, h2, _⟩; exact ⟨⟨t, h1⟩, h2⟩
  by_cases hn : cands m rf id l = []
  · have hno := (cands_nil hw hf l).1 hn
    rw [if_pos hn]
    refine ⟨?_, ?_, ?_, ?_, ?_⟩
    · simp only [reduceCtorEq, false_iff]
      rintro ⟨kv, hkv, hc⟩; exact hno kv hkv (crCand _ hc)
    · intro n
      simp only [reduceCtorEq, false_iff]
      rintro ⟨_, l1, h, l2, rfl, ha, _⟩
      exact hno (n, h) (by simp) (acCand _ ha)
    · exact ⟨fun _ => hno, fun _ => rfl⟩
    · simp only [Res.err.injEq, reduceCtorEq, false_iff]
      rintro ⟨_, ⟨kv, hkv, hc⟩, _⟩; exact hno kv hkv hc
    · intro e he; injection he with he; exact Or.inl he.symm
  · have hsome : ∃ kv ∈ l, Candidate m rf id kv.2 := by
      by_contra hc
      exact hn ((cands_nil hw hf l).2 (fun kv hkv h => hc ⟨kv, hkv, h⟩))
    rw [if_neg hn]
    have e3 : ¬ (∀ kv ∈ l, ¬ Candidate m rf id kv.2) := by
      obtain ⟨kv, hkv, hc⟩ := hsome
      exact fun h => h kv hkv hc
    by_cases hp : ∃ kv ∈ l, Crashes now m rf k id kv.2
    · rw [(Res.filterOk_panic).2 ((cands_panic hw hf l).2 hp)]
      have hp' : ¬ ∀ kv ∈ l, ¬ Crashes now m rf k id kv.2 := by
        obtain ⟨kv, hkv, hc⟩ := hp; exact fun h => h kv hkv hc
      refine ⟨by simp only [true_iff]; exact hp, ?_, ?_, ?_, ?_⟩
      · intro n; simp only [reduceCtorEq, false_iff]; exact fun h => hp' h.1
      · simp only [reduceCtorEq, false_iff]; exact e3
      · simp only [reduceCtorEq, false_iff]; exact fun h => hp' h.1
      · intro e he; cases he
    · have hp' : ∀ kv ∈ l, ¬ Crashes now m rf k id kv.2 := fun kv hkv h => hp ⟨kv, hkv, h⟩
      rw [Res.filterOk_of_not_panic (fun x hx hpan => hp ((cands_panic hw hf l).1 ⟨x, hx, hpan⟩)), names_eq]
      simp only
      rw [List.head?_filterMap]
      have first : ∀ n, l.findSome? (nameOf now m rf k id) = some n ↔ FirstWith (Accepts now m rf k id) l n := by
        intro n
        rw [List.findSome?_eq_some_iff]
        constructor
        · rintro ⟨l1, ⟨n', h⟩, l2, rfl, h1, h2⟩
          obtain ⟨rfl, ha⟩ := (nameOf_some hw hf _ _).1 h1
          refine ⟨l1, h, l2, rfl, ha, ?_⟩
          intro kv hkv hac
          have := h2 kv hkv
          rw [(nameOf_some hw hf kv kv.1).2 ⟨rfl, hac⟩] at this
          cases this
        · rintro ⟨l1, h, l2, rfl, h1, h2⟩
          refine ⟨l1, (n, h), l2, rfl, (nameOf_some hw hf _ _).2 ⟨rfl, h1⟩, ?_⟩
          intro kv hkv
          cases hx : nameOf now m rf k id kv with
          | none => rfl
          | some n' => exact absurd ((nameOf_some hw hf _ _).1 hx).2 (h2 kv hkv)
      have none' : l.findSome? (nameOf now m rf k id) = none ↔ ∀ kv ∈ l, ¬ Accepts now m rf k id kv.2 := by
        rw [List.findSome?_eq_none_iff]
        constructor
        · intro h kv hkv hac
          have := h kv hkv
          rw [(nameOf_some hw hf kv kv.1).2 ⟨rfl, hac⟩] at this
          cases this
        · intro h kv hkv
          cases hx : nameOf now m rf k id kv with
          | none => rfl
          | some n' => exact absurd ((nameOf_some hw hf _ _).1 hx).2 (h kv hkv)
      cases hh : l.findSome? (nameOf now m rf k id) with
      | none =>
        have hna := none'.1 hh
        simp only
        refine ⟨?_, ?_, ?_, ?_, ?_⟩
        · simp only [reduceCtorEq, false_iff]; exact hp
        · intro n; simp only [reduceCtorEq, false_iff]
          rintro ⟨_, hfw⟩
          rw [← first, hh] at hfw; cases hfw
        · simp only [Res.err.injEq, reduceCtorEq, false_iff]; exact e3
        · simp only [true_iff]; exact ⟨hp', hsome, hna⟩
        · intro e he; injection he with he; exact Or.inr he.symm
      | some n =>
        simp only
        refine ⟨?_, ?_, ?_, ?_, ?_⟩
        · simp only [reduceCtorEq, false_iff]; exact hp
        · intro n'
          rw [← first, hh]
          simp only [Res.ok.injEq, Option.some.injEq]
          exact ⟨fun h => ⟨hp', h⟩, fun h => h.2⟩
        · simp only [reduceCtorEq, false_iff]; exact e3
        · simp only [reduceCtorEq, false_iff]
          rintro ⟨_, _, h⟩
          rw [none'.2 h] at hh; cases hh
        · intro e he; cases he

end outcome

/-! ### One key and many keys -/

theorem noHeaders {m : Msg} (h : hasMessageSignature m.headers = false) : extractSignatureHeaders m = .err .noSignatureHeaders := by
  unfold extractSignatureHeaders
  simp only
  rw [if_pos]
  unfold hasMessageSignature at h
  rw [Bool.and_comm, h]; simp

theorem verifySignatures_eq (now : UInt64) (m : Msg) (keys : List (VerifyingKey × Option Str)) (rf : Option Request) :
    verifySignatures now m keys rf =
      (extractSignatureHeaders m >>= fun l => verifyInner now (l.filterMap (entryOf m rf)) keys) := by
  unfold verifySignatures
  cases h : hasMessageSignature m.headers with
  | false => rw [noHeaders h]; rfl
  | true =>
    simp only [not_true, if_false]
    rw [extractSignatures_eq]
    cases extractSignatureHeaders m <;> rfl

theorem verifySignature_eq (now : UInt64) (m : Msg) (k : VerifyingKey) (id : Option Str) (rf : Option Request) :
    verifySignature now m k id rf =
      (extractSignatureHeaders m >>= fun l => verifyOne now (l.filterMap (entryOf m rf)) k id) := by
  unfold verifySignature
  rw [verifySignatures_eq]
  cases extractSignatureHeaders m with
  | err e => rfl
  | panic => rfl
  | ok l =>
    simp only [Res.bind_ok, verifyInner, List.map_cons, List.map_nil]
    cases verifyOne now (l.filterMap (entryOf m rf)) k id <;> rfl

/-- `Ok` and `Err` of one element as a result. -/
def ofExcept {ε α : Type} : Except ε α → Res ε α
  | .ok a => .ok a
  | .error e => .err e

theorem gather_ok {α ε ε' : Type} (l : List (Res ε α)) (rs : List (Except ε α)) :
    (gather l : Res ε' _) = .ok rs ↔ l = rs.map ofExcept := by
  induction l generalizing rs with
  | nil => simp only [gather]; cases rs <;> simp
  | cons a t ih =>
    cases a with
    | panic =>
      simp only [gather, reduceCtorEq, false_iff]
      cases rs with
      | nil => simp
      | cons r rs => cases r <;> simp [ofExcept]
    | ok a =>
      simp only [gather]
      rw [Res.bind_eq_ok]
      constructor
      · rintro ⟨r, h1, h2⟩
        injection h2 with h2; subst h2
        rw [(ih r).1 h1]; rfl
      · intro h
        cases rs with
        | nil => simp at h
        | cons r rs =>
          rw [List.map_cons] at h
          injection h with h1 h2
          cases r with
          | error e => cases h1
          | ok b => injection h1 with h1; subst h1; exact ⟨rs, (ih rs).2 h2, rfl⟩
    | err a =>
      simp only [gather]
      rw [Res.bind_eq_ok]
      constructor
      · rintro ⟨r, h1, h2⟩
        injection h2 with h2; subst h2
        rw [(ih r).1 h1]; rfl
      · intro h
        cases rs with
        | nil => simp at h
        | cons r rs =>
          rw [List.map_cons] at h
          injection h with h1 h2
          cases r with
          | ok e => cases h1
          | error b => injection h1 with h1; subst h1; exact ⟨rs, (ih rs).2 h2, rfl⟩

theorem gather_ne_err {α ε ε' : Type} (l : List (Res ε α)) (e : ε') : (gather l : Res ε' _) ≠ .err e := by
  induction l with
  | nil => simp [gather]
  | cons a t ih =>
    cases a <;> simp only [gather] <;> intro h
    · cases ht : (gather t : Res ε' _) with
      | ok r => rw [ht] at h; cases h
      | err e' => rw [ht] at h; injection h with h; subst h; exact ih ht
      | panic => rw [ht] at h; cases h
    · cases ht : (gather t : Res ε' _) with
      | ok r => rw [ht] at h; cases h
      | err e' => rw [ht] at h; injection h with h; subst h; exact ih ht
      | panic => rw [ht] at h; cases h
    · cases h

theorem gather_panic {α ε ε' : Type} (l : List (Res ε α)) : (gather l : Res ε' _) = .panic ↔ .panic ∈ l := by
  induction l with
  | nil => simp [gather]
  | cons a t ih =>
    cases a with
    | panic => simp [gather]
    | ok a =>
      simp only [gather]
      rw [Res.bind_eq_panic, ih]
      simp
    | err a =>
      simp only [gather]
      rw [Res.bind_eq_panic, ih]
      simp

end Verif
