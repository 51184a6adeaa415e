import Verif.Spec.Guard
import Verif.Props.C70
import Verif.Props.C91
import Verif.Props.C18
/-!
C100 A guard in front of the library takes all panics away from verification, and nothing else.
-/
namespace Verif
open Sfv Spec

/-- A key around another one that accepts less: of the data only what `A` allows. -/
def strictKey (k : VerifyingKey) (A : Bytes → Bool) : VerifyingKey :=
  { k with verify := fun d s => match k.verify d s with | .ok () => if A d then .ok () else .err .invalidSignature | r => r }

/-- The verifying keys of the library, and keys around them that accept less. -/
inductive LibraryKey : VerifyingKey → Prop where
  | ofPublic {P : Prims} (k : PublicKey P) : LibraryKey k.verifying
  | ofSecret {P : Prims} (k : SecretKey P) : LibraryKey k.verifying
  | ofShared (k : SharedKey) : LibraryKey k.verifying
  | strict {k : VerifyingKey} (h : LibraryKey k) (A : Bytes → Bool) : LibraryKey (strictKey k A)

/-! ### The guarded key -/

theorem lengthFine_iff {P : Prims} (k : PublicKey P) (d s : Bytes) : Guard.lengthFine k.alg s = false ↔ k.verify d s = .panic := by
  rw [C17_verify_panics_iff]
  cases k <;> simp [Guard.lengthFine, PublicKey.alg]

/-- The guard of a key refuses exactly the signatures on which the key panics. -/
theorem C100_key {vk : VerifyingKey} (h : LibraryKey vk) (d s : Bytes) :
    Guard.lengthFine vk.alg s = false ↔ vk.verify d s = .panic := by
  induction h with
  | strict _ A ih =>
    refine Iff.trans ih ?_
    unfold strictKey
    simp only
    split
    · rename_i e
      rw [e]
      split <;> simp
    · rfl
  | ofPublic k => exact lengthFine_iff k d s
  | ofSecret k =>
    have e : k.verifying.alg = k.publicKey.alg := by cases k <;> rfl
    rw [e]; exact lengthFine_iff k.publicKey d s
  | ofShared k =>
    refine ⟨fun h => ?_, fun h => absurd h (C17_shared_never_panics k d s)⟩
    cases k; cases h

theorem guardKey_never {vk : VerifyingKey} (h : LibraryKey vk) (d s : Bytes) : (Guard.key vk).verify d s ≠ .panic := by
  unfold Guard.key
  simp only
  split
  · rename_i hl
    intro e
    rw [(C100_key h d s).2 e] at hl; cases hl
  · simp

theorem guardKey_same {vk : VerifyingKey} (h : LibraryKey vk) (d s : Bytes) (hp : vk.verify d s ≠ .panic) :
    (Guard.key vk).verify d s = vk.verify d s := by
  unfold Guard.key
  simp only
  rw [if_pos]
  cases hl : Guard.lengthFine vk.alg s with
  | true => rfl
  | false => exact absurd ((C100_key h d s).1 hl) hp

theorem guardKey_ok {vk : VerifyingKey} (h : LibraryKey vk) (d s : Bytes) : (Guard.key vk).verify d s = .ok () ↔ vk.verify d s = .ok () := by
  by_cases hp : vk.verify d s = .panic
  · have hl := (C100_key h d s).2 hp
    rw [hp]
    simp [Guard.key, hl]
  · rw [guardKey_same h d s hp]

/-! ### The guard of the header -/

theorem derivedNames_iff (s : Str) : Guard.derivedNames.contains s = true ↔ ∃ d : Derived, s = d.toStr := by
  rw [List.contains_iff_mem]
  constructor
  · intro h
    simp only [Guard.derivedNames, List.mem_cons, List.not_mem_nil, or_false] at h
    rcases h with h | h | h | h | h | h | h | h | h | h
    · exact ⟨.method, h⟩
    · exact ⟨.targetUri, h⟩
    · exact ⟨.authority, h⟩
    · exact ⟨.scheme, h⟩
    · exact ⟨.requestTarget, h⟩
    · exact ⟨.path, h⟩
    · exact ⟨.query, h⟩
    · exact ⟨.queryParam, h⟩
    · exact ⟨.status, h⟩
    · exact ⟨.signatureParams, h⟩
  · rintro ⟨d, rfl⟩
    cases d <;> decide

theorem strFine_iff (s : Str) : (s.head? != some '@' || Guard.derivedNames.contains s) = false ↔ UnknownDerived s := by
  unfold UnknownDerived
  rw [Bool.or_eq_false_iff, ← Bool.not_eq_true (Guard.derivedNames.contains s), derivedNames_iff]
  simp

theorem serItem_at {it : Item} (h : LegalItem it) (hq : '"' ∉ serItem it) (ha : (serItem it).head? = some '@') : ∃ n, it.bare = .date n := by
  obtain ⟨b, ps⟩ := it
  have hb := h.1
  simp only [serItem, List.mem_append, not_or] at hq ha hb ⊢
  have dig : ∀ n r, (natStr n ++ r).head? ≠ some '@' := by
    intro n r e
    cases hn : natStr n with
    | nil =>
      exact absurd hn (natStr_ne_nil n)
    | cons c t =>
      rw [hn] at e
      simp only [List.cons_append, List.head?_cons, Option.some.injEq] at e
      have := natStr_isDig n c (by rw [hn]; simp)
      rw [e] at this; cases this
  cases b with
  | date n => exact ⟨n, rfl⟩
  | int n =>
    exfalso
    cases n with
    | ofNat n => exact dig n _ ha
    | negSucc n => simp [serBare, serInt] at ha
  | str s => simp [serBare] at hq
  | disp s => simp [serBare] at hq
  | bytes b => simp [serBare] at ha
  | bool b => cases b <;> simp [serBare] at ha
  | tok s =>
    exfalso
    obtain ⟨⟨c, hc, hc'⟩, _⟩ := hb
    cases s with
    | nil => cases hc
    | cons d t =>
      simp only [serBare, List.cons_append, List.head?_cons, Option.some.injEq] at ha hc
      subst ha; subst hc
      revert hc'; decide
  | dec n =>
    exfalso
    simp only [serBare, serDec, List.append_assoc] at ha
    split at ha
    · simp at ha
    · exact dig _ _ ha

theorem badItem_fine {i : Item} (h : LegalItem i) (hb : BadItem i) : Guard.itemFine i = false := by
  unfold BadItem at hb
  by_cases hq : '"' ∈ serItem i
  · rw [ofStr_serItem_str h hq] at hb
    obtain ⟨t, h1, h2⟩ := ofItem_panic.1 hb
    unfold Guard.itemFine
    rw [h1]
    exact (strFine_iff t).2 h2
  · rw [ofStr_serItem_other h hq] at hb
    obtain ⟨t, h1, h2⟩ := ofItem_panic.1 hb
    injection h1 with h1; subst h1
    obtain ⟨n, hn⟩ := serItem_at h hq h2.1
    unfold Guard.itemFine
    rw [hn]

theorem fine_covered {i : Item} (h : Guard.itemFine i = false) (id : CId) : ¬ Wire.CoveredId i id := by
  obtain ⟨b, ps⟩ := i
  rintro (⟨n, h1, h2, _⟩ | ⟨h1, t, h2, _, h3, _⟩)
  · simp only at h1; subst h1
    obtain ⟨ha, hd⟩ := (strFine_iff n).1 h
    generalize id.name = nm at h2
    cases h2 with
    | field hf => exact hf ha
    | @derived d => exact hd d (derivedText_eq d)
  · cases b with
    | str s => exact h1 s rfl
    | date n =>
      rw [(canonItem_iff.1 h2).2] at h3
      exact h3 (by simp [serItem, serBare])
    | _ => cases h

theorem paramFine_iff (kv : Str × Bare) :
    Guard.paramFine kv = false ↔ (kv.1 = c! "created" ∨ kv.1 = c! "expires") ∧ ∃ n : Nat, kv.2 = .int (-(n + 1 : Int)) := by
  obtain ⟨k, v⟩ := kv
  cases v with
  | int n =>
    simp only [Guard.paramFine, Bool.or_eq_false_iff, decide_eq_false_iff_not, not_le, Bare.int.injEq]
    constructor
    · rintro ⟨h1, h2⟩
      refine ⟨?_, (-n - 1).toNat, by omega⟩
      by_contra hh
      rw [not_or] at hh
      simp [hh] at h2
    · rintro ⟨h1, n', h2⟩
      refine ⟨by omega, ?_⟩
      rcases h1 with h1 | h1 <;> simp [h1]
  | _ => simp [Guard.paramFine]

/-- A member that the guard refuses says nothing. -/
theorem fine_member {l : InnerList} (h : Guard.memberFine (.inner l) = false) (p : SigParams) : ¬ Wire.ParamsOf l p := by
  intro hp
  rw [Guard.memberFine, Bool.and_eq_false_iff] at h
  rcases h with h | h
  · obtain ⟨i, h1, h2⟩ := List.all_eq_false.1 h
    obtain ⟨id, _, h3⟩ := forall₂_mem_left hp.covered i h1
    exact fine_covered (by simpa using h2) id h3
  · obtain ⟨kv, h1, h2⟩ := List.all_eq_false.1 h
    obtain ⟨h3, n, h4⟩ := (paramFine_iff kv).1 (by simpa using h2)
    obtain ⟨k, v⟩ := kv
    simp only at h3 h4; subst h4
    rcases h3 with rfl | rfl
    · have := hp.created.1 _ h1; omega
    · have := hp.expires.1 _ h1; omega

/-- A member on which the library panics is refused by the guard. -/
theorem panic_member {e : Entry} (hl : LegalEntry e) (h : SigParams.ofEntry e = .panic) : Guard.memberFine e = false := by
  obtain ⟨l, rfl, h'⟩ := (C16_member_panics_iff e).1 h
  rw [Guard.memberFine, Bool.and_eq_false_iff]
  rcases h' with ⟨l1, i, l2, h1, _, h2⟩ | ⟨_, _, _, kv, h1, h2⟩
  · refine Or.inl (List.all_eq_false.2 ⟨i, by rw [h1]; simp, ?_⟩)
    rw [badItem_fine (hl.1 i (by rw [h1]; simp)) h2]; simp
  · refine Or.inr (List.all_eq_false.2 ⟨kv, h1, ?_⟩)
    rw [(paramFine_iff kv).2 h2]; simp

section
variable {now : UInt64} {m : Msg} {rf : Option Request} {id : Option Str}

/-- C100: the library reads no signatures in headers that the guard refuses. -/
theorem C100_refused (hw : WfHeaders m.headers) (h : Guard.headersFine m.headers = false) (l : List (Str × SigHeaders)) :
    ¬ Wire.Carries m.headers l := by
  rintro ⟨ts, us, h1, _, _, _, a, b, _, hb, hab⟩
  unfold Guard.headersFine at h
  rw [(headerTexts_ok hw hSignatureInput ts).2 (linesText_iff.1 h1)] at h
  rw [commas_eq] at hb
  have hb := (C63_dict _ _).2 hb
  simp only [Guard.textFine, hb] at h
  obtain ⟨kv, k1, k2⟩ := List.all_eq_false.1 h
  obtain ⟨kh, _, _, _, _, il, e, hp⟩ := forall₂_mem_left hab.order kv k1
  rw [e] at k2
  exact fine_member (by simpa using k2) _ hp

/-- C100: reading the signatures of headers that the guard lets through does not panic. -/
theorem C100_passed (hw : WfHeaders m.headers) (h : Guard.headersFine m.headers = true) : extractSignatureHeaders m ≠ .panic := by
  intro hp
  rcases extract_cases hw with ⟨_, he, _⟩ | ⟨_, _, _, he⟩ | ⟨_, _, ts, us, ht⟩
  · rw [he] at hp; cases hp
  · rw [he] at hp; cases hp
  · rw [extract_of_texts hw ht, Res.mapErr_eq_panic] at hp
    obtain ⟨b, h1, kv, h2, h3⟩ := C18_try_parse _ _ hp
    unfold Guard.headersFine at h
    rw [(headerTexts_ok hw hSignatureInput ts).2 ht.1] at h
    simp only [Guard.textFine, h1] at h
    have := List.all_eq_true.1 h kv h2
    rw [panic_member ((parseDict_legal h1).2 kv h2).2 h3] at this
    cases this

/-! ### Verification behind the guard -/

theorem filterOk_same {ε ε' α β : Type} {f g : α → Res ε β} {l : List α} (h : ∀ a ∈ l, f a ≠ .panic → g a = f a)
    (hp : (Res.filterOk f l : Res ε' (List β)) ≠ .panic) : (Res.filterOk g l : Res ε' (List β)) = Res.filterOk f l := by
  have hn : ∀ a ∈ l, f a ≠ .panic := fun a ha e => hp (Res.filterOk_panic.2 ⟨a, ha, e⟩)
  induction l with
  | nil => rfl
  | cons a t ih =>
    have e := h a (by simp) (hn a (by simp))
    have ht := ih (fun b hb => h b (by simp [hb])) (fun e => by
      obtain ⟨b, h1, h2⟩ := Res.filterOk_panic.1 e
      exact hn b (by simp [h1]) h2) (fun b hb => hn b (by simp [hb]))
    unfold Res.filterOk
    rw [e, ht]

theorem guard_verifyOne {vk : VerifyingKey} (hk : LibraryKey vk) (map : List (Str × (SigBase × SigHeaders)))
    (hp : verifyOne now map vk id ≠ .panic) : verifyOne now map (Guard.key vk) id = verifyOne now map vk id := by
  rw [verifyOne_eq] at hp
  rw [verifyOne_eq, verifyOne_eq]
  by_cases h0 : filterKeyId map id = []
  · rw [if_pos h0, if_pos h0]
  · rw [if_neg h0] at hp
    rw [if_neg h0, if_neg h0]
    have hx : (Res.filterOk (tryOne now vk) (filterKeyId map id) : Res HyperErr (List Str)) ≠ .panic := by
      intro e; rw [e] at hp; exact hp rfl
    rw [filterOk_same (f := tryOne now vk) (g := tryOne now (Guard.key vk)) _ hx]
    intro a _ ha
    unfold tryOne SigBase.verify at ha ⊢
    split
    · rfl
    · rename_i he
      rw [if_neg he] at ha
      rw [guardKey_same hk]
      intro e; rw [e] at ha; exact ha rfl

/-- C100: verification behind the guard never panics, whatever the message, the time and the corresponding request. -/
theorem C100_never_panics (hw : WfHeaders m.headers) (hf : ∀ r, rf = some r → WfHeaders r.headers) (keys : List (VerifyingKey × Option Str))
    (hk : ∀ ki ∈ keys, LibraryKey ki.1) : Guard.verifyAll now m keys rf ≠ .panic := by
  unfold Guard.verifyAll Guard.call
  split
  · rename_i hg
    rw [Ne, Res.mapErr_eq_panic, verifySignatures_eq, Res.bind_eq_panic]
    rintro (h | ⟨l, _, h⟩)
    · exact C100_passed hw hg h
    · unfold verifyInner at h
      rw [gather_panic] at h
      obtain ⟨ki', h1, h2⟩ := List.mem_map.1 h
      obtain ⟨ki, h3, rfl⟩ := List.mem_map.1 h1
      obtain ⟨kv, _, t, _, _, _, h4⟩ := (verifyOne_cases hw hf l).1.1 h2
      exact guardKey_never (hk ki h3) _ _ h4
  · simp

/-- C100: where the library does not panic, the guard changes nothing: the result is the same, or the guard refuses a message that the
library refuses too. -/
theorem C100_same (hw : WfHeaders m.headers) (keys : List (VerifyingKey × Option Str))
    (hk : ∀ ki ∈ keys, LibraryKey ki.1) (hp : verifySignatures now m keys rf ≠ .panic) :
    Guard.verifyAll now m keys rf = (verifySignatures now m keys rf).mapErr some ∨
      (Guard.verifyAll now m keys rf = .err none ∧ ∃ e, verifySignatures now m keys rf = .err e) := by
  unfold Guard.verifyAll Guard.call
  split
  · rename_i hg
    left
    rw [verifySignatures_eq] at hp ⊢
    rw [verifySignatures_eq]
    cases hl : extractSignatureHeaders m with
    | panic => rfl
    | err e => rfl
    | ok l =>
      rw [hl] at hp
      simp only [Res.bind_ok, verifyInner] at hp ⊢
      rw [Ne, gather_panic] at hp
      rw [List.map_map]
      congr 2
      apply List.map_congr_left
      intro ki hki
      exact guard_verifyOne (hk ki hki) _ (fun e => hp (List.mem_map.2 ⟨ki, hki, e⟩))
  · rename_i hg
    refine Or.inr ⟨rfl, ?_⟩
    cases hv : verifySignatures now m keys rf with
    | panic => exact absurd hv hp
    | err e => exact ⟨e, rfl⟩
    | ok rs =>
      exfalso
      rw [verifySignatures_eq] at hv
      obtain ⟨l, hl, _⟩ := Res.bind_eq_ok.1 hv
      exact C100_refused hw (by simpa using hg) l (wireCarries_iff.2 ((extractSignatureHeaders_ok hw l).1 hl))

/-- C100, one key: behind the guard the call accepts with label `n` exactly if the message carries signatures and `n` is the label of the
first that the key accepts; the others, however long, do not matter. -/
theorem C100_accepts (hw : WfHeaders m.headers) (hf : ∀ r, rf = some r → WfHeaders r.headers) {vk : VerifyingKey} (hk : LibraryKey vk) (n : Str) :
    Guard.verify now m vk id rf = .ok n ↔
      ∃ l, Wire.Carries m.headers l ∧ ∃ l1 h l2, l = l1 ++ (n, h) :: l2 ∧ Wire.Checked now m rf vk id h (.ok ()) ∧
        ∀ kv ∈ l1, ¬ Wire.Checked now m rf vk id kv.2 (.ok ()) := by
  have hc : ∀ h, Wire.Checked now m rf (Guard.key vk) id h (.ok ()) ↔ Wire.Checked now m rf vk id h (.ok ()) := by
    intro h
    unfold Wire.Checked
    simp only [guardKey_ok hk]
  have hx : ∀ h, ¬ Wire.Checked now m rf (Guard.key vk) id h .panic := by
    rintro h ⟨t, _, _, _, e⟩
    exact guardKey_never hk _ _ e
  unfold Guard.verify Guard.call
  split
  · have e : (verifySignature now m (Guard.key vk) id rf).mapErr some = .ok n ↔ verifySignature now m (Guard.key vk) id rf = .ok n := by
      cases verifySignature now m (Guard.key vk) id rf <;> simp
    rw [e, C65_verify hw hf]
    simp only [hc, hx, not_false_eq_true, implies_true, true_and]
  · rename_i hg
    simp only [reduceCtorEq, false_iff]
    rintro ⟨l, hl, _⟩
    exact C100_refused hw (by simpa using hg) l hl

/-- C100, with the standards: an imported public key behind the guard accepts exactly the messages with a proper signature, and gives the
label of the first. Compare C70_verify, where one signature of a wrong length spoils all. -/
theorem C100_standard (H : Hashes) (L : Libs) (rsa : Bool) {alg : Alg} {b : Bytes} {pk : PublicKey L.prims} {K : StdKey}
    (h : PublicKey.fromBytes rsa alg b = .ok pk) (hK : Holds L alg b K) (hw : WfHeaders m.headers)
    (hf : ∀ r, rf = some r → WfHeaders r.headers) (hb : Bounded m rf) (n : Str) :
    Guard.verify now m pk.verifying id rf = .ok n ↔
      ∃ l, Wire.Carries m.headers l ∧ ∃ l1 h l2, l = l1 ++ (n, h) :: l2 ∧ Proper H L K now m rf id h ∧
        ∀ kv ∈ l1, ¬ Proper H L K now m rf id kv.2 := by
  rw [C100_accepts hw hf (.ofPublic pk)]
  refine exists_congr fun l => and_congr_right fun hl => ?_
  have a : ∀ kv ∈ l, (Wire.Checked now m rf pk.verifying id kv.2 (.ok ()) ↔ Proper H L K now m rf id kv.2) := by
    intro kv hkv
    unfold Wire.Checked Proper
    refine exists_congr fun t => and_congr_right fun ht => and_congr_right fun _ => and_congr_right fun _ => ?_
    exact (C70_follows H L rsa h hK _ _ (hb l hl kv hkv t ht)).1
  constructor
  · rintro ⟨l1, x, l2, rfl, h1, h2⟩
    exact ⟨l1, x, l2, rfl, (a (n, x) (by simp)).1 h1, fun kv hkv e => h2 kv hkv ((a kv (by simp [hkv])).2 e)⟩
  · rintro ⟨l1, x, l2, rfl, h1, h2⟩
    exact ⟨l1, x, l2, rfl, (a (n, x) (by simp)).2 h1, fun kv hkv e => h2 kv hkv ((a kv (by simp [hkv])).1 e)⟩

/-- C100: what can be asked of a message without a key does not panic behind the guard, and is the same where the library answers. -/
theorem C100_asked (rsa : Bool) (hw : WfHeaders m.headers) :
    (Guard.call m (getAlgKeyIds rsa m) ≠ .panic ∧ ∀ r, getAlgKeyIds rsa m = .ok r ↔ Guard.call m (getAlgKeyIds rsa m) = .ok r) ∧
    (Guard.call m (getSignatureParams m) ≠ .panic ∧ ∀ r, getSignatureParams m = .ok r ↔ Guard.call m (getSignatureParams m) = .ok r) ∧
    (Guard.call m (extractSignatures m rf) ≠ .panic ∧ ∀ r, extractSignatures m rf = .ok r ↔ Guard.call m (extractSignatures m rf) = .ok r) := by
  obtain ⟨_, _, _, _, p1, p2, p3, _⟩ := C49_fail_alike (now := 0) (m := m) (rf := rf) rsa
  have key : ∀ {α : Type} (r : Res HyperErr α), (r = .panic ↔ extractSignatureHeaders m = .panic) →
      ((∃ a, r = .ok a) → ∃ l, extractSignatureHeaders m = .ok l) →
      (Guard.call m r ≠ .panic ∧ ∀ a, r = .ok a ↔ Guard.call m r = .ok a) := by
    intro α r h1 h2
    unfold Guard.call
    split
    · rename_i hg
      have := C100_passed hw hg
      cases r with
      | panic => exact absurd (h1.1 rfl) this
      | ok a => simp
      | err e => simp
    · rename_i hg
      refine ⟨by simp, fun a => ?_⟩
      simp only [reduceCtorEq, iff_false]
      intro e
      obtain ⟨l, hl⟩ := h2 ⟨a, e⟩
      exact C100_refused hw (by simpa using hg) l (wireCarries_iff.2 ((extractSignatureHeaders_ok hw l).1 hl))
  refine ⟨key _ p1 ?_, key _ p2 ?_, key _ p3 ?_⟩
  all_goals
    rintro ⟨a, h⟩
    obtain ⟨l, hl, _⟩ := Res.bind_eq_ok.1 h
    exact ⟨l, hl⟩

end

/-! ### Cases -/

def c100Key : VerifyingKey := PublicKey.verifying (P := toyPrims) (.ecdsaP256Sha256 [1])

/-- A request with a signature of one byte, put in by somebody on the way, and a good one. -/
def c100Req (input : Str) : Request where
  method := c! "GET"
  uri := ⟨none, none, c! "/", none⟩
  headers := [(c! "signature-input", utf8 input), (c! "signature-input", utf8 (c! "b=(\"@method\" \"@path\")")),
    (c! "signature", utf8 (c! "a=:AQ==:")),
    (c! "signature", utf8 (c! "b=:" ++ Base64.encode ((1 :: utf8 (c! "\"@method\": GET\n\"@path\": /\n\"@signature-params\": (\"@method\" \"@path\")")).take 64) ++ [':']))]
  body := .data []

theorem c100_wf (input : Str) : WfHeaders (c100Req input).headers := by
  have h1 : WfName (c! "signature-input") := ⟨by decide, by decide, by decide⟩
  have h2 : WfName (c! "signature") := ⟨by decide, by decide, by decide⟩
  intro kv hkv
  simp only [c100Req, List.mem_cons, List.not_mem_nil, or_false] at hkv
  rcases hkv with rfl | rfl | rfl | rfl
  · exact h1
  · exact h1
  · exact h2
  · exact h2

-- the library panics because of the short signature `a`, the guarded call accepts `b`
example : verifySignature 0 (.req (c100Req (c! "a=(\"@path\")"))) c100Key none none = .panic ∧
    Guard.verify 0 (.req (c100Req (c! "a=(\"@path\")"))) c100Key none none = .ok (c! "b") := by decide +kernel

-- the library panics on an unknown derived name, a date and a negative time; the guard refuses them
example : ∀ t ∈ [c! "a=(\"@path\" \"@body\")", c! "a=(@12)", c! "a=(\"@path\");created=-1"],
    verifySignature 0 (.req (c100Req t)) c100Key none none = .panic ∧
    Guard.verify 0 (.req (c100Req t)) c100Key none none = .err none := by decide +kernel

example (t : Str) : Guard.verifyAll 0 (.req (c100Req t)) [(c100Key, none)] none ≠ .panic :=
  C100_never_panics (m := .req (c100Req t)) (c100_wf t) (by simp) _ (by simp only [List.mem_singleton, forall_eq]; exact .ofPublic _)

-- the library reports an error for a date with a text parameter, and the guard refuses it: the second case of `C100_same`
example : verifySignature 0 (.req (c100Req (c! "a=(@12;x=\"\")"))) c100Key none none = .err (.httpSig .invalidComponentName) ∧
    Guard.verify 0 (.req (c100Req (c! "a=(@12;x=\"\")"))) c100Key none none = .err none := by decide +kernel

end Verif
