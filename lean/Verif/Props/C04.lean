import Verif.Props.C01
import Verif.Props.C40
/-!
C04 where it fails, instances and limits of C01 to C03, and C55: adding signatures leaves the verification of others as it was.
-/
namespace Verif
open Sfv Spec
variable {now : UInt64} {m : Msg} {rf : Option Request}

theorem imOfList_nil_iff {κ ν : Type} [DecidableEq κ] {l : List (κ × ν)} (h : imOfList l = []) : l = [] := by
  rcases l.eq_nil_or_concat with rfl | ⟨t, x, rfl⟩
  · rfl
  · exfalso
    obtain ⟨k, v⟩ := x
    rw [List.concat_eq_append, imOfList_append_one] at h
    have := imInsert_mem_self (m := imOfList t) (imOfList_nodup _) (k := k) (v := v) (x := (k, v))
    rw [h] at this
    simpa using this.2 (Or.inr rfl)

theorem parseDict_empty {s : Str} (h : parseDict s = some []) : s.dropWhile isSp = [] := by
  unfold parseDict at h
  split at h
  · rename_i xs hxs
    injection h with h
    have := imOfList_nil_iff h
    subst this
    by_contra hne
    exact parseSep_ne_nil parseMember_prog hne hxs rfl
  · cases h

theorem dropWhile_append_nil {p : Char → Bool} {s t : Str} (h : s.dropWhile p = []) : (s ++ t).dropWhile p = t.dropWhile p := by
  induction s with
  | nil => rfl
  | cons a s ih =>
    rw [List.dropWhile_cons] at h
    split at h
    · rename_i ha; rw [List.cons_append, List.dropWhile_cons, if_pos ha]; exact ih h
    · cases h

theorem join_append_ne (sep : Str) (l k : List Str) (hl : l ≠ []) (hk : k ≠ []) : join sep (l ++ k) = join sep l ++ sep ++ join sep k := by
  induction l with
  | nil => exact absurd rfl hl
  | cons a t ih =>
    cases t with
    | nil =>
      cases k with
      | nil => exact absurd rfl hk
      | cons b k => rfl
    | cons b t =>
      show a ++ sep ++ join sep ((b :: t) ++ k) = a ++ sep ++ join sep (b :: t) ++ sep ++ join sep k
      rw [ih (by simp)]; simp

theorem forall₂_split {α β : Type} {R : α → β → Prop} {a b : List α} {c : List β} (h : List.Forall₂ R (a ++ b) c) :
    ∃ x y, List.Forall₂ R a x ∧ List.Forall₂ R b y ∧ c = x ++ y := by
  induction a generalizing c with
  | nil => exact ⟨[], c, .nil, h, rfl⟩
  | cons u a ih =>
    cases h with
    | cons h1 h2 =>
      obtain ⟨x, y, hx, hy, rfl⟩ := ih h2
      exact ⟨_ :: x, y, .cons h1 hx, hy, rfl⟩

/-- C04 is false when the existing fields are empty dictionaries: whatever is then signed, the signatures can no longer be read, because
the lines are joined to a text that starts with a comma. -/
theorem C04_empty_breaks (hw : WfHeaders m.headers) (hf : ∀ r, rf = some r → WfHeaders r.headers) (h0 : Carries m.headers [])
    {l : List Signer} (hl : l ≠ []) {h' : Headers} (h : setSignatures m l rf = (h', .ok ())) : ¬ ∃ l', Carries h' l' := by
  obtain ⟨hs, h1, _, rfl⟩ := (setSignatures_ok hw hf l h').1 h
  rintro ⟨l', ts', us', a', b', c1, c2, c3, c4, c5, c6, c7⟩
  obtain ⟨ts, us, a, b, d1, d2, d3, d4, d5, d6, d7⟩ := h0
  have hb : b = [] := by have := d7.order; simpa using this.symm
  subst hb
  have hsp := parseDict_empty d6
  rw [fieldLines_append, fieldLines_sigLines_input] at c1
  have hne : hs ≠ [] := by rintro rfl; cases h1; exact hl rfl
  obtain ⟨ts1, ts2, e1, e2, rfl⟩ : ∃ ts1 ts2, LineTexts (fieldLines m.headers (c! "signature-input")) ts1 ∧
      LineTexts (hs.map fun sh => utf8 sh.inputValue) ts2 ∧ ts' = ts1 ++ ts2 := by
    obtain ⟨x, y, hx, hy, e⟩ := forall₂_split c1
    exact ⟨x, y, hx, hy, e⟩
  have := lineTexts_inj d1 e1
  subst this
  have hne2 : ts2 ≠ [] := by
    rintro rfl
    cases hs with
    | nil => exact hne rfl
    | cons a t => cases e2
  rw [join_append_ne _ _ _ d3 hne2, List.append_assoc] at c6
  unfold parseDict at c6
  rw [dropWhile_append_nil hsp] at c6
  have : parseSep parseMember ((c! ", " ++ join (c! ", ") ts2).dropWhile isSp) = none := by
    rw [show (c! ", " ++ join (c! ", ") ts2).dropWhile isSp = ',' :: ' ' :: join (c! ", ") ts2 from rfl]
    rw [parseSep_eq parseMember_prog (by simp)]
    rfl
  rw [this] at c6
  cases c6

/-- Such a message exists: both fields there with an empty line. -/
theorem C04_false : ∃ (r : Request) (p : SigParams) (k : SigningKey) (r' : Request), WfHeaders r.headers ∧ Carries r.headers [] ∧
    SafeParams p ∧ r.setSignature p k none = (r', .ok ()) ∧ ¬ ∃ l', Carries r'.headers l' := by
  have w : WfHeaders [(c! "signature", utf8 []), (c! "signature-input", utf8 [])] := by
    intro kv hkv
    simp only [List.mem_cons, List.not_mem_nil, or_false] at hkv
    rcases hkv with rfl | rfl <;> exact ⟨by decide, by decide, by decide⟩
  have e : Carries [(c! "signature", utf8 []), (c! "signature-input", utf8 [])] [] :=
    (extractSignatureHeaders_ok (m := .req { exReq with headers := [(c! "signature", utf8 []), (c! "signature-input", utf8 [])] }) w []).1 (by decide)
  refine ⟨{ exReq with headers := [(c! "signature", utf8 []), (c! "signature-input", utf8 [])] }, wParams (c! "k") wIds, toySign 1, _, w, e,
    wParams_safe (by decide), rfl, ?_⟩
  exact C04_empty_breaks (m := .req { exReq with headers := [(c! "signature", utf8 []), (c! "signature-input", utf8 [])] }) (rf := none) w (by simp) e
    (l := [(wParams (c! "k") wIds, toySign 1, none)]) (by simp) rfl

/-! ### Keys of the library are key pairs -/

theorem shared_pair (k : SharedKey) : KeyPair k.signing k.verifying := by
  intro d s h
  cases k
  injection h with h; subst h
  simp [SharedKey.verifying, SharedKey.verify]

/-- A scheme is correct: what it signs parses as a signature that it accepts, whatever the randomness. -/
def CorrectScheme (S : Scheme) : Prop := ∀ rnd k d s, S.sign rnd k d = some s → ∃ g, S.sigOf s = some g ∧ S.verify (S.pub k) d g = true

theorem signRes_ok {o : Option Bytes} {s : Bytes} (h : signRes o = .ok s) : o = some s := by
  cases o with
  | none => cases h
  | some x => injection h with h; rw [h]

theorem verifyRes_of {S : Scheme} (h : CorrectScheme S) {rnd : Bytes} {k : S.SK} {d s : Bytes} (hs : S.sign rnd k d = some s) :
    verifyRes S (S.pub k) d s = .ok () := by
  obtain ⟨g, h1, h2⟩ := h rnd k d s hs
  unfold verifyRes
  rw [h1]; simp only; rw [if_pos h2]

/-- Asymmetric keys are key pairs when the five schemes are correct and ECDSA signatures have their fixed length. -/
theorem secret_pair {P : Prims} (h1 : CorrectScheme P.p256) (h2 : CorrectScheme P.p384) (h3 : CorrectScheme P.ed25519) (h4 : CorrectScheme P.rsa15)
    (h5 : CorrectScheme P.rsaPss) (l1 : ∀ rnd k d s, P.p256.sign rnd k d = some s → s.length = 64)
    (l2 : ∀ rnd k d s, P.p384.sign rnd k d = some s → s.length = 96) (k : SecretKey P) (rnd : Bytes) :
    KeyPair (k.signing rnd) k.publicKey.verifying := by
  intro d s h
  cases k with
  | ecdsaP256Sha256 k =>
    have h := signRes_ok h
    show (if s.length ≠ 64 then _ else _) = _
    rw [if_neg (by simp [l1 _ _ _ _ h])]; exact verifyRes_of h1 h
  | ecdsaP384Sha384 k =>
    have h := signRes_ok h
    show (if s.length ≠ 96 then _ else _) = _
    rw [if_neg (by simp [l2 _ _ _ _ h])]; exact verifyRes_of h2 h
  | ed25519 k => exact verifyRes_of h3 (signRes_ok h)
  | rsaV15Sha256 k => exact verifyRes_of h4 (signRes_ok h)
  | rsaPssSha512 k => exact verifyRes_of h5 (signRes_ok h)

theorem toyScheme_correct (n : Nat) : CorrectScheme (toyScheme n) := by
  intro rnd k d s h
  injection h with h
  subst h
  exact ⟨_, rfl, beq_self_eq_true (α := Bytes) _⟩

theorem toyScheme_length (n : Nat) (rnd k d s : Bytes) (h : (toyScheme n).sign rnd k d = some s) : s.length = n := by
  injection h with h
  subst h
  simp only [List.length_take, List.length_append, List.length_replicate]
  omega

theorem toy_secret_pair (k : SecretKey toyPrims) (rnd : Bytes) : KeyPair (k.signing rnd) k.publicKey.verifying :=
  secret_pair (toyScheme_correct 64) (toyScheme_correct 96) (toyScheme_correct 64) (toyScheme_correct 256) (toyScheme_correct 256)
    (toyScheme_length 64) (toyScheme_length 96) k rnd

/-! ### Instances of C02 to C04 -/

/-- A response signature that also covers the method of the request. -/
def rIds : List CId := [⟨.field (c! "date"), []⟩, ⟨.derived .method, [.req]⟩]

theorem rParams_safe : SafeParams (wParams (c! "k") rIds) where
  created := by intro t h; injection h with h; subst h; decide
  expires := by intro t h; injection h with h; subst h; decide
  nonce := by intro t h; cases h
  alg := by intro t h; cases h
  keyid := by intro t h; injection h with h; subst h; decide
  tag := by intro t h; cases h
  ids := by
    intro i hi
    simp only [wParams, rIds, List.mem_cons, List.not_mem_nil, or_false] at hi
    rcases hi with rfl | rfl
    · exact ⟨⟨by simp, by simp, by simp, by intro f h; injection h with h; subst h; decide⟩,
        (by intro f h; injection h with h; subst h; decide), by simp, by simp⟩
    · exact ⟨⟨by simp, by simp, by simp, by intro f h; cases h⟩, (by intro f h; cases h), by simp, by simp⟩
  distinct := by simp [wParams, rIds, SameId]

theorem rParams_notSelf : NotSelf (wParams (c! "k") rIds) := by
  intro i hi hr
  simp only [wParams, rIds, List.mem_cons, List.not_mem_nil, or_false] at hi
  rcases hi with rfl | rfl
  · exact ⟨by simp, by intro f h; injection h with h; subst h; decide⟩
  · exact absurd (List.mem_singleton.2 rfl) hr

set_option maxRecDepth 20000 in
example : ∃ s', exRes.setSignature (wParams (c! "k") rIds) (toySign 7) (some (c! "a")) (some exReq) = (s', .ok ()) ∧
    s'.verifySignature 0 (toyVerify 7) (some (c! "k")) (some exReq) = .ok (c! "a") := by
  refine ⟨_, rfl, ?_⟩
  exact C02_response (now := 0) (rf := some exReq) exRes exRes_wf (by rintro r ⟨⟩; exact exReq_wf) (by decide) (by decide) rParams_safe
    rParams_notSelf (name := some (c! "a")) (by decide) (toy_pair 7) rfl (by intro e h; injection h with h; subst h; decide) (Or.inr rfl)

/-- Two signers with keys of the library type. -/
def wSigners : List (Signer × VerifyingKey) :=
  [((wParams (c! "k1") wIds, (SecretKey.ed25519 (P := toyPrims) [1]).signing [], some (c! "a")), (PublicKey.ed25519 (P := toyPrims) [1]).verifying),
   ((wParams (c! "k2") wIds, (toySign 3), none), toyVerify 3)]

set_option maxRecDepth 20000 in
example : ∃ h', setSignatures (.req exReq) (wSigners.map (·.1)) none = (h', .ok ()) ∧
    verifySignatures 50 (.req { exReq with headers := h' }) (wSigners.map fun x => (x.2, x.1.1.keyid)) none =
      .ok [.ok (c! "a"), .ok (c! "sig")] := by
  refine ⟨_, rfl, ?_⟩
  refine C03_batch_distinct (m := .req exReq) (rf := none) exReq_wf (by simp) (by decide) (by decide) wSigners (by simp [wSigners]) ?_ ?_ (by decide) ?_
    (by decide) (by decide) rfl
  · intro x hx
    simp only [wSigners, List.mem_cons, List.not_mem_nil, or_false] at hx
    rcases hx with rfl | rfl
    · exact toy_secret_pair (.ed25519 [1]) []
    · exact toy_pair 3
  · intro x hx
    simp only [wSigners, List.mem_cons, List.not_mem_nil, or_false] at hx
    rcases hx with rfl | rfl
    · exact ⟨wParams_safe (by decide), (by decide : LegalKey (c! "a")), wParams_notSelf _⟩
    · exact ⟨wParams_safe (by decide), (by decide : LegalKey (c! "sig")), wParams_notSelf _⟩
  · intro x hx e he
    simp only [wSigners, List.mem_cons, List.not_mem_nil, or_false] at hx
    rcases hx with rfl | rfl <;> (injection he with he; subst he; decide)

/-- The message with three signatures gets a fourth, or a new one under the label `b`. -/
example : ∃ h' sh, setSignature (.req vReq) (wParams (c! "k") wIds) (toySign 7) none none = (h', .ok ()) ∧ Carries h' (vSigs ++ [(c! "sig", sh)]) := by
  obtain ⟨sh, _, h⟩ := C04_one_new (m := .req vReq) (rf := none) (p := wParams (c! "k") wIds) (k := toySign 7) (name := none) vReq_wf (by simp)
    vReq_carries (by simp [vSigs]) (wParams_safe (by decide)) (by decide) (by decide) rfl
  exact ⟨_, sh, rfl, h⟩
example : ∃ h' sh, setSignature (.req vReq) (wParams (c! "k") wIds) (toySign 7) (some (c! "b")) none = (h', .ok ()) ∧
    Carries h' (vSigs.take 1 ++ (c! "b", sh) :: vSigs.drop 2) := by
  obtain ⟨sh, _, h⟩ := C04_one_replace (m := .req vReq) (rf := none) (p := wParams (c! "k") wIds) (k := toySign 7) (name := some (c! "b")) vReq_wf
    (by simp) (l1 := vSigs.take 1) (l2 := vSigs.drop 2) (wParams_safe (by decide)) (by decide) vReq_carries rfl
  exact ⟨_, sh, rfl, h⟩

/-! ### Limits of C01 and C03 -/

set_option maxRecDepth 20000 in
/-- C01 is false without `NotSelf`: a signature that covers the `signature` field does not verify after it is written. -/
theorem C01_false_self : ∃ (r r' : Request) (p : SigParams) (sk : SigningKey) (vk : VerifyingKey), WfHeaders r.headers ∧ KeyPair sk vk ∧
    fieldLines r.headers (c! "signature") = [] ∧ r.setSignature p sk none = (r', .ok ()) ∧
    r'.verifySignature 0 vk none = .err .invalidSignature :=
  ⟨exReq, _, exParams [⟨.field (c! "signature"), []⟩], toySign 1, toyVerify 1, exReq_wf, toy_pair 1, by decide, rfl, by decide⟩

set_option maxRecDepth 20000 in
/-- C03 is false without the condition on panics: a P-384 and a P-256 signer with the same key id. -/
theorem C03_false_shared_id : ∃ (r : Request) (l : List (Signer × VerifyingKey)) (h' : Headers), WfHeaders r.headers ∧
    (∀ x ∈ l, KeyPair x.1.2.1 x.2) ∧ (∀ x ∈ l, SafeParams x.1.1 ∧ LegalKey x.1.label ∧ NotSelf x.1.1) ∧ (l.map (·.1.label)).Nodup ∧
    setSignatures (.req r) (l.map (·.1)) none = (h', .ok ()) ∧
    verifySignatures 0 (.req { r with headers := h' }) (l.map fun x => (x.2, x.1.1.keyid)) none = .panic := by
  refine ⟨exReq, [((wParams (c! "k") wIds, (SecretKey.ecdsaP384Sha384 (P := toyPrims) [1]).signing [], some (c! "a")),
      (PublicKey.ecdsaP384Sha384 (P := toyPrims) [1]).verifying),
    ((wParams (c! "k") wIds, (SecretKey.ecdsaP256Sha256 (P := toyPrims) [1]).signing [], some (c! "b")),
      (PublicKey.ecdsaP256Sha256 (P := toyPrims) [1]).verifying)], _, exReq_wf, ?_, ?_, by decide, rfl, ?_⟩
  · intro x hx
    simp only [List.mem_cons, List.not_mem_nil, or_false] at hx
    rcases hx with rfl | rfl
    · exact toy_secret_pair (.ecdsaP384Sha384 [1]) []
    · exact toy_secret_pair (.ecdsaP256Sha256 [1]) []
  · intro x hx
    simp only [List.mem_cons, List.not_mem_nil, or_false] at hx
    rcases hx with rfl | rfl
    · exact ⟨wParams_safe (by decide), (by decide : LegalKey (c! "a")), wParams_notSelf _⟩
    · exact ⟨wParams_safe (by decide), (by decide : LegalKey (c! "b")), wParams_notSelf _⟩
  · decide

/-! ### C55 -/

theorem putIn_filter (i : Str) {l : List (Str × SigHeaders)} {sh : SigHeaders} (h1 : sh.params.keyid ≠ some i)
    (h2 : ∀ kv ∈ l, kv.2.params.keyid = some i → kv.1 ≠ sh.name) :
    (putIn l sh).filter (fun kv => kv.2.params.keyid == some i) = l.filter (fun kv => kv.2.params.keyid == some i) := by
  unfold putIn
  split
  · rename_i hm
    clear hm
    induction l with
    | nil => rfl
    | cons a t ih =>
      rw [List.map_cons, List.filter_cons, List.filter_cons, ih (fun kv hkv => h2 kv (by simp [hkv]))]
      by_cases ha : a.1 = sh.name
      · rw [if_pos ha]
        have h3 : a.2.params.keyid ≠ some i := fun e => h2 a (by simp) e ha
        rw [if_neg (by simpa using h1), if_neg (by simpa using h3)]
      · rw [if_neg ha]
  · rw [List.filter_append, List.filter_cons, if_neg (by simpa using h1)]; simp

theorem foldl_putIn_filter (i : Str) {hs : List SigHeaders} {l : List (Str × SigHeaders)} (h1 : ∀ sh ∈ hs, sh.params.keyid ≠ some i)
    (h2 : ∀ kv ∈ l, kv.2.params.keyid = some i → ∀ sh ∈ hs, kv.1 ≠ sh.name) :
    (hs.foldl putIn l).filter (fun kv => kv.2.params.keyid == some i) = l.filter (fun kv => kv.2.params.keyid == some i) := by
  induction hs generalizing l with
  | nil => rfl
  | cons a t ih =>
    have e := putIn_filter i (l := l) (h1 a (by simp)) (fun kv hkv hk => h2 kv hkv hk a (by simp))
    rw [List.foldl_cons, ih (fun sh hsh => h1 sh (by simp [hsh])), e]
    intro kv hkv hk sh hsh
    have : kv ∈ (putIn l a).filter (fun kv => kv.2.params.keyid == some i) := List.mem_filter.2 ⟨hkv, by simpa using hk⟩
    rw [e] at this
    exact h2 kv (List.mem_filter.1 this).1 hk sh (by simp [hsh])

/-- C55: adding signatures with other key ids, under labels that no signature with key id `i` has, does not change what verification
for key id `i` returns, if the signatures with that key id do not cover the signature fields. -/
theorem C55_other_signers (hw : WfHeaders m.headers) (hf : ∀ r, rf = some r → WfHeaders r.headers) {l0 : List (Str × SigHeaders)}
    (h0 : Carries m.headers l0) (hne : l0 ≠ []) (i : Str) (hself : ∀ kv ∈ l0, kv.2.params.keyid = some i → NotSelf kv.2.params)
    {l : List Signer} (hsafe : ∀ x ∈ l, SafeParams x.1 ∧ LegalKey x.label) (hid : ∀ x ∈ l, x.1.keyid ≠ some i)
    (hlab : ∀ kv ∈ l0, kv.2.params.keyid = some i → ∀ x ∈ l, kv.1 ≠ x.label) {h' : Headers} (h : setSignatures m l rf = (h', .ok ()))
    (k : VerifyingKey) : verifySignature now (m.withHeaders h') k (some i) rf = verifySignature now m k (some i) rf := by
  obtain ⟨hs, h1, _, rfl⟩ := (setSignatures_ok hw hf l h').1 h
  have hc : Carries (m.headers ++ hs.flatMap sigLines) (hs.foldl putIn l0) := by
    rcases hasSignatures_putAll (Or.inr ⟨h0, hne⟩) (signed_safe h1 hsafe) with ⟨_, _, e⟩ | ⟨h2, _⟩
    · exfalso
      have hlen : ∀ (hs : List SigHeaders) (l : List (Str × SigHeaders)), l ≠ [] → hs.foldl putIn l ≠ [] := by
        intro hs
        induction hs with
        | nil => exact fun _ h => h
        | cons a t ih =>
          intro l hl
          rw [List.foldl_cons]
          apply ih
          unfold putIn
          split
          · simpa using hl
          · simp
      exact hlen hs l0 hne e
    · exact h2
  have hw' : WfHeaders (m.withHeaders (m.headers ++ hs.flatMap sigLines)).headers := by rw [headers_withHeaders]; exact wf_sigLines hw hs
  refine (C11_only_that_keyid (m := m) (m' := m.withHeaders (m.headers ++ hs.flatMap sigLines)) hw hf hw' hf i h0
    (by rw [headers_withHeaders]; exact hc) ?_ ?_).symm
  · refine (foldl_putIn_filter i ?_ ?_).symm
    · intro sh hsh
      obtain ⟨x, hx, hb⟩ := forall₂_mem_right h1 _ hsh
      rw [hb.params]; exact hid x hx
    · intro kv hkv hk sh hsh
      obtain ⟨x, hx, hb⟩ := forall₂_mem_right h1 _ hsh
      rw [hb.name]; exact hlab kv hkv hk x hx
  · intro kv hkv hk t
    exact (base_after (hself kv hkv hk) hw hf hs t).symm

-- the message with three signatures and a fourth one by another signer
example : ∃ h', setSignature (.req vReq) (wParams (c! "k9") wIds) (toySign 7) none none = (h', .ok ()) ∧
    verifySignature 101 (.req { vReq with headers := h' }) vKey (some (c! "k1")) none = .ok (c! "c") := by
  refine ⟨_, rfl, ?_⟩
  refine (C55_other_signers (m := .req vReq) (rf := none) (l := [(wParams (c! "k9") wIds, toySign 7, none)]) vReq_wf (by simp) vReq_carries
    (by simp [vSigs]) (c! "k1") ?_ ?_ (by decide) (by decide) rfl vKey).trans vReq_outcomes.1
  · intro kv hkv _ i hi _
    simp only [vSigs, List.mem_cons, List.not_mem_nil, or_false] at hkv
    rcases hkv with rfl | rfl | rfl <;> simp only [List.mem_cons, List.not_mem_nil, or_false] at hi
    · rcases hi with rfl | rfl
      · exact ⟨by simp, by intro f h; injection h with h; subst h; decide⟩
      · exact ⟨by simp, by intro f h; cases h⟩
    · subst hi; exact ⟨by simp, by intro f h; cases h⟩
    · subst hi; exact ⟨by simp, by intro f h; injection h with h; subst h; decide⟩
  · intro x hx
    rw [List.mem_singleton.1 hx]
    exact ⟨wParams_safe (by decide), (by decide : LegalKey (c! "sig"))⟩

end Verif
