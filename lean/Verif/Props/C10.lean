import Verif.Proofs.Hyper
import Verif.Props.C16
import Verif.Props.C40
/-!
C10 verification decides what it should, C11 key id filter, C12 expiry, C17 at the level of messages, C31 reported algorithms,
C35 batch verification, C49 inspection functions.
-/
namespace Verif
open Sfv Spec

section
variable {now : UInt64} {m : Msg} {rf : Option Request} {k : VerifyingKey} {id : Option Str}

/-! ### The example message -/

/-- A message with three signatures. The second has no known key id and is expired at 101. -/
def vReq : Request where
  method := c! "GET"
  uri := exUri
  headers := [(c! "date", utf8 (c! "Tue")),
    (c! "signature-input", utf8 (c! "a=(\"date\" \"@status\");keyid=\"k1\", b=(\"@method\");expires=100;keyid=\"k2\"")),
    (c! "signature", utf8 (c! "c=:Aw==:, b=:AQ==:")), (c! "signature", utf8 (c! "a=:Ag==:")),
    (c! "signature-input", utf8 (c! "c=(\"date\");alg=\"ed25519\";keyid=\"k1\""))]
  body := .data []

theorem vReq_wf : WfHeaders vReq.headers := by
  intro kv hkv
  simp only [vReq, List.mem_cons, List.not_mem_nil, or_false] at hkv
  rcases hkv with rfl | rfl | rfl | rfl | rfl <;> exact ⟨by decide, by decide, by decide⟩

/-- A toy key: the signature of a text is one byte below 4; the empty signature panics. -/
def vKey : VerifyingKey where
  verify d s := if s = [] then .panic else if d ≠ [] ∧ s = [1] ∨ s = [3] then .ok () else .err .invalidSignature
  keyId := c! "k1"
  alg := .ed25519

/-- The signatures of the example message. -/
def vSigs : List (Str × SigHeaders) :=
  [(c! "a", ⟨c! "a", [2], { keyid := some (c! "k1"), covered := [⟨.field (c! "date"), []⟩, ⟨.derived .status, []⟩] }⟩),
   (c! "b", ⟨c! "b", [1], { keyid := some (c! "k2"), expires := some 100, covered := [⟨.derived .method, []⟩] }⟩),
   (c! "c", ⟨c! "c", [3], { keyid := some (c! "k1"), alg := some (c! "ed25519"), covered := [⟨.field (c! "date"), []⟩] }⟩)]

set_option maxRecDepth 10000 in
theorem vReq_sigs : extractSignatureHeaders (.req vReq) = .ok vSigs := by decide

theorem vReq_carries : Carries vReq.headers vSigs := (extractSignatureHeaders_ok (m := .req vReq) vReq_wf _).1 vReq_sigs

/-! ### C10 -/

theorem carries_unique {h : Headers} {l l' : List (Str × SigHeaders)} (hw : WfHeaders h) (h1 : Carries h l) (h2 : Carries h l') : l = l' := by
  have e1 := (extractSignatureHeaders_ok (m := .res ⟨0, h, .data []⟩) hw l).2 h1
  have e2 := (extractSignatureHeaders_ok (m := .res ⟨0, h, .data []⟩) hw l').2 h2
  rw [e1] at e2; injection e2

/-- C10: verification succeeds with name `n` exactly when `n` is the first accepted signature of the message, provided the key does
not panic on any candidate. -/
theorem C10_ok_iff (hw : WfHeaders m.headers) (hf : ∀ r, rf = some r → WfHeaders r.headers) (n : Str) :
    verifySignature now m k id rf = .ok n ↔
      ∃ l, Carries m.headers l ∧ (∀ kv ∈ l, ¬ Crashes now m rf k id kv.2) ∧ FirstWith (Accepts now m rf k id) l n := by
  rw [verifySignature_eq, Res.bind_eq_ok]
  constructor
  · rintro ⟨l, h1, h2⟩
    exact ⟨l, (extractSignatureHeaders_ok hw l).1 h1, ((verifyOne_cases hw hf l).2.1 n).1 h2⟩
  · rintro ⟨l, h1, h2⟩
    exact ⟨l, (extractSignatureHeaders_ok hw l).2 h1, ((verifyOne_cases hw hf l).2.1 n).2 h2⟩

theorem extract_ne_invalid : extractSignatureHeaders m ≠ .err .invalidSignature := by
  intro h
  unfold extractSignatureHeaders at h
  simp only at h
  split at h
  · cases h
  rcases headerTexts_or m.headers hSignatureInput with ⟨ts, h1⟩ | h1
  · rw [h1] at h
    rcases headerTexts_or m.headers hSignature with ⟨us, h2⟩ | h2
    · rw [h2] at h
      simp only [Res.bind_ok] at h
      cases hp : SigHeaders.tryParse (join (c! ", ") us) (join (c! ", ") ts) <;> rw [hp] at h <;> cases h
    · rw [h2] at h; cases h
  · rw [h1] at h; cases h

/-- C10: `InvalidSignature` means that there are candidates and none is accepted. -/
theorem C10_invalid_iff (hw : WfHeaders m.headers) (hf : ∀ r, rf = some r → WfHeaders r.headers) :
    verifySignature now m k id rf = .err .invalidSignature ↔
      ∃ l, Carries m.headers l ∧ (∀ kv ∈ l, ¬ Crashes now m rf k id kv.2) ∧ (∃ kv ∈ l, Candidate m rf id kv.2) ∧
        ∀ kv ∈ l, ¬ Accepts now m rf k id kv.2 := by
  rw [verifySignature_eq]
  constructor
  · intro h
    cases hl : extractSignatureHeaders m with
    | panic => rw [hl] at h; cases h
    | ok l =>
      rw [hl] at h
      exact ⟨l, (extractSignatureHeaders_ok hw l).1 hl, (verifyOne_cases hw hf l).2.2.2.1.1 h⟩
    | err e =>
      rw [hl] at h
      injection h with h; subst h
      exact absurd hl extract_ne_invalid
  · rintro ⟨l, h1, h2⟩
    rw [(extractSignatureHeaders_ok hw l).2 h1]
    exact (verifyOne_cases hw hf l).2.2.2.1.2 h2

/-- The outcome of one key is never any other error. -/
theorem verifyOne_err {l : List (Str × SigHeaders)} (hw : WfHeaders m.headers) (hf : ∀ r, rf = some r → WfHeaders r.headers) {e : HyperErr}
    (h : verifyOne now (l.filterMap (entryOf m rf)) k id = .err e) : e = .noSignatureHeaders ∨ e = .invalidSignature :=
  (verifyOne_cases hw hf l).2.2.2.2 e h

/-- C10: `NoSignatureHeaders` means that a field is missing or that no signature is a candidate. -/
theorem C10_no_candidate_iff (hw : WfHeaders m.headers) (hf : ∀ r, rf = some r → WfHeaders r.headers) :
    verifySignature now m k id rf = .err .noSignatureHeaders ↔
      fieldLines m.headers (c! "signature-input") = [] ∨ fieldLines m.headers (c! "signature") = [] ∨
        ∃ l, Carries m.headers l ∧ ∀ kv ∈ l, ¬ Candidate m rf id kv.2 := by
  rw [verifySignature_eq]
  constructor
  · intro h
    rcases extract_cases hw with ⟨ha, _, _⟩ | ⟨_, _, _, he⟩ | ⟨_, _, ts, us, ht⟩
    · rcases ha with ha | ha
      · exact Or.inl ha
      · exact Or.inr (Or.inl ha)
    · rw [he] at h; cases h
    · refine Or.inr (Or.inr ?_)
      cases hl : extractSignatureHeaders m with
      | panic => rw [hl] at h; cases h
      | ok l =>
        rw [hl] at h
        exact ⟨l, (extractSignatureHeaders_ok hw l).1 hl, (verifyOne_cases hw hf l).2.2.1.1 h⟩
      | err e =>
        rw [hl] at h
        injection h with h; subst h
        rw [extract_of_texts hw ht] at hl
        cases hp : SigHeaders.tryParse (join (c! ", ") us) (join (c! ", ") ts) <;> rw [hp] at hl <;> cases hl
  · rintro (h | h | ⟨l, h1, h2⟩)
    · rcases extract_cases hw with ⟨_, he, _⟩ | ⟨hn, _⟩ | ⟨hn, _⟩
      · rw [he]; rfl
      · exact absurd h hn
      · exact absurd h hn
    · rcases extract_cases hw with ⟨_, he, _⟩ | ⟨_, hn, _⟩ | ⟨_, hn, _⟩
      · rw [he]; rfl
      · exact absurd h hn
      · exact absurd h hn
    · rw [(extractSignatureHeaders_ok hw l).2 h1]
      exact (verifyOne_cases hw hf l).2.2.1.2 h2

/-- C10: the remaining errors are those of reading the two fields: a line that is not visible text, or texts that do not parse
to dictionaries that belong together. There is no other error. -/
theorem C10_other_errors (hw : WfHeaders m.headers) (hf : ∀ r, rf = some r → WfHeaders r.headers) (e : HyperErr)
    (h1 : e ≠ .noSignatureHeaders) (h2 : e ≠ .invalidSignature) :
    verifySignature now m k id rf = .err e ↔
      (fieldLines m.headers (c! "signature-input") ≠ [] ∧ fieldLines m.headers (c! "signature") ≠ [] ∧
        (¬ ∃ ts us, SigTexts m.headers ts us) ∧ e = .toStr) ∨
      ∃ ts us e', SigTexts m.headers ts us ∧ SigHeaders.tryParse (join (c! ", ") us) (join (c! ", ") ts) = .err e' ∧ e = .httpSig e' := by
  rw [verifySignature_eq]
  rcases extract_cases hw with ⟨ha, he, hno⟩ | ⟨ha, hb, hno, he⟩ | ⟨ha, hb, ts, us, ht⟩
  · rw [he]
    constructor
    · intro h; injection h with h; exact absurd h.symm h1
    · rintro (⟨x, y, _⟩ | ⟨ts, us, _, ht, _⟩)
      · rcases ha with ha | ha
        · exact absurd ha x
        · exact absurd ha y
      · exact absurd ⟨ts, us, ht⟩ hno
  · rw [he]
    constructor
    · intro h; injection h with h; exact Or.inl ⟨ha, hb, hno, h.symm⟩
    · rintro (⟨_, _, _, rfl⟩ | ⟨ts, us, _, ht, _⟩)
      · rfl
      · exact absurd ⟨ts, us, ht⟩ hno
  · rw [extract_of_texts hw ht]
    cases hp : SigHeaders.tryParse (join (c! ", ") us) (join (c! ", ") ts) with
    | panic =>
      constructor
      · intro h; cases h
      · rintro (⟨_, _, hno, _⟩ | ⟨ts', us', e', ht', hp', _⟩)
        · exact absurd ⟨ts, us, ht⟩ hno
        · rw [lineTexts_inj ht'.1 ht.1, lineTexts_inj ht'.2.1 ht.2.1, hp] at hp'; cases hp'
    | err e' =>
      constructor
      · intro h; injection h with h; exact Or.inr ⟨ts, us, e', ht, hp, h.symm⟩
      · rintro (⟨_, _, hno, _⟩ | ⟨ts', us', e'', ht', hp', rfl⟩)
        · exact absurd ⟨ts, us, ht⟩ hno
        · rw [lineTexts_inj ht'.1 ht.1, lineTexts_inj ht'.2.1 ht.2.1, hp] at hp'; injection hp' with hp'; subst hp'; rfl
    | ok l =>
      constructor
      · intro h
        rcases verifyOne_err hw hf h with h | h
        · exact absurd h h1
        · exact absurd h h2
      · rintro (⟨_, _, hno, _⟩ | ⟨ts', us', e', ht', hp', _⟩)
        · exact absurd ⟨ts, us, ht⟩ hno
        · rw [lineTexts_inj ht'.1 ht.1, lineTexts_inj ht'.2.1 ht.2.1, hp] at hp'; cases hp'

/-- C17 for messages: verification panics exactly when parsing the two fields panics (C16 says when) or the key panics on a candidate
(C17_verify_panics_iff says when). -/
theorem C17_message_panics_iff (hw : WfHeaders m.headers) (hf : ∀ r, rf = some r → WfHeaders r.headers) :
    verifySignature now m k id rf = .panic ↔
      (∃ ts us, SigTexts m.headers ts us ∧ SigHeaders.tryParse (join (c! ", ") us) (join (c! ", ") ts) = .panic) ∨
      ∃ l, Carries m.headers l ∧ ∃ kv ∈ l, Crashes now m rf k id kv.2 := by
  rw [verifySignature_eq, Res.bind_eq_panic]
  constructor
  · rintro (h | ⟨l, h1, h2⟩)
    · left
      rcases extract_cases hw with ⟨_, he, _⟩ | ⟨_, _, _, he⟩ | ⟨_, _, ts, us, ht⟩
      · rw [he] at h; cases h
      · rw [he] at h; cases h
      · rw [extract_of_texts hw ht, Res.mapErr_eq_panic] at h
        exact ⟨ts, us, ht, h⟩
    · exact Or.inr ⟨l, (extractSignatureHeaders_ok hw l).1 h1, (verifyOne_cases hw hf l).1.1 h2⟩
  · rintro (⟨ts, us, ht, hp⟩ | ⟨l, h1, h2⟩)
    · left; rw [extract_of_texts hw ht, hp]; rfl
    · exact Or.inr ⟨l, (extractSignatureHeaders_ok hw l).2 h1, (verifyOne_cases hw hf l).1.2 h2⟩

/-- C17 for messages and a public key of the library: if parsing does not panic, a panic needs an ECDSA key and a candidate whose
signature has a wrong length; and such a candidate that is in time does cause it. -/
theorem C17_message_public_key {P : Prims} (pk : PublicKey P) (hw : WfHeaders m.headers) (hf : ∀ r, rf = some r → WfHeaders r.headers)
    {l : List (Str × SigHeaders)} (hl : Carries m.headers l) :
    verifySignature now m pk.verifying id rf = .panic ↔
      ∃ kv ∈ l, Candidate m rf id kv.2 ∧ InTime now kv.2 ∧
        ((pk.alg = .ecdsaP256Sha256 ∧ kv.2.signature.length ≠ 64) ∨ (pk.alg = .ecdsaP384Sha384 ∧ kv.2.signature.length ≠ 96)) := by
  have hx := (extractSignatureHeaders_ok hw l).2 hl
  rw [verifySignature_eq, hx, Res.bind_ok, (verifyOne_cases hw hf l).1]
  constructor
  · rintro ⟨kv, hkv, t, h1, h2, h3, h4⟩
    exact ⟨kv, hkv, ⟨⟨t, h1⟩, h2⟩, h3, (C17_verify_panics_iff pk _ _).1 h4⟩
  · rintro ⟨kv, hkv, ⟨⟨t, h1⟩, h2⟩, h3, h4⟩
    exact ⟨kv, hkv, t, h1, h2, h3, (C17_verify_panics_iff pk _ _).2 h4⟩

/-- C17 for messages and a shared key: only the parser can panic. -/
theorem C17_message_shared_key (sk : SharedKey) (hw : WfHeaders m.headers) (hf : ∀ r, rf = some r → WfHeaders r.headers) :
    verifySignature now m sk.verifying id rf = .panic ↔
      ∃ ts us, SigTexts m.headers ts us ∧ SigHeaders.tryParse (join (c! ", ") us) (join (c! ", ") ts) = .panic := by
  rw [C17_message_panics_iff hw hf]
  constructor
  · rintro (h | ⟨l, _, kv, _, t, _, _, _, h⟩)
    · exact h
    · exact absurd h (C17_shared_never_panics sk _ _)
  · exact Or.inl

set_option maxRecDepth 10000 in
/-- The example: with key id k1 signature `c` is found behind the unusable `a`; without key id `b` while it is in time. -/
theorem vReq_outcomes :
    verifySignature 101 (.req vReq) vKey (some (c! "k1")) none = .ok (c! "c") ∧
    verifySignature 101 (.req vReq) vKey none none = .ok (c! "c") ∧
    verifySignature 100 (.req vReq) vKey none none = .ok (c! "b") ∧
    verifySignature 101 (.req vReq) vKey (some (c! "k2")) none = .err .invalidSignature ∧
    verifySignature 101 (.req vReq) vKey (some (c! "k3")) none = .err .noSignatureHeaders := by decide

example : FirstWith (Accepts 101 (.req vReq) none vKey none) vSigs (c! "c") := by
  obtain ⟨l, h1, _, h2⟩ := (C10_ok_iff (m := .req vReq) vReq_wf (by simp) _).1 vReq_outcomes.2.1
  rw [← carries_unique vReq_wf h1 vReq_carries]; exact h2
example : ∀ kv ∈ vSigs, ¬ Candidate (.req vReq) none (some (c! "k3")) kv.2 := by
  rcases (C10_no_candidate_iff (m := .req vReq) vReq_wf (by simp)).1 vReq_outcomes.2.2.2.2 with h | h | ⟨l, h1, h2⟩
  · exact absurd h (by decide)
  · exact absurd h (by decide)
  · rw [← carries_unique vReq_wf h1 vReq_carries]; exact h2
-- a P-256 key panics on the example: its signatures are one byte long
example : verifySignature 101 (.req vReq) (PublicKey.verifying (P := toyPrims) (.ecdsaP256Sha256 [1])) none none = .panic :=
  (C17_message_public_key (m := .req vReq) _ vReq_wf (by simp) vReq_carries).2
    ⟨_, List.mem_cons_of_mem _ (List.mem_cons_of_mem _ (List.mem_cons_self ..)),
      (candidate_iff (m := .req vReq) vReq_wf (by simp) _).2 ⟨⟨[⟨⟨.field (c! "date"), []⟩, .plain (c! "Tue")⟩], _⟩, rfl, by simp [ForKey]⟩,
      (by intro e h; cases h), Or.inl ⟨rfl, by decide⟩⟩

/-! ### C11 -/

/-- C11: success with a key id comes from a signature with that key id. -/
theorem C11_never_other_keyid (hw : WfHeaders m.headers) (hf : ∀ r, rf = some r → WfHeaders r.headers) (i n : Str)
    (h : verifySignature now m k (some i) rf = .ok n) :
    ∃ l sh, Carries m.headers l ∧ (n, sh) ∈ l ∧ sh.params.keyid = some i ∧ Accepts now m rf k none sh := by
  obtain ⟨l, h1, _, l1, sh, l2, rfl, ⟨t, h3, h4, h5, h6⟩, _⟩ := (C10_ok_iff hw hf n).1 h
  exact ⟨_, sh, h1, by simp, h4 i rfl, t, h3, by simp [ForKey], h5, h6⟩

theorem firstWith_filter (q : SigHeaders → Prop) (t : Str × SigHeaders → Bool) (hq : ∀ kv, q kv.2 → t kv = true) (l : List (Str × SigHeaders))
    (n : Str) : FirstWith q (l.filter t) n ↔ FirstWith q l n := by
  induction l with
  | nil => rfl
  | cons a s ih =>
    have step : ∀ (b : Str × SigHeaders) (r : List (Str × SigHeaders)), FirstWith q (b :: r) n ↔ (q b.2 ∧ b.1 = n) ∨ (¬ q b.2 ∧ FirstWith q r n) := by
      intro b r
      constructor
      · rintro ⟨l1, h, l2, e, h1, h2⟩
        cases l1 with
        | nil => injection e with e1 e2; subst e1; exact Or.inl ⟨h1, rfl⟩
        | cons c l1 =>
          injection e with e1 e2; subst e1
          exact Or.inr ⟨h2 b (by simp), l1, h, l2, e2, h1, fun kv hkv => h2 kv (by simp [hkv])⟩
      · rintro (⟨h1, rfl⟩ | ⟨h1, l1, h, l2, rfl, h2, h3⟩)
        · exact ⟨[], b.2, r, rfl, h1, by simp⟩
        · exact ⟨b :: l1, h, l2, rfl, h2, by
            intro kv hkv
            rcases List.mem_cons.1 hkv with rfl | hkv
            · exact h1
            · exact h3 kv hkv⟩
    rw [List.filter_cons]
    split
    · rw [step, step, ih]
    · rename_i ht
      rw [step, ih]
      have : ¬ q a.2 := fun h => ht (hq a h)
      simp [this]

/-- C11: the outcome depends only on the signatures with the key id. Two messages that carry the same signatures with this key
id, and from which the bases of these signatures are rebuilt alike, give the same outcome. -/
theorem C11_only_that_keyid {m' : Msg} {rf' : Option Request} (hw : WfHeaders m.headers) (hf : ∀ r, rf = some r → WfHeaders r.headers)
    (hw' : WfHeaders m'.headers) (hf' : ∀ r, rf' = some r → WfHeaders r.headers) (i : Str) {l l' : List (Str × SigHeaders)}
    (hl : Carries m.headers l) (hl' : Carries m'.headers l')
    (h : l.filter (fun kv => kv.2.params.keyid == some i) = l'.filter (fun kv => kv.2.params.keyid == some i))
    (hb : ∀ kv ∈ l, kv.2.params.keyid = some i → ∀ t, BaseOf m rf kv.2.params t ↔ BaseOf m' rf' kv.2.params t) :
    verifySignature now m k (some i) rf = verifySignature now m' k (some i) rf' := by
  rw [verifySignature_eq, verifySignature_eq, (extractSignatureHeaders_ok hw l).2 hl, (extractSignatureHeaders_ok hw' l').2 hl']
  simp only [Res.bind_ok]
  obtain ⟨p1, o1, n1, i1, e1⟩ := verifyOne_cases (now := now) (k := k) (id := some i) hw hf l
  obtain ⟨p2, o2, n2, i2, e2⟩ := verifyOne_cases (now := now) (k := k) (id := some i) hw' hf' l'
  have key : ∀ (q q' : SigHeaders → Prop), (∀ kv ∈ l, kv.2.params.keyid = some i → (q kv.2 ↔ q' kv.2)) →
      (∀ h, q h → h.params.keyid = some i) → (∀ h, q' h → h.params.keyid = some i) →
      ((∃ kv ∈ l, q kv.2) ↔ ∃ kv ∈ l', q' kv.2) ∧ ∀ n, FirstWith q l n ↔ FirstWith q' l' n := by
    intro q q' hqq hq hq'
    have mem : ∀ kv, kv.2.params.keyid = some i → (kv ∈ l ↔ kv ∈ l') := by
      intro kv hk
      have h1 : kv ∈ l ↔ kv ∈ l.filter (fun kv => kv.2.params.keyid == some i) := by rw [List.mem_filter]; simp [hk]
      have h2 : kv ∈ l' ↔ kv ∈ l'.filter (fun kv => kv.2.params.keyid == some i) := by rw [List.mem_filter]; simp [hk]
      rw [h1, h2, h]
    constructor
    · constructor
      · rintro ⟨kv, hkv, hx⟩; exact ⟨kv, (mem kv (hq _ hx)).1 hkv, (hqq kv hkv (hq _ hx)).1 hx⟩
      · rintro ⟨kv, hkv, hx⟩
        have hkv := (mem kv (hq' _ hx)).2 hkv
        exact ⟨kv, hkv, (hqq kv hkv (hq' _ hx)).2 hx⟩
    · intro n
      rw [← firstWith_filter q (fun kv => kv.2.params.keyid == some i) (fun kv hx => by simp [hq _ hx]) l n,
        ← firstWith_filter q' (fun kv => kv.2.params.keyid == some i) (fun kv hx => by simp [hq' _ hx]) l' n, ← h]
      constructor
      · rintro ⟨l1, sh, l2, e, hx, hy⟩
        have hmem : ∀ kv ∈ l1 ++ (n, sh) :: l2, kv ∈ l ∧ kv.2.params.keyid = some i := by
          intro kv hkv; rw [← e, List.mem_filter] at hkv; exact ⟨hkv.1, by simpa using hkv.2⟩
        refine ⟨l1, sh, l2, e, ?_, ?_⟩
        · have := hmem (n, sh) (by simp); exact (hqq _ this.1 this.2).1 hx
        · intro kv hkv; have := hmem kv (by simp [hkv]); exact fun hz => hy kv hkv ((hqq _ this.1 this.2).2 hz)
      · rintro ⟨l1, sh, l2, e, hx, hy⟩
        have hmem : ∀ kv ∈ l1 ++ (n, sh) :: l2, kv ∈ l ∧ kv.2.params.keyid = some i := by
          intro kv hkv; rw [← e, List.mem_filter] at hkv; exact ⟨hkv.1, by simpa using hkv.2⟩
        refine ⟨l1, sh, l2, e, ?_, ?_⟩
        · have := hmem (n, sh) (by simp); exact (hqq _ this.1 this.2).2 hx
        · intro kv hkv; have := hmem kv (by simp [hkv]); exact fun hz => hy kv hkv ((hqq _ this.1 this.2).1 hz)
  have kc := key (Crashes now m rf k (some i)) (Crashes now m' rf' k (some i))
    (fun kv hkv hi => by unfold Crashes; simp only [hb kv hkv hi]) (fun h ⟨_, _, hx, _⟩ => hx i rfl) (fun h ⟨_, _, hx, _⟩ => hx i rfl)
  have ka := key (Accepts now m rf k (some i)) (Accepts now m' rf' k (some i))
    (fun kv hkv hi => by unfold Accepts; simp only [hb kv hkv hi]) (fun h ⟨_, _, hx, _⟩ => hx i rfl) (fun h ⟨_, _, hx, _⟩ => hx i rfl)
  have kn := key (Candidate m rf (some i)) (Candidate m' rf' (some i))
    (fun kv hkv hi => by unfold Candidate; simp only [hb kv hkv hi]) (fun h ⟨_, hx⟩ => hx i rfl) (fun h ⟨_, hx⟩ => hx i rfl)
  have fa : ∀ (q : SigHeaders → Prop) (s : List (Str × SigHeaders)), (∀ kv ∈ s, ¬ q kv.2) ↔ ¬ ∃ kv ∈ s, q kv.2 := by
    intro q s; constructor
    · rintro h ⟨kv, hkv, hx⟩; exact h kv hkv hx
    · intro h kv hkv hx; exact h ⟨kv, hkv, hx⟩
  symm
  cases hr : verifyOne now (l.filterMap (entryOf m rf)) k (some i) with
  | panic => rw [p2, ← kc.1, ← p1, hr]
  | ok n => rw [o2, fa, ← kc.1, ← ka.2, ← fa, ← o1, hr]
  | err e =>
    rcases e1 e hr with rfl | rfl
    · rw [n2, fa, ← kn.1, ← fa, ← n1, hr]
    · rw [i2, fa, fa, ← kc.1, ← ka.1, ← kn.1, ← fa, ← fa, ← i1, hr]

/-- The example message without signature `b`. -/
def vReq' : Request := { vReq with headers := [(c! "date", utf8 (c! "Tue")),
    (c! "signature-input", utf8 (c! "a=(\"date\" \"@status\");keyid=\"k1\"")),
    (c! "signature", utf8 (c! "c=:Aw==:")), (c! "signature", utf8 (c! "a=:Ag==:")),
    (c! "signature-input", utf8 (c! "c=(\"date\");alg=\"ed25519\";keyid=\"k1\""))] }

theorem vReq'_wf : WfHeaders vReq'.headers := by
  intro kv hkv
  simp only [vReq', List.mem_cons, List.not_mem_nil, or_false] at hkv
  rcases hkv with rfl | rfl | rfl | rfl | rfl <;> exact ⟨by decide, by decide, by decide⟩

set_option maxRecDepth 10000 in
theorem vReq'_carries : Carries vReq'.headers (vSigs.filter (fun kv => kv.1 != c! "b")) :=
  (extractSignatureHeaders_ok (m := .req vReq') vReq'_wf _).1 (by decide)

-- dropping signature `b` changes nothing for key id k1
example : verifySignature now (.req vReq) k (some (c! "k1")) none = verifySignature now (.req vReq') k (some (c! "k1")) none := by
  refine C11_only_that_keyid (m := .req vReq) (m' := .req vReq') vReq_wf (by simp) vReq'_wf (by simp) _ vReq_carries vReq'_carries
    (by decide) ?_
  intro kv hkv hk t
  have : buildBase (.req vReq) kv.2.params none = buildBase (.req vReq') kv.2.params none := by
    simp only [vSigs, List.mem_cons, List.not_mem_nil, or_false] at hkv
    rcases hkv with rfl | rfl | rfl <;> rfl
  unfold BaseOf
  rw [← buildBase_spec (m := .req vReq) vReq_wf (by simp), ← buildBase_spec (m := .req vReq') vReq'_wf (by simp), this]

/-! ### C12 -/

/-- C12: after `expires` the answer is the expiry error whatever the key says; up to and including it, and without `expires`, it
is the answer of the key. -/
theorem C12_boundary (b : SigBase) (h : SigHeaders) :
    (∀ e, h.params.expires = some e → e < now → b.verify now k h = .err .expiredSignatureParams) ∧
    (∀ e, h.params.expires = some e → now ≤ e → b.verify now k h = k.verify b.bytes h.signature) ∧
    (h.params.expires = none → b.verify now k h = k.verify b.bytes h.signature) := by
  refine ⟨?_, ?_, ?_⟩
  · intro e he hlt
    unfold SigBase.verify SigParams.isExpired
    rw [he]; simp [hlt]
  · intro e he hle
    unfold SigBase.verify SigParams.isExpired
    rw [he]
    have : ¬ e < now := UInt64.not_lt.2 hle
    simp [this]
  · intro he
    unfold SigBase.verify SigParams.isExpired
    rw [he]; simp

/-- C12: for a message, an expired signature is never the reason of a success. -/
theorem C12_expired_never_succeeds (hw : WfHeaders m.headers) (hf : ∀ r, rf = some r → WfHeaders r.headers) (n : Str)
    (h : verifySignature now m k id rf = .ok n) :
    ∃ l sh, Carries m.headers l ∧ (n, sh) ∈ l ∧ ∀ e, sh.params.expires = some e → now ≤ e := by
  obtain ⟨l, h1, _, l1, sh, l2, rfl, ⟨t, h3, h4, h5, h6⟩, _⟩ := (C10_ok_iff hw hf n).1 h
  exact ⟨_, sh, h1, by simp, h5⟩

/-- C12: the clock matters only through `expires`. If at two times the same signatures of the message are in time, the outcomes
are the same, whatever `created` says. -/
theorem C12_clock_only_expires {now' : UInt64} (hw : WfHeaders m.headers)
    (h : ∀ l, Carries m.headers l → ∀ kv ∈ l, ∀ e, kv.2.params.expires = some e → (now ≤ e ↔ now' ≤ e)) :
    verifySignature now m k id rf = verifySignature now' m k id rf := by
  rw [verifySignature_eq, verifySignature_eq]
  cases hl : extractSignatureHeaders m with
  | err e => rfl
  | panic => rfl
  | ok l =>
    simp only [Res.bind_ok]
    have hl := (extractSignatureHeaders_ok hw l).1 hl
    rw [verifyOne_eq, verifyOne_eq]
    congr 1
    have hc : (l.filterMap (entryOf m rf)).filter (keyTest id) = cands m rf id l := rfl
    rw [filterKeyId_eq, hc]
    have e : ∀ x ∈ cands m rf id l, tryOne now k x = tryOne now' k x := by
      intro x hx
      obtain ⟨kv, hkv, _, _, _, h2⟩ := mem_cands.1 hx
      have ht : x.2.2.params.isExpired now = x.2.2.params.isExpired now' := by
        rw [h2]
        have : InTime now kv.2 ↔ InTime now' kv.2 := by
          unfold InTime
          constructor
          · intro hi e he; exact (h l hl kv hkv e he).1 (hi e he)
          · intro hi e he; exact (h l hl kv hkv e he).2 (hi e he)
        rw [← isExpired_false, ← isExpired_false] at this
        cases h1 : kv.2.params.isExpired now <;> cases h2 : kv.2.params.isExpired now' <;> simp_all
      unfold tryOne
      rw [verify_base, verify_base, ht]
    have : ∀ s : List (Str × (SigBase × SigHeaders)), (∀ x ∈ s, tryOne now k x = tryOne now' k x) →
        (Res.filterOk (tryOne now k) s : Res HyperErr (List Str)) = Res.filterOk (tryOne now' k) s := by
      intro s hs
      induction s with
      | nil => rfl
      | cons a t ih =>
        simp only [Res.filterOk]
        rw [hs a (by simp), ih (fun x hx => hs x (by simp [hx]))]
    rw [this _ e]

/-- C12: `created` in the received parameters has no influence once the base is given. -/
theorem C12_created_ignored (b : SigBase) (h : SigHeaders) (c : Option UInt64) :
    b.verify now k { h with params := { h.params with created := c } } = b.verify now k h := rfl

-- signature `b` of the example expires at 100: accepted at 100, rejected at 101; a signature created in the future is accepted
set_option maxRecDepth 10000 in
example : verifySignature 100 (.req vReq) vKey (some (c! "k2")) none = .ok (c! "b") ∧
    verifySignature 101 (.req vReq) vKey (some (c! "k2")) none = .err .invalidSignature := by decide
example : SigBase.verify 5 ⟨[], { created := some 1000, covered := [] }⟩ vKey ⟨c! "x", [3], { created := some 1000, covered := [] }⟩ = .ok () := by
  decide
example (t t' : UInt64) (h1 : t ≤ 100) (h2 : t' ≤ 100) : verifySignature t (.req vReq) k id none = verifySignature t' (.req vReq) k id none :=
  C12_clock_only_expires (m := .req vReq) vReq_wf (by
    intro l hl kv hkv e he
    rw [carries_unique vReq_wf hl vReq_carries] at hkv
    simp only [vSigs, List.mem_cons, List.not_mem_nil, or_false] at hkv
    rcases hkv with rfl | rfl | rfl
    · cases he
    · injection he with he; subst he; exact ⟨fun _ => h2, fun _ => h1⟩
    · cases he)

/-! ### C35 -/

/-- C35: a successful batch has one result per key, in the order of the keys, each equal to the single verification. -/
theorem C35_batch_ok (keys : List (VerifyingKey × Option Str)) (rs : List (Except HyperErr Str))
    (h : verifySignatures now m keys rf = .ok rs) :
    List.Forall₂ (fun ki r => verifySignature now m ki.1 ki.2 rf = ofExcept r) keys rs := by
  rw [verifySignatures_eq] at h
  obtain ⟨l, hl, h2⟩ := Res.bind_eq_ok.1 h
  clear h
  have h := (gather_ok _ _).1 h2
  clear h2
  have e : ∀ ki : VerifyingKey × Option Str, verifySignature now m ki.1 ki.2 rf = verifyOne now (l.filterMap (entryOf m rf)) ki.1 ki.2 := by
    intro ki; rw [verifySignature_eq, hl]; rfl
  simp only [e]
  clear e hl
  induction keys generalizing rs with
  | nil => cases rs with
    | nil => exact .nil
    | cons => simp at h
  | cons a t ih =>
    cases rs with
    | nil => simp at h
    | cons r rs =>
      simp only [List.map_cons, List.cons.injEq] at h
      exact .cons h.1 (ih rs h.2)

/-- C35, conversely: when the headers can be read and no single verification panics, the batch succeeds. -/
theorem C35_batch_of_single (keys : List (VerifyingKey × Option Str)) (rs : List (Except HyperErr Str)) {l : List (Str × SigHeaders)}
    (hw : WfHeaders m.headers) (hl : Carries m.headers l)
    (h : List.Forall₂ (fun ki r => verifySignature now m ki.1 ki.2 rf = ofExcept r) keys rs) :
    verifySignatures now m keys rf = .ok rs := by
  have hl := (extractSignatureHeaders_ok hw l).2 hl
  rw [verifySignatures_eq, hl, Res.bind_ok]
  apply (gather_ok _ _).2
  have e : ∀ ki : VerifyingKey × Option Str, verifySignature now m ki.1 ki.2 rf = verifyOne now (l.filterMap (entryOf m rf)) ki.1 ki.2 := by
    intro ki; rw [verifySignature_eq, hl]; rfl
  simp only [e] at h
  clear e hl
  induction h with
  | nil => rfl
  | cons h _ ih => rw [List.map_cons, List.map_cons, h, ih]

/-- C35: the batch as a whole fails only when the headers cannot be read, and then every single verification fails in the same way. -/
theorem C35_batch_err (keys : List (VerifyingKey × Option Str)) (e : HyperErr) (h : verifySignatures now m keys rf = .err e) :
    ∀ (k : VerifyingKey) (id : Option Str), verifySignature now m k id rf = .err e := by
  intro k id
  rw [verifySignatures_eq] at h
  rw [verifySignature_eq]
  cases hl : extractSignatureHeaders m with
  | ok l => rw [hl] at h; exact absurd h (gather_ne_err _ _)
  | err e' => rw [hl] at h; injection h with h; rw [h]; rfl
  | panic => rw [hl] at h; cases h

/-- C35: a batch of at least one key panics exactly when one of the single verifications does. -/
theorem C35_batch_panic (keys : List (VerifyingKey × Option Str)) (hk : keys ≠ []) :
    verifySignatures now m keys rf = .panic ↔ ∃ ki ∈ keys, verifySignature now m ki.1 ki.2 rf = .panic := by
  rw [verifySignatures_eq]
  simp only [verifySignature_eq]
  cases hl : extractSignatureHeaders m with
  | err e' =>
    constructor
    · intro h; cases h
    · rintro ⟨ki, _, h⟩; cases h
  | panic =>
    constructor
    · intro _
      obtain ⟨ki, t, rfl⟩ := List.exists_cons_of_ne_nil hk
      exact ⟨ki, by simp, rfl⟩
    · intro _; rfl
  | ok l =>
    simp only [Res.bind_ok]
    unfold verifyInner
    rw [gather_panic, List.mem_map]

example : verifySignatures 101 (.req vReq) [(vKey, some (c! "k2")), (vKey, none), (vKey, some (c! "k3"))] none =
    .ok [.error .invalidSignature, .ok (c! "c"), .error .noSignatureHeaders] :=
  C35_batch_of_single (m := .req vReq) _ _ vReq_wf vReq_carries
    (.cons vReq_outcomes.2.2.2.1 (.cons vReq_outcomes.2.1 (.cons vReq_outcomes.2.2.2.2 .nil)))

/-! ### C31 and C49: the inspection functions -/

theorem imOfList_map_nodup {β : Type} {l : List (Str × SigHeaders)} (h : (l.map Prod.fst).Nodup) (f : Str × SigHeaders → β) :
    imOfList (l.map (fun kv => (kv.1, f kv))) = l.map (fun kv => (kv.1, f kv)) := by
  apply imOfList_of_nodup
  rw [List.map_map]
  exact h

/-- C31: what is reported for each label. -/
theorem C31_reported (rsa : Bool) (hw : WfHeaders m.headers) (r : List (Str × (Option Alg × Option Str))) :
    getAlgKeyIds rsa m = .ok r ↔ ∃ l, Carries m.headers l ∧
      List.Forall₂ (fun kv x => x.1 = kv.1 ∧ x.2.2 = kv.2.params.keyid ∧
        ∀ a, x.2.1 = some a ↔ kv.2.params.alg = some a.toStr ∧ a.available rsa = true) l r := by
  have alg : ∀ (p : SigParams) (a : Alg), (p.alg.bind (fun a => match Alg.ofStr rsa a with | .ok x => some x | _ => none)) = some a ↔
      p.alg = some a.toStr ∧ a.available rsa = true := by
    intro p a
    cases hp : p.alg with
    | none => simp
    | some s =>
      have := (C31_name_exact rsa s).1 a
      simp only [Option.bind_some, Option.some.injEq]
      rw [← this]
      cases Alg.ofStr rsa s <;> simp
  unfold getAlgKeyIds
  rw [Res.bind_eq_ok]
  constructor
  · rintro ⟨l, hl, h⟩
    injection h with h; subst h
    rw [imOfList_map_nodup (extractSignatureHeaders_nodup hl)]
    refine ⟨l, (extractSignatureHeaders_ok hw l).1 hl, ?_⟩
    rw [List.forall₂_map_right_iff, List.forall₂_same]
    exact fun kv _ => ⟨rfl, rfl, alg _⟩
  · rintro ⟨l, hC, h⟩
    have hl := (extractSignatureHeaders_ok hw l).2 hC
    refine ⟨l, hl, ?_⟩
    rw [imOfList_map_nodup (extractSignatureHeaders_nodup hl)]
    congr 1
    clear hl hC
    induction h with
    | nil => rfl
    | @cons kv x l r h _ ih =>
      obtain ⟨h1, h2, h3⟩ := h
      rw [List.map_cons, ih]
      congr 1
      obtain ⟨n, a, i⟩ := x
      simp only at h1 h2 h3
      subst h1 h2
      have : (kv.2.params.alg.bind (fun a => match Alg.ofStr rsa a with | .ok x => some x | _ => none)) = a := by
        apply Option.ext
        intro y
        rw [h3 y]
        exact alg _ _
      rw [← this]
      rfl

/-- C31 and C49: the inspection functions and the extraction fail together and alike, so an unknown algorithm name is no reason. -/
theorem C49_fail_alike (rsa : Bool) :
    (∀ e, getAlgKeyIds rsa m = .err e ↔ extractSignatureHeaders m = .err e) ∧
    (∀ e, getSignatureParams m = .err e ↔ extractSignatureHeaders m = .err e) ∧
    (∀ e, extractSignatures m rf = .err e ↔ extractSignatureHeaders m = .err e) ∧
    (∀ e, verifySignatures now m [] rf = .err e ↔ extractSignatureHeaders m = .err e) ∧
    (getAlgKeyIds rsa m = .panic ↔ extractSignatureHeaders m = .panic) ∧
    (getSignatureParams m = .panic ↔ extractSignatureHeaders m = .panic) ∧
    (extractSignatures m rf = .panic ↔ extractSignatureHeaders m = .panic) ∧
    (verifySignatures now m [] rf = .panic ↔ extractSignatureHeaders m = .panic) := by
  rw [extractSignatures_eq, verifySignatures_eq]
  unfold getAlgKeyIds getSignatureParams
  cases extractSignatureHeaders m <;> simp [verifyInner, gather]

/-- C49: the parameters reported are those of the signatures carried, label by label in order. -/
theorem C49_params (hw : WfHeaders m.headers) (r : List (Str × SigParams)) :
    getSignatureParams m = .ok r ↔ ∃ l, Carries m.headers l ∧ r = l.map (fun kv => (kv.1, kv.2.params)) := by
  unfold getSignatureParams
  rw [Res.bind_eq_ok]
  constructor
  · rintro ⟨l, hl, h⟩
    injection h with h
    rw [imOfList_map_nodup (extractSignatureHeaders_nodup hl)] at h
    exact ⟨l, (extractSignatureHeaders_ok hw l).1 hl, h.symm⟩
  · rintro ⟨l, hl, rfl⟩
    have hl := (extractSignatureHeaders_ok hw l).2 hl
    refine ⟨l, hl, ?_⟩
    rw [imOfList_map_nodup (extractSignatureHeaders_nodup hl)]

/-- C49: `extract_signatures` gives, in order, exactly those carried signatures whose base can be rebuilt, each with its base. -/
theorem C49_extract (hw : WfHeaders m.headers) (hf : ∀ r, rf = some r → WfHeaders r.headers)
    (r : List (Str × (SigBase × SigHeaders))) (h : extractSignatures m rf = .ok r) :
    ∃ l, Carries m.headers l ∧ (r.map (fun x => (x.1, x.2.2))).Sublist l ∧
      (∀ kv ∈ l, kv ∈ r.map (fun x => (x.1, x.2.2)) ↔ ∃ t, BaseOf m rf kv.2.params t) ∧
      ∀ x ∈ r, BaseOf m rf x.2.2.params x.2.1.disp ∧ x.2.1.params = x.2.2.params := by
  rw [extractSignatures_eq] at h
  obtain ⟨l, hl, h2⟩ := Res.bind_eq_ok.1 h
  clear h
  injection h2 with h; subst h
  have hC := (extractSignatureHeaders_ok hw l).1 hl
  have mem : ∀ x, x ∈ l.filterMap (entryOf m rf) ↔ (x.1, x.2.2) ∈ l ∧ buildBase m x.2.2.params rf = .ok x.2.1 := by
    intro x
    rw [List.mem_filterMap]
    constructor
    · rintro ⟨kv, hkv, he⟩
      unfold entryOf at he
      obtain ⟨b, hb, rfl⟩ := Option.map_eq_some_iff.1 he
      exact ⟨hkv, Res.toOpt_eq_some.1 hb⟩
    · rintro ⟨h1, h2⟩
      exact ⟨_, h1, by unfold entryOf; simp only; rw [h2]; rfl⟩
  refine ⟨l, hC, ?_, ?_, ?_⟩
  · clear mem hl hC
    induction l with
    | nil => simp
    | cons a t ih =>
      rw [List.filterMap_cons]
      cases hfa : entryOf m rf a with
      | none => exact List.Sublist.cons _ ih
      | some x =>
        simp only [List.map_cons]
        unfold entryOf at hfa
        obtain ⟨b, _, rfl⟩ := Option.map_eq_some_iff.1 hfa
        exact ih.cons_cons _
  · intro kv hkv
    rw [List.mem_map]
    constructor
    · rintro ⟨x, hx, rfl⟩
      exact ⟨_, (buildBase_spec hw hf _).1 ⟨_, ((mem x).1 hx).2, rfl⟩⟩
    · rintro ⟨t, ht⟩
      obtain ⟨b, hb, _⟩ := (buildBase_spec hw hf _).2 ht
      exact ⟨(kv.1, (b, kv.2)), (mem _).2 ⟨hkv, hb⟩, rfl⟩
  · intro x hx
    have := ((mem x).1 hx).2
    exact ⟨(buildBase_spec hw hf _).1 ⟨_, this, rfl⟩, buildBase_params this⟩

/-- C49: `has_message_signature` says whether both fields are there; without one of them every function reports absence, and with
both none does except for want of a candidate. -/
theorem C49_absent (rsa : Bool) (hw : WfHeaders m.headers) :
    (hasMessageSignature m.headers = true ↔
      fieldLines m.headers (c! "signature") ≠ [] ∧ fieldLines m.headers (c! "signature-input") ≠ []) ∧
    (hasMessageSignature m.headers = false ↔ getAlgKeyIds rsa m = .err .noSignatureHeaders) ∧
    (hasMessageSignature m.headers = false ↔ getSignatureParams m = .err .noSignatureHeaders) ∧
    (hasMessageSignature m.headers = false ↔ extractSignatures m rf = .err .noSignatureHeaders) ∧
    (hasMessageSignature m.headers = false → verifySignature now m k id rf = .err .noSignatureHeaders) := by
  have key : hasMessageSignature m.headers = false ↔ extractSignatureHeaders m = .err .noSignatureHeaders := by
    constructor
    · exact noHeaders
    · intro h
      rcases extract_cases hw with ⟨ha, _, _⟩ | ⟨_, _, _, he⟩ | ⟨_, _, ts, us, ht⟩
      · rw [Bool.eq_false_iff]
        intro hm
        have := (hasMessageSignature_iff hw).1 hm
        rcases ha with ha | ha
        · exact this.2 ha
        · exact this.1 ha
      · rw [he] at h; cases h
      · rw [extract_of_texts hw ht] at h
        cases hp : SigHeaders.tryParse (join (c! ", ") us) (join (c! ", ") ts) <;> rw [hp] at h <;> cases h
  obtain ⟨a, b, c, _⟩ := C49_fail_alike (now := 0) (m := m) (rf := rf) rsa
  refine ⟨hasMessageSignature_iff hw, ?_, ?_, ?_, ?_⟩
  · rw [a, key]
  · rw [b, key]
  · rw [c, key]
  · intro h
    rw [verifySignature_eq, key.1 h]; rfl

set_option maxRecDepth 10000 in
example : getAlgKeyIds false (.req vReq) = .ok [(c! "a", (none, some (c! "k1"))), (c! "b", (none, some (c! "k2"))),
    (c! "c", (some .ed25519, some (c! "k1")))] := by decide
set_option maxRecDepth 10000 in
example : (extractSignatures (.req vReq) none).toOpt.map (fun r => r.map Prod.fst) = some [c! "b", c! "c"] := by decide
example : verifySignature now (.res exRes) k id rf = .err .noSignatureHeaders :=
  (C49_absent (m := .res exRes) false exRes_wf).2.2.2.2 (by decide)

end
end Verif
