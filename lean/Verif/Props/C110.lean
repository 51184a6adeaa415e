import Verif.Proofs.RepairSign
import Verif.Props.C09
import Verif.Props.C16
import Verif.Props.C39
import Verif.Props.C40
/-!
C110 Eight local changes make the partial properties true.

The theorems are about `Model/Repair.lean`, the library with eight local changes; not about the code as it is. They show that the
causes named in DESIGN section 6 are all causes: with these lines changed C01, C03, C04, C05, C09, C16, C17, C47, C48 and C52 hold
in full, and nothing else changes for messages that the changes do not concern.
-/
namespace Verif
open Sfv Spec

variable {now : UInt64} {m : Msg} {rf : Option Request} {id : Option Str}

/-! ### Panics (C16 and C17) -/

/-- C110 (C16): no text makes reading panic. -/
theorem C110_reading_never_panics (s t : Str) : Repair.idOfStr s ≠ .panic ∧ Repair.ofStr s ≠ .panic ∧ Repair.tryParse s t ≠ .panic :=
  ⟨Repair.idOfStr_ne_panic s, Repair.ofStr_ne_panic s, Repair.tryParse_ne_panic s t⟩

/-- C110 (C16): what is read is what the code reads; only a panic becomes an error. -/
theorem C110_reading_same (s t : Str) :
    (∀ i, Repair.idOfStr s = .ok i ↔ CId.ofStr s = .ok i) ∧ (∀ p, Repair.ofStr s = .ok p ↔ SigParams.ofStr s = .ok p) ∧
    (∀ l, Repair.tryParse s t = .ok l ↔ SigHeaders.tryParse s t = .ok l) :=
  ⟨fun _ => Repair.idOfStr_ok, fun _ => Repair.ofStr_ok, fun _ => Repair.tryParse_ok⟩

/-- C110 (C16, C17): errors stay what they were, and in place of a panic there is an error of the kind that the changed lines name. -/
theorem C110_errors (s t : Str) :
    Repaired.Instead [.invalidComponentName] (CId.ofStr s) (Repair.idOfStr s) ∧
    Repaired.Instead [.invalidComponentName, .invalidSignatureParams] (SigParams.ofStr s) (Repair.ofStr s) ∧
    Repaired.Instead [.invalidComponentName, .invalidSignatureParams] (SigHeaders.tryParse s t) (Repair.tryParse s t) ∧
    ∀ (P : Prims) (k : PublicKey P) (d x : Bytes), Repaired.Instead [.parseSignature] (k.verify d x) ((Repair.verifying k).verify d x) :=
  ⟨(Repair.near_idOfStr (by simp) s).instead (Repair.idOfStr_ne_panic s), (Repair.near_ofStr s).instead (Repair.ofStr_ne_panic s),
    (Repair.near_tryParse s t).instead (Repair.tryParse_ne_panic s t), fun _ _ _ _ => (Repair.near_caught (by simp) _).instead Repair.caught_ne_panic⟩

/-- C110 (C17): no public key panics, and it accepts what it accepted. -/
theorem C110_keys {P : Prims} (k : PublicKey P) :
    Repaired.NoPanic (Repair.verifying k) ∧ ∀ d s, (Repair.verifying k).verify d s = .ok () ↔ k.verify d s = .ok () :=
  ⟨fun _ _ => Repair.caught_ne_panic, fun _ _ => Repair.caught_ok⟩

/-- C110: a key pair of the code is one with the changes. -/
theorem C110_key_pair {P : Prims} {sk : SigningKey} {k : PublicKey P} (h : KeyPair sk k.verifying) : KeyPair sk (Repair.verifying k) :=
  fun d s hs => ((C110_keys k).2 d s).2 (h d s hs)

/-- C110 (C17): verification never panics, whatever the message, and neither does signing. -/
theorem C110_never_panics (now : UInt64) (m : Msg) (rf : Option Request) :
    (∀ keys : List (VerifyingKey × Option Str), (∀ k ∈ keys, Repaired.NoPanic k.1) → Repair.verifySignatures now m keys rf ≠ .panic) ∧
    (∀ k id, Repaired.NoPanic k → Repair.verifySignature now m k id rf ≠ .panic) ∧
    (∀ l : List Signer, (∀ x ∈ l, ∀ d, x.2.1.sign d ≠ .panic) → (Repair.setSignatures m l rf).2 ≠ .panic) := by
  refine ⟨?_, ?_, fun l => Repair.setSignatures_ne_panic m l rf⟩
  · intro keys hk
    rw [Repair.verifySignatures_eq]
    refine Repair.bind_ne_panic (Repair.extractSignatureHeaders_ne_panic m) (fun l _ h => ?_)
    obtain ⟨k, hm, e⟩ := List.mem_map.1 ((gather_panic _).1 h)
    exact Repair.verifyOne_ne_panic (hk k hm) l e
  · intro k id hk
    rw [Repair.verifySignature_eq]
    exact Repair.bind_ne_panic (Repair.extractSignatureHeaders_ne_panic m) (fun l _ => Repair.verifyOne_ne_panic hk l)

-- texts on which the code panics
example : CId.ofStr (c! "\"@nope\"") = .panic ∧ Repair.idOfStr (c! "\"@nope\"") = .err .invalidComponentName := by decide
example : SigParams.ofStr (c! "();created=-1") = .panic ∧ Repair.ofStr (c! "();created=-1") = .err .invalidSignatureParams := by decide
-- errors of the code stay
example : SigParams.ofStr (c! "(date") = .err .parseSFV ∧ Repair.ofStr (c! "(date") = .err .parseSFV := by decide
example : SigParams.ofStr (c! "(\"a\" \"a\")") = .err .invalidSignatureParams ∧ Repair.ofStr (c! "(\"a\" \"a\")") = .err .invalidSignatureParams := by decide
example (sk : SharedKey) : Repair.verifySignature 0 (.req exReq) sk.verifying none none ≠ .panic :=
  (C110_never_panics 0 (.req exReq) none).2.1 _ _ (C17_shared_never_panics sk)

/-! ### Texts (C05 and C52) -/

/-- C110 (C05): parameters are read back from their text exactly when they can be written at all. -/
theorem C110_round_trip (p : SigParams) : SigParams.ofStr (Repair.disp p) = .ok p ↔ Repaired.Writable p := by
  refine ⟨fun h => ?_, Repair.ofStr_disp_writable⟩
  unfold SigParams.ofStr at h
  obtain ⟨l, h1, h2⟩ := Res.bind_eq_ok.1 h
  have h1 := parseList_legal (Res.ofOption_eq_ok.1 h1)
  split at h2
  · exact Repair.ofEntry_is_writable (h1 _ (by simp)) h2
  · cases h2

/-- C110 (C52): a text parameter of printable characters changes this parameter only, quotes and backslashes included. -/
theorem C110_no_injection (p : SigParams) (h : Repaired.Writable p) (s : Str) (hs : ∀ c ∈ s, Printable c) :
    SigParams.ofStr (Repair.disp (p.setNonce s)) = .ok { p with nonce := some s } ∧
    SigParams.ofStr (Repair.disp (p.setKeyid s)) = .ok { p with keyid := some s } ∧
    SigParams.ofStr (Repair.disp (p.setTag s)) = .ok { p with tag := some s } := by
  refine ⟨Repair.ofStr_disp_writable ?_, Repair.ofStr_disp_writable ?_, Repair.ofStr_disp_writable ?_⟩
  · exact { h with nonce := by rintro t ⟨⟩; exact hs }
  · exact { h with keyid := by rintro t ⟨⟩; exact hs }
  · exact { h with tag := by rintro t ⟨⟩; exact hs }

theorem empty_writable : Repaired.Writable { covered := [] } :=
  { created := by simp, expires := by simp, nonce := by simp, alg := by simp, keyid := by simp, tag := by simp, ids := by simp,
    distinct := by simp }

-- the text of `C52_false`
example : SigParams.ofStr (Repair.disp (SigParams.setNonce { covered := [] } (c! "n\";keyid=\"other\";expires=9;x=\""))) =
    .ok { nonce := some (c! "n\";keyid=\"other\";expires=9;x=\""), covered := [] } :=
  (C110_no_injection _ empty_writable _ (by decide)).1

/-! ### Values (C47 and C48) -/

theorem applied_empty {ps : List CParam} {vs out : List Str} (h : Applied ps vs out) (e : vs = []) : out = [] := by
  induction h with
  | done => exact e
  | req _ ih => exact ih e
  | sf h _ ih => subst e; cases h; exact ih rfl
  | key h _ ih =>
    subst e
    obtain ⟨ds, h1, rfl⟩ := h
    cases h1
    exact ih rfl

/-- C110 (C47): a component of a field that is not there has no value, so there is nothing to sign or to verify. -/
theorem C110_absent (hw : WfHeaders m.headers) (hf : ∀ r, rf = some r → WfHeaders r.headers) {p : SigParams} {i : CId} (hi : i ∈ p.covered)
    {f : Str} (hn : i.name = .field f) {m' : Msg} (hs : Repaired.Source m rf i m') (ha : fieldLines m'.headers f = []) (b : SigBase) :
    Repair.buildBase m p rf ≠ .ok b := by
  intro hb
  obtain ⟨vs, h1, _⟩ := (Repair.buildBase_spec hw hf _).1 ⟨b, hb, rfl⟩
  obtain ⟨v, _, hv⟩ := forall₂_mem_left h1 i hi
  unfold Repaired.Source at hs
  unfold Repaired.HasValue at hv
  have no : ¬ Repaired.ValueIn m' i v := by
    unfold Repaired.ValueIn
    rw [hn]
    rintro ⟨ts, out, e1, e2, e3, _⟩
    rw [ha] at e1
    cases e1
    exact e3 (applied_empty e2 rfl)
  split at hs
  · rename_i hr
    rw [if_pos hr] at hv
    obtain ⟨_, r, _, h2, h3⟩ := hv
    obtain ⟨r', h4, rfl⟩ := hs
    rw [h2] at h4; injection h4 with h4; subst h4
    exact no h3
  · rename_i hr
    rw [if_neg hr] at hv
    subst hs
    exact no hv

/-- C110 (C47): likewise for a dictionary member that none of the lines has. -/
theorem C110_absent_member (hw : WfHeaders m.headers) (hf : ∀ r, rf = some r → WfHeaders r.headers) {p : SigParams} {f k : Str}
    (hi : ⟨.field f, [.key k]⟩ ∈ p.covered) {ts : List Str} (ht : LineTexts (fieldLines m.headers f) ts) (ha : Members k ts []) (b : SigBase) :
    Repair.buildBase m p rf ≠ .ok b := by
  intro hb
  obtain ⟨vs, h1, _⟩ := (Repair.buildBase_spec hw hf _).1 ⟨b, hb, rfl⟩
  obtain ⟨v, _, hv⟩ := forall₂_mem_left h1 _ hi
  unfold Repaired.HasValue at hv
  rw [if_neg (by simp)] at hv
  obtain ⟨us, out, e1, e2, e3, _⟩ := hv
  obtain rfl := lineTexts_inj ht e1
  cases e2 with
  | key h1 h2 =>
    cases h2
    have e4 := (handleKey_ok _ _ _).2 h1
    rw [(handleKey_ok _ _ _).2 ha] at e4
    injection e4 with e4
    exact e3 e4.symm

/-- C110 (C48): the value of `@request-target` is the target of the request line, for every method. -/
theorem C110_request_target {r r' : Request} {v : Str} (h : Repaired.HasValue (.req r) none ⟨.derived .requestTarget, []⟩ v)
    (h' : Repaired.HasValue (.req r') none ⟨.derived .requestTarget, []⟩ v) :
    (r.method ≠ c! "CONNECT" → r'.method ≠ c! "CONNECT" → r.uri.pathAndQuery.getD [] = r'.uri.pathAndQuery.getD []) ∧
    (r.method = c! "CONNECT" → r'.method = c! "CONNECT" → r.uri.authority.getD [] = r'.uri.authority.getD []) := by
  have val : ∀ {r : Request}, Repaired.HasValue (.req r) none ⟨.derived .requestTarget, []⟩ v → v = Repaired.target r := by
    intro r h
    unfold Repaired.HasValue at h
    rw [if_neg (by simp)] at h
    obtain ⟨r1, h1, _, h2⟩ := h
    injection h1 with h1; subst h1; exact h2
  have e := (val h).symm.trans (val h')
  unfold Repaired.target at e
  constructor
  · intro a b; rwa [if_neg a, if_neg b] at e
  · intro a b; rwa [if_pos a, if_pos b] at e

-- the two requests of `C48_false` have different targets
example : ¬ ∃ v, Repaired.HasValue (.req { exReq with method := c! "OPTIONS" }) none ⟨.derived .requestTarget, []⟩ v ∧
    Repaired.HasValue (.req { exReq with method := c! "OPTIONS", uri := { exUri with pathData := c! "/other" } }) none ⟨.derived .requestTarget, []⟩ v := by
  rintro ⟨v, h1, h2⟩
  exact absurd ((C110_request_target h1 h2).1 (by decide) (by decide)) (by decide)
-- the absent field of the example of C47, and an absent member
example (b : SigBase) : Repair.buildBase (.req exReq) (exParams [⟨.field (c! "content-digest"), []⟩]) none ≠ .ok b :=
  C110_absent (m := .req exReq) exReq_wf (by simp) (i := ⟨.field (c! "content-digest"), []⟩) (by simp [exParams]) rfl (m' := .req exReq) (by simp [Repaired.Source]) (by decide) b
example (b : SigBase) : Repair.buildBase dSigning.m dSigning.p none ≠ .ok b :=
  C110_absent_member (m := dSigning.m) (by intro kv h; rw [List.mem_singleton.1 h]; exact ⟨by decide, by decide, by decide⟩) (by simp)
    (f := c! "x-dict") (k := c! "a") (List.mem_singleton.2 rfl) (ts := [c! "b=1"]) (.cons (by decide) .nil)
    ⟨[[(c! "b", .item ⟨.int 1, []⟩)]], .cons (by decide) .nil, by decide⟩ b
example : ∃ b, Repair.buildBase (.req exReq) (exParams [⟨.field (c! "date"), []⟩, ⟨.field (c! "x-dict"), [.key (c! "a")]⟩, ⟨.derived .requestTarget, []⟩]) none = .ok b := by
  refine ⟨_, rfl⟩

/-! ### Signing (C04) -/

/-- C110: when signing succeeds every signer has signed the base of the message, the lines are added at the end, a receiver reads
each signature as it was made, and all parameters can be written. -/
theorem C110_signed (hw : WfHeaders m.headers) (hf : ∀ r, rf = some r → WfHeaders r.headers) {l : List Signer} {h' : Headers}
    (h : Repair.setSignatures m l rf = (h', .ok ())) :
    ∃ hs, List.Forall₂ (Repaired.SignedBy m rf) l hs ∧ h' = m.headers ++ hs.flatMap Repaired.newLines ∧
      (∀ sh ∈ hs, ∃ l', Carries h' l' ∧ (sh.name, sh) ∈ l') ∧ ∀ x ∈ l, Repaired.Writable x.1 ∧ LegalKey x.label := by
  obtain ⟨hs, h1, _, h2, h3⟩ := (Repair.setSignatures_ok hw hf l h').1 h
  refine ⟨hs, h1, h2, h3, ?_⟩
  intro x hx
  obtain ⟨sh, hsh, hb⟩ := forall₂_mem_left h1 x hx
  obtain ⟨l', hc, hm⟩ := h3 sh hsh
  have w := Repair.carried_writable hc hm
  refine ⟨by rw [← hb.params]; exact w, ?_⟩
  obtain ⟨ts, us, a, b, _, _, _, _, _, hb', hA⟩ := hc
  obtain ⟨_, _, e, he, _⟩ := hA.pairing _ hm
  have := ((parseDict_legal hb').2 _ he).1
  rw [← hb.name]; exact this

/-- C110: otherwise the message is as before. -/
theorem C110_all_or_none (m : Msg) (l : List Signer) (rf : Option Request) :
    (Repair.setSignatures m l rf).2 = .ok () ∨ (Repair.setSignatures m l rf).1 = m.headers := Repair.setSignatures_unchanged m l rf

/-- C110 (C04): signing succeeds whenever the signers can sign, the parameters can be written, the labels are legal and pairwise
different and the message has no signatures or readable ones; the old signatures with other labels stay as they are. -/
theorem C110_signs (hw : WfHeaders m.headers) (hf : ∀ r, rf = some r → WfHeaders r.headers) {l0 : List (Str × SigHeaders)}
    (h0 : HasSignatures m.headers l0) {l : List Signer} {hs : List SigHeaders} (h1 : List.Forall₂ (Repaired.SignedBy m rf) l hs)
    (hp : ∀ x ∈ l, Repaired.Writable x.1 ∧ LegalKey x.label) (hd : (l.map Signer.label).Nodup) :
    Repair.setSignatures m l rf = (m.headers ++ hs.flatMap Repaired.newLines, .ok ()) ∧
      HasSignatures (m.headers ++ hs.flatMap Repaired.newLines) (hs.foldl putIn l0) := by
  have hwr : ∀ sh ∈ hs, Repair.WritableHeaders sh := by
    intro sh hsh
    obtain ⟨x, hx, hb⟩ := forall₂_mem_right h1 sh hsh
    exact ⟨by rw [hb.name]; exact (hp x hx).2, by rw [hb.params]; exact (hp x hx).1⟩
  have hd' : (hs.map SigHeaders.name).Nodup := by
    have e : hs.map SigHeaders.name = l.map Signer.label := by
      clear hwr hp hd
      induction h1 with
      | nil => rfl
      | cons h _ ih => rw [List.map_cons, List.map_cons, ih, h.name]
    rw [e]; exact hd
  have hH := Repair.has_putAll h0 hwr
  refine ⟨(Repair.setSignatures_ok hw hf l _).2 ⟨hs, h1, ?_, rfl, ?_⟩, hH⟩
  · intro sh hsh
    rw [hvOfStr_printable (Repair.input_printable (hwr sh hsh)), hvOfStr_printable (safe_signature_printable (hwr sh hsh).name)]
    exact ⟨rfl, rfl⟩
  · intro sh hsh
    rcases hH with ⟨_, _, e⟩ | ⟨hc, _⟩
    · have := Repair.mem_putAll (l := l0) hd' hsh
      rw [e] at this; cases this
    · exact ⟨_, hc, Repair.mem_putAll hd' hsh⟩

/-! ### Sign and verify (C01 and C03) -/

theorem repaired_value_after {i : CId} (hn : CParam.req ∉ i.params → i.name ≠ .derived .signatureParams ∧
      ∀ f, i.name = .field f → lower f ≠ c! "signature" ∧ lower f ≠ c! "signature-input") (hs : List SigHeaders) (v : Str) :
    Repaired.HasValue (m.withHeaders (m.headers ++ hs.flatMap Repaired.newLines)) rf i v ↔ Repaired.HasValue m rf i v := by
  unfold Repaired.HasValue
  split
  · cases m <;> simp [Msg.withHeaders]
  · rename_i hr
    obtain ⟨n1, n2⟩ := hn hr
    unfold Repaired.ValueIn
    cases hn : i.name with
    | field f =>
      simp only
      unfold Repaired.FieldValue
      rw [Repair.headers_with, fieldLines_append, Repair.fieldLines_new_other hs (n2 f hn).1 (n2 f hn).2, List.append_nil]
    | derived d =>
      simp only
      split
      · cases m <;> simp [Msg.withHeaders, Repaired.target]
      · unfold Spec.ValueIn
        rw [hn]
        cases d <;> first | (cases m <;> exact Iff.rfl) | exact absurd hn n1

theorem repaired_base_after {p : SigParams} (hn : NotSelf p) (hs : List SigHeaders) (t : Str) :
    Repaired.BaseOf (m.withHeaders (m.headers ++ hs.flatMap Repaired.newLines)) rf p t ↔ Repaired.BaseOf m rf p t := by
  unfold Repaired.BaseOf
  refine exists_congr fun vs => and_congr_left fun _ => ?_
  have : ∀ ids : List CId, (∀ i ∈ ids, i ∈ p.covered) → ∀ vs : List Str,
      (List.Forall₂ (Repaired.HasValue (m.withHeaders (m.headers ++ hs.flatMap Repaired.newLines)) rf) ids vs ↔ List.Forall₂ (Repaired.HasValue m rf) ids vs) := by
    intro ids hi
    induction ids with
    | nil => intro vs; cases vs <;> simp
    | cons i t ih =>
      intro vs
      cases vs with
      | nil => simp
      | cons v vs =>
        rw [List.forall₂_cons, List.forall₂_cons, ih (fun j hj => hi j (by simp [hj])), repaired_value_after (hn i (hi i (by simp)))]
  exact this _ (fun _ h => h) vs

theorem mem_of_putAll {hs : List SigHeaders} {l : List (Str × SigHeaders)} {kv : Str × SigHeaders} (h : kv ∈ hs.foldl putIn l) :
    kv ∈ l ∨ ∃ sh ∈ hs, kv = (sh.name, sh) := by
  induction hs generalizing l with
  | nil => exact Or.inl h
  | cons a t ih =>
    rcases ih h with h | ⟨sh, h1, h2⟩
    · unfold putIn at h
      split at h
      · obtain ⟨x, hx, e⟩ := List.mem_map.1 h
        split at e
        · exact Or.inr ⟨a, by simp, e.symm⟩
        · subst e; exact Or.inl hx
      · rcases List.mem_append.1 h with h | h
        · exact Or.inl h
        · exact Or.inr ⟨a, by simp, List.mem_singleton.1 h⟩
    · exact Or.inr ⟨sh, by simp [h1], h2⟩

/-- C110 (C01, C03, C04): after signing has succeeded, the matching keys with the key ids of the parameters all verify, whatever
the parameters, the labels and the signatures that the message had before. The result under each key is the label of a signature
with that key id that the message carries and the key accepts. -/
theorem C110_sign_verify (hw : WfHeaders m.headers) (hf : ∀ r, rf = some r → WfHeaders r.headers) (l : List (Signer × VerifyingKey)) (hl : l ≠ [])
    (hk : ∀ x ∈ l, KeyPair x.1.2.1 x.2 ∧ Repaired.NoPanic x.2) (hn : ∀ x ∈ l, NotSelf x.1.1)
    (ht : ∀ x ∈ l, ∀ e, x.1.1.expires = some e → now ≤ e) {h' : Headers} (h : Repair.setSignatures m (l.map (·.1)) rf = (h', .ok ())) :
    ∃ ns l', Carries h' l' ∧ Repair.verifySignatures now (m.withHeaders h') (l.map fun x => (x.2, x.1.1.keyid)) rf = .ok (ns.map .ok) ∧
      List.Forall₂ (fun x n => ∃ sh, (n, sh) ∈ l' ∧ Repaired.Accepts now (m.withHeaders h') rf x.2 x.1.1.keyid sh) l ns := by
  obtain ⟨hs, h1, rfl, h3, h4⟩ := C110_signed hw hf h
  have hw' := Repair.wf_newLines hw hs
  have hw'' : WfHeaders (m.withHeaders (m.headers ++ hs.flatMap Repaired.newLines)).headers := by rw [Repair.headers_with]; exact hw'
  have hc : ∃ l', Carries (m.headers ++ hs.flatMap Repaired.newLines) l' := by
    cases hs with
    | nil => have := h1.length_eq; simp at this; exact absurd this hl
    | cons sh t => obtain ⟨l', hc, _⟩ := h3 sh (by simp); exact ⟨l', hc⟩
  obtain ⟨l', hc⟩ := hc
  have one : ∀ x ∈ l, ∃ n, Repair.verifyOne now (l'.filterMap (Repair.entryOf (m.withHeaders (m.headers ++ hs.flatMap Repaired.newLines)) rf)) x.2 x.1.1.keyid = .ok n ∧
      ∃ sh, (n, sh) ∈ l' ∧ Repaired.Accepts now (m.withHeaders (m.headers ++ hs.flatMap Repaired.newLines)) rf x.2 x.1.1.keyid sh := by
    intro x hx
    obtain ⟨sh, hsh, hb⟩ := forall₂_mem_left h1 x.1 (List.mem_map_of_mem (f := (·.1)) hx)
    obtain ⟨l2, hc2, hm⟩ := h3 sh hsh
    obtain rfl := carries_unique hw' hc hc2
    have ha : Repaired.Accepts now (m.withHeaders (m.headers ++ hs.flatMap Repaired.newLines)) rf x.2 x.1.1.keyid sh := by
      obtain ⟨t, b1, b2⟩ := hb.signature
      refine ⟨t, ?_, ?_, ?_, (hk x hx).1 _ _ b2⟩
      · rw [hb.params]; exact (repaired_base_after (hn x hx) hs t).2 b1
      · intro i hi; rw [hb.params]; exact hi
      · intro e he; rw [hb.params] at he; exact ht x hx e he
    obtain ⟨n, hfst⟩ := first_of_mem (q := Repaired.Accepts now (m.withHeaders (m.headers ++ hs.flatMap Repaired.newLines)) rf x.2 x.1.1.keyid) ⟨_, hm, ha⟩
    exact ⟨n, (Repair.verifyOne_ok (hk x hx).2 hw'' hf l' n).2 hfst, firstWith_mem hfst⟩
  have all : ∀ k : List (Signer × VerifyingKey), (∀ x ∈ k, x ∈ l) → ∃ ns, List.Forall₂ (fun x n =>
      Repair.verifyOne now (l'.filterMap (Repair.entryOf (m.withHeaders (m.headers ++ hs.flatMap Repaired.newLines)) rf)) x.2 x.1.1.keyid = .ok n ∧
      ∃ sh, (n, sh) ∈ l' ∧ Repaired.Accepts now (m.withHeaders (m.headers ++ hs.flatMap Repaired.newLines)) rf x.2 x.1.1.keyid sh) k ns := by
    intro k hk
    induction k with
    | nil => exact ⟨[], .nil⟩
    | cons a t ih =>
      obtain ⟨n, hn⟩ := one a (hk a (by simp))
      obtain ⟨ns, hns⟩ := ih (fun x hx => hk x (by simp [hx]))
      exact ⟨n :: ns, .cons hn hns⟩
  obtain ⟨ns, hns⟩ := all l (fun _ h => h)
  refine ⟨ns, l', hc, ?_, hns.imp fun _ _ h => h.2⟩
  rw [Repair.verifySignatures_eq, (Repair.extract_ok hw'' l').2 (by rw [Repair.headers_with]; exact hc), Res.bind_ok, gather_ok]
  clear one all h h1 h4 hl hk hn ht
  induction hns with
  | nil => rfl
  | cons h _ ih => exact congrArg₂ List.cons h.1 ih

/-- C110 (C03): on a message without signatures the labels are those of signers with that key id. -/
theorem C110_sign_verify_labels (hw : WfHeaders m.headers) (hf : ∀ r, rf = some r → WfHeaders r.headers)
    (h0 : fieldLines m.headers (c! "signature-input") = []) (h0' : fieldLines m.headers (c! "signature") = [])
    (l : List (Signer × VerifyingKey)) (hl : l ≠ [])
    (hk : ∀ x ∈ l, KeyPair x.1.2.1 x.2 ∧ Repaired.NoPanic x.2) (hn : ∀ x ∈ l, NotSelf x.1.1)
    (ht : ∀ x ∈ l, ∀ e, x.1.1.expires = some e → now ≤ e) {h' : Headers} (h : Repair.setSignatures m (l.map (·.1)) rf = (h', .ok ())) :
    ∃ ns, Repair.verifySignatures now (m.withHeaders h') (l.map fun x => (x.2, x.1.1.keyid)) rf = .ok (ns.map .ok) ∧
      List.Forall₂ (fun x n => ∃ y ∈ l, y.1.label = n ∧ ∀ i, x.1.1.keyid = some i → y.1.1.keyid = some i) l ns := by
  obtain ⟨ns, l', h1, h2, h3⟩ := C110_sign_verify (now := now) hw hf l hl hk hn ht h
  refine ⟨ns, h2, h3.imp ?_⟩
  rintro x n ⟨sh, hm, t, _, hid, _, _⟩
  obtain ⟨hs, e1, rfl, _, e4⟩ := C110_signed hw hf h
  have hH := Repair.has_putAll (Or.inl ⟨h0, h0', rfl⟩ : HasSignatures m.headers []) (hs := hs) (by
    intro sh hsh
    obtain ⟨x, hx, hb⟩ := forall₂_mem_right e1 sh hsh
    exact ⟨by rw [hb.name]; exact (e4 x hx).2, by rw [hb.params]; exact (e4 x hx).1⟩)
  have hm' : (n, sh) ∈ hs.foldl putIn [] := by
    rcases hH with ⟨a1, _, _⟩ | ⟨a1, _⟩
    · obtain ⟨ts, us, a, b, b1, _, b3, _⟩ := h1
      rw [a1] at b1; cases b1; exact absurd rfl b3
    · rw [carries_unique (Repair.wf_newLines hw hs) a1 h1]; exact hm
  rcases mem_of_putAll hm' with hm' | ⟨sh', hsh', e⟩
  · cases hm'
  · injection e with e5 e6; subst e6
    obtain ⟨y, hy, hb⟩ := forall₂_mem_right e1 sh hsh'
    obtain ⟨z, hz, rfl⟩ := List.mem_map.1 hy
    exact ⟨z, hz, by rw [e5, hb.name], fun i hi => by rw [← hb.params]; exact hid i hi⟩

/-- Parameters with quotes and backslashes for the examples; a verifier of the code reads another key id from their text. -/
def escParams (k : Str) : SigParams :=
  { nonce := some (c! "n\";keyid=\"other"), keyid := some k, expires := some 100, covered := [⟨.field (c! "date"), []⟩, ⟨.derived .requestTarget, []⟩] }

theorem escParams_writable {k : Str} (hk : ∀ c ∈ k, Printable c) : Repaired.Writable (escParams k) where
  created := by intro t h; cases h
  expires := by intro t h; injection h with h; subst h; decide
  nonce := by intro t h; injection h with h; subst h; decide
  alg := by intro t h; cases h
  keyid := by intro t h; injection h with h; subst h; exact hk
  tag := by intro t h; cases h
  ids := by
    intro i hi
    simp only [escParams, List.mem_cons, List.not_mem_nil, or_false] at hi
    rcases hi with rfl | rfl
    · exact ⟨⟨by simp, by simp, by simp, by intro f h; injection h with h; subst h; decide⟩,
        (by intro f h; injection h with h; subst h; decide), by simp, by simp⟩
    · exact ⟨⟨by simp, by simp, by simp, by intro f h; cases h⟩, (by intro f h; cases h), by simp, by simp⟩
  distinct := by simp [escParams, SameId]

theorem escParams_notSelf (k : Str) : NotSelf (escParams k) := by
  intro i hi _
  simp only [escParams, List.mem_cons, List.not_mem_nil, or_false] at hi
  rcases hi with rfl | rfl
  · exact ⟨by simp, by intro f h; injection h with h; subst h; decide⟩
  · exact ⟨by simp, by intro f h; cases h⟩

theorem toy_noPanic (b : UInt8) : Repaired.NoPanic (toyVerify b) := by
  intro d s; unfold toyVerify; simp only; split <;> simp

theorem pair_ok {x : Headers × Res HyperErr Unit} (h : x.2 = .ok ()) : x = (x.1, .ok ()) := by rw [← h]

set_option maxRecDepth 20000 in
/-- Two signers on a request, quotes in the parameters: they sign, and both keys verify. -/
theorem escParams_signs : (Repair.setSignatures (.req exReq) [(escParams (c! "a\\"), toySign 7, some (c! "x")), (escParams (c! "b"), toySign 8, none)] none).2 = .ok () := by
  decide +kernel
example : ∃ (h' : Headers) (ns : List Str), Repair.setSignatures (.req exReq) [(escParams (c! "a\\"), toySign 7, some (c! "x")), (escParams (c! "b"), toySign 8, none)] none = (h', .ok ()) ∧
    Repair.verifySignatures 100 ((Msg.req exReq).withHeaders h') [(toyVerify 7, some (c! "a\\")), (toyVerify 8, some (c! "b"))] none = .ok (ns.map .ok) := by
  have e : Repair.setSignatures (.req exReq) [(escParams (c! "a\\"), toySign 7, some (c! "x")), (escParams (c! "b"), toySign 8, none)] none =
    (_, .ok ()) := pair_ok escParams_signs
  obtain ⟨ns, h1, _⟩ := C110_sign_verify_labels (now := 100) (m := .req exReq) (rf := none) exReq_wf (by simp) (by decide) (by decide)
    [((escParams (c! "a\\"), toySign 7, some (c! "x")), toyVerify 7), ((escParams (c! "b"), toySign 8, none), toyVerify 8)] (by simp)
    (by intro x hx
        simp only [List.mem_cons, List.not_mem_nil, or_false] at hx
        rcases hx with rfl | rfl
        · exact ⟨toy_pair 7, toy_noPanic 7⟩
        · exact ⟨toy_pair 8, toy_noPanic 8⟩)
    (by intro x hx
        simp only [List.mem_cons, List.not_mem_nil, or_false] at hx
        rcases hx with rfl | rfl <;> exact escParams_notSelf _)
    (by intro x hx e he
        simp only [List.mem_cons, List.not_mem_nil, or_false] at hx
        rcases hx with rfl | rfl <;> (injection he with he; subst he; decide)) e
  exact ⟨_, ns, e, h1⟩
-- a nonce with a line break at the second signer: nothing is written (the code writes the first pair, see C01)
example : Repair.setSignatures (.req exReq) [(exParams [], toySign 1, some (c! "a")), ({ nonce := some (c! "\n"), covered := [] }, toySign 1, none)] none =
    (exReq.headers, .err .invalidHeaderValue) := by decide +kernel
-- two signers with one label: nothing is written
example : Repair.setSignatures (.req exReq) [(exParams [], toySign 1, none), (exParams [], toySign 2, none)] none =
    (exReq.headers, .err .invalidHeaderValue) := by decide +kernel

/-! ### Binding (C09) -/

/-- C110 (C09): if the key accepts only what was signed, then success means that exactly these parameters were signed, with the
values that the message has. -/
theorem C110_bound {vk : VerifyingKey} (hv : Repaired.NoPanic vk) {S : Signing → Prop} (hS : Repaired.OnlySigned vk S)
    (hwf : ∀ x, S x → WfMsg x.m ∧ (∀ r, x.rf = some r → WfRequest r) ∧ Repaired.Writable x.p)
    (hm : WfMsg m) (hf : ∀ r, rf = some r → WfRequest r) {n : Str} (h : Repair.verifySignature now m vk id rf = .ok n) :
    ∃ l sh, Carries m.headers l ∧ (n, sh) ∈ l ∧ ForKey id sh ∧ InTime now sh ∧ ∃ x, S x ∧ x.p = sh.params ∧
      ∃ vs, List.Forall₂ (Repaired.HasValue m rf) sh.params.covered vs ∧ List.Forall₂ (Repaired.HasValue x.m x.rf) sh.params.covered vs := by
  obtain ⟨l, h1, hn⟩ := (Repair.verifySignature_ok hv (WfMsg.wfHeaders hm) (fun r hr => (hf r hr).headers) n).1 h
  obtain ⟨sh, h2, t, a1, a2, a3, a4⟩ := firstWith_mem hn
  obtain ⟨x, hx, t', b1, b2⟩ := hS _ _ a4
  obtain ⟨c1, c2, c3⟩ := hwf x hx
  obtain ⟨e, vs, d1, d2⟩ := Repair.base_determines hm c1 hf c2 (Repair.carried_writable h1 h2) c3 a1 b1 b2
  exact ⟨l, sh, h1, h2, a2, a3, x, hx, e.symm, vs, d1, d2⟩

/-- A signing for the example. -/
def qSigning : Signing := ⟨.req exReq, none, escParams (c! "b")⟩

set_option maxRecDepth 20000 in
/-- C110_bound has instances: the signed request verifies under a key that accepts this base only. -/
example : ∃ b, Repair.buildBase (.req exReq) (escParams (c! "b")) none = .ok b ∧ Repaired.OnlySigned (onlyKey (Repair.baseDisp b)) (· = qSigning) ∧
    Repaired.NoPanic (onlyKey (Repair.baseDisp b)) ∧
    Repair.verifySignature 100 (.req { exReq with headers := (Repair.setSignatures (.req exReq) [(escParams (c! "b"), toySign 8, none)] none).1 })
      (onlyKey (Repair.baseDisp b)) none none = .ok (c! "sig") := by
  refine ⟨_, rfl, ?_, ?_, ?_⟩
  · intro d s h
    unfold onlyKey at h
    simp only at h
    split at h
    · rename_i e
      exact ⟨qSigning, rfl, _, (Repair.buildBase_spec (m := .req exReq) (rf := none) exReq_wf (by simp) _).1 ⟨_, rfl, rfl⟩, e⟩
    · cases h
  · intro d s; unfold onlyKey; simp only; split <;> simp
  · decide +kernel

/-! ### Nothing else changes -/

theorem applied_noKey {ps : List CParam} {vs out : List Str} (h : Applied ps vs out) (hk : ∀ k, CParam.key k ∉ ps) (e : out = []) : vs = [] := by
  induction h with
  | done => exact e
  | req _ ih => exact ih (fun k hm => hk k (by simp [hm])) e
  | sf h _ ih =>
    have := ih (fun k hm => hk k (by simp [hm])) e
    subst this; cases h; rfl
  | @key k => exact absurd (List.mem_cons_self ..) (hk k)

theorem repaired_value_same {i : CId} (h : Repaired.Unchanged m rf i) (v : Str) : Repaired.HasValue m rf i v ↔ Spec.HasValue m rf i v := by
  have one : ∀ m', Repaired.Source m rf i m' → (Repaired.ValueIn m' i v ↔ Spec.ValueIn m' i v) := by
    intro m' hs
    unfold Repaired.ValueIn
    cases hn : i.name with
    | field f =>
      simp only
      unfold Spec.ValueIn
      rw [hn]
      simp only
      constructor
      · rintro ⟨ts, out, h1, h2, _, h4⟩; exact ⟨ts, out, h1, h2, h4⟩
      · rintro ⟨ts, out, h1, h2, h4⟩
        refine ⟨ts, out, h1, h2, ?_, h4⟩
        intro e
        have := applied_noKey h2 (fun k => h.noKey f k hn) e
        exact h.present m' f hs hn ((lineTexts_nil h1).1 this)
    | derived d =>
      simp only
      split
      · rename_i hd; subst hd
        unfold Spec.ValueIn
        rw [hn]
        cases m' with
        | req r =>
          simp only [Msg.req.injEq, RequestValue, Repaired.target, if_neg (h.noOptions r hs hn)]
          constructor
          · rintro ⟨_, rfl, h1, h2⟩; exact ⟨h1, h2⟩
          · rintro ⟨h1, h2⟩; exact ⟨r, rfl, h1, h2⟩
        | res s => simp [ResponseValue]
      · exact Iff.rfl
  unfold Repaired.HasValue Spec.HasValue
  split
  · rename_i hr
    refine exists_congr fun s => exists_congr fun r => and_congr_right fun _ => and_congr_right fun hrf => ?_
    exact one _ (by unfold Repaired.Source; rw [if_pos hr]; exact ⟨r, hrf, rfl⟩)
  · rename_i hr
    exact one _ (by unfold Repaired.Source; rw [if_neg hr])

theorem repaired_base_same {p : SigParams} (hp : SafeParams p) (hu : ∀ i ∈ p.covered, Repaired.Unchanged m rf i) (t : Str) :
    Repaired.BaseOf m rf p t ↔ Spec.BaseOf m rf p t := by
  unfold Repaired.BaseOf Spec.BaseOf baseText
  refine exists_congr fun vs => ?_
  have e1 : ∀ ids : List CId, (∀ i ∈ ids, i ∈ p.covered) → ∀ vs : List Str,
      (List.Forall₂ (Repaired.HasValue m rf) ids vs ↔ List.Forall₂ (Spec.HasValue m rf) ids vs) ∧
      List.zipWith (fun i v => serItem (Repaired.itemOf i) ++ c! ": " ++ v ++ c! "\n") ids vs = List.zipWith (fun (i : CId) v => i.disp ++ c! ": " ++ v ++ c! "\n") ids vs := by
    intro ids hi
    induction ids with
    | nil => intro vs; cases vs <;> simp
    | cons i t ih =>
      intro vs
      cases vs with
      | nil => simp
      | cons v vs =>
        obtain ⟨a, b⟩ := ih (fun j hj => hi j (by simp [hj])) vs
        constructor
        · rw [List.forall₂_cons, List.forall₂_cons, a, repaired_value_same (hu i (hi i (by simp)))]
        · rw [List.zipWith_cons_cons, List.zipWith_cons_cons, b, Repair.itemOf_eq, disp_eq_ser (hp.ids i (hi i (by simp)))]
  obtain ⟨a, b⟩ := e1 _ (fun _ h => h) vs
  rw [a, b, Repair.serInner_disp, Repair.disp_safe hp]

/-- C110: if no carried signature needs escapes or covers a component that the changes concern, the result of verification is
accepted with the changes exactly when it is accepted without them. -/
theorem C110_conservative {k : VerifyingKey} (hv : Repaired.NoPanic k) (hw : WfHeaders m.headers) (hf : ∀ r, rf = some r → WfHeaders r.headers)
    (hu : ∀ l, Carries m.headers l → ∀ kv ∈ l, SafeParams kv.2.params ∧ ∀ i ∈ kv.2.params.covered, Repaired.Unchanged m rf i) (n : Str) :
    Repair.verifySignature now m k id rf = .ok n ↔ verifySignature now m k id rf = .ok n := by
  rw [Repair.verifySignature_ok hv hw hf, C10_ok_iff hw hf]
  refine exists_congr fun l => and_congr_right fun hc => ?_
  have same : ∀ kv ∈ l, (Repaired.Accepts now m rf k id kv.2 ↔ Spec.Accepts now m rf k id kv.2) := by
    intro kv hkv
    obtain ⟨h1, h2⟩ := hu l hc kv hkv
    exact exists_congr fun t => and_congr_left fun _ => repaired_base_same h1 h2 t
  have crash : ∀ kv ∈ l, ¬ Crashes now m rf k id kv.2 := fun kv _ ⟨t, _, _, _, h⟩ => hv _ _ h
  unfold FirstWith
  constructor
  · rintro ⟨l1, sh, l2, rfl, h1, h2⟩
    exact ⟨crash, l1, sh, l2, rfl, (same (n, sh) (by simp)).1 h1, fun kv hkv ha => h2 kv hkv ((same kv (by simp [hkv])).2 ha)⟩
  · rintro ⟨_, l1, sh, l2, rfl, h1, h2⟩
    exact ⟨l1, sh, l2, rfl, (same (n, sh) (by simp)).2 h1, fun kv hkv ha => h2 kv hkv ((same kv (by simp [hkv])).1 ha)⟩

theorem repaired_extract_err (h : extractSignatureHeaders m ≠ .panic) : Repair.extractSignatureHeaders m = extractSignatureHeaders m := by
  unfold Repair.extractSignatureHeaders extractSignatureHeaders at *
  simp only at h ⊢
  split
  · rfl
  rename_i hh
  rw [if_neg hh] at h
  cases h1 : headerTexts m.headers hSignatureInput with
  | err e => rfl
  | panic => rfl
  | ok i =>
    cases h2 : headerTexts m.headers hSignature with
    | err e => rfl
    | panic => rfl
    | ok s =>
      rw [h1, h2] at h
      simp only [Res.bind_ok] at h ⊢
      have hn := Repair.near_tryParse (join (c! ", ") s) (join (c! ", ") i)
      revert h hn
      generalize SigHeaders.tryParse (join (c! ", ") s) (join (c! ", ") i) = x
      generalize Repair.tryParse (join (c! ", ") s) (join (c! ", ") i) = y
      intro h hn
      cases hn with
      | same => rfl
      | caught he => exact absurd rfl h

theorem repaired_no_candidate (hw : WfHeaders m.headers) (hf : ∀ r, rf = some r → WfHeaders r.headers) (l : List (Str × SigHeaders)) :
    filterKeyId (l.filterMap (Repair.entryOf m rf)) id = [] ↔ ∀ kv ∈ l, ¬ ((∃ t, Repaired.BaseOf m rf kv.2.params t) ∧ ForKey id kv.2) := by
  rw [filterKeyId_eq, List.filter_eq_nil_iff]
  have hid : ∀ kv : Str × SigHeaders, ∀ b, Repair.buildBase m kv.2.params rf = .ok b → (keyTest id (kv.1, (b, kv.2)) = true ↔ ForKey id kv.2) := by
    intro kv b hb
    unfold keyTest ForKey
    cases id with
    | none => simp
    | some i => simp [SigBase.keyid, Repair.buildBase_params hb]
  constructor
  · rintro h kv hkv ⟨⟨t, ht⟩, hk⟩
    obtain ⟨b, hb, _⟩ := (Repair.buildBase_spec hw hf _).2 ht
    refine h (kv.1, (b, kv.2)) (List.mem_filterMap.2 ⟨kv, hkv, ?_⟩) ((hid kv b hb).2 hk)
    unfold Repair.entryOf; rw [hb]; rfl
  · intro h x hx ht
    obtain ⟨kv, hkv, he⟩ := List.mem_filterMap.1 hx
    unfold Repair.entryOf at he
    obtain ⟨b, hb, rfl⟩ := Option.map_eq_some_iff.1 he
    have hb := Res.toOpt_eq_some.1 hb
    exact h kv hkv ⟨⟨_, (Repair.buildBase_spec hw hf _).1 ⟨b, hb, rfl⟩⟩, (hid kv b hb).1 ht⟩

/-- C110: then errors are the same too, unless reading the signatures panics without the changes. -/
theorem C110_conservative_errors {k : VerifyingKey} (hv : Repaired.NoPanic k) (hw : WfHeaders m.headers) (hf : ∀ r, rf = some r → WfHeaders r.headers)
    (hu : ∀ l, Carries m.headers l → ∀ kv ∈ l, SafeParams kv.2.params ∧ ∀ i ∈ kv.2.params.covered, Repaired.Unchanged m rf i)
    (hp : extractSignatureHeaders m ≠ .panic) :
    Repair.verifySignature now m k id rf = verifySignature now m k id rf := by
  cases hc : verifySignature now m k id rf with
  | ok n => exact (C110_conservative hv hw hf hu n).2 hc
  | panic =>
    rw [verifySignature_eq] at hc
    rcases Res.bind_eq_panic.1 hc with h | ⟨l, hl, h⟩
    · exact absurd h hp
    · obtain ⟨kv, _, t, _, _, _, h⟩ := (verifyOne_cases hw hf l).1.1 h
      exact absurd h (hv _ _)
  | err e =>
    have hno : ∀ n, Repair.verifySignature now m k id rf ≠ .ok n := by
      intro n h
      rw [(C110_conservative hv hw hf hu n).1 h] at hc
      cases hc
    rw [verifySignature_eq] at hc
    rw [Repair.verifySignature_eq, repaired_extract_err hp] at hno ⊢
    cases hl : extractSignatureHeaders m with
    | panic => exact absurd hl hp
    | err e' => rw [hl] at hc; exact hc
    | ok l =>
      rw [hl] at hc hno
      simp only [Res.bind_ok] at hc hno ⊢
      have hcar := (extractSignatureHeaders_ok hw l).1 hl
      have hcand : filterKeyId (l.filterMap (Repair.entryOf m rf)) id = [] ↔ ∀ kv ∈ l, ¬ Candidate m rf id kv.2 := by
        rw [repaired_no_candidate hw hf]
        refine forall_congr' fun kv => forall_congr' fun hkv => not_congr (and_congr_left fun _ => exists_congr fun t => ?_)
        obtain ⟨h1, h2⟩ := hu l hcar kv hkv
        exact repaired_base_same h1 h2 t
      obtain ⟨_, _, c1, c2, c3⟩ := verifyOne_cases (now := now) (k := k) (id := id) hw hf l
      rw [Repair.verifyOne_eq hv] at hno ⊢
      rcases c3 e hc with rfl | rfl
      · rw [if_pos (hcand.2 (c1.1 hc))]
      · obtain ⟨_, ⟨kv, hkv, hcd⟩, _⟩ := c2.1 hc
        have hne : ¬ filterKeyId (l.filterMap (Repair.entryOf m rf)) id = [] := fun h => hcand.1 h kv hkv hcd
        rw [if_neg hne] at hno ⊢
        cases hx : (l.filterMap (Repair.accepted now m rf k id)).head? with
        | none => rfl
        | some n => rw [hx] at hno; exact absurd rfl (hno n)

/-- C110: likewise signing adds the same lines. -/
theorem C110_conservative_sign (hw : WfHeaders m.headers) (hf : ∀ r, rf = some r → WfHeaders r.headers) {l0 : List (Str × SigHeaders)}
    (h0 : HasSignatures m.headers l0) {l : List Signer} (hp : ∀ x ∈ l, SafeParams x.1 ∧ LegalKey x.label) (hd : (l.map Signer.label).Nodup)
    (hu : ∀ x ∈ l, ∀ i ∈ x.1.covered, Repaired.Unchanged m rf i) (h' : Headers) :
    Repair.setSignatures m l rf = (h', .ok ()) ↔ setSignatures m l rf = (h', .ok ()) := by
  have same : ∀ (l1 : List Signer), (∀ x ∈ l1, x ∈ l) → ∀ hs, (List.Forall₂ (Repaired.SignedBy m rf) l1 hs ↔ List.Forall₂ (Spec.SignedBy m rf) l1 hs) := by
    intro l1 hl
    induction l1 with
    | nil => intro hs; cases hs <;> simp
    | cons x t ih =>
      intro hs
      cases hs with
      | nil => simp
      | cons sh hs =>
        rw [List.forall₂_cons, List.forall₂_cons, ih (fun y hy => hl y (by simp [hy]))]
        refine and_congr_left fun _ => ?_
        have hx := hl x (by simp)
        have e := repaired_base_same (rf := rf) (m := m) (hp x hx).1 (hu x hx)
        constructor
        · rintro ⟨a, b, t, c, d⟩; exact ⟨a, b, t, (e t).1 c, d⟩
        · rintro ⟨a, b, t, c, d⟩; exact ⟨a, b, t, (e t).2 c, d⟩
  have lines : ∀ hs, List.Forall₂ (Spec.SignedBy m rf) l hs → hs.flatMap Repaired.newLines = hs.flatMap sigLines ∧ ∀ sh ∈ hs, (hvOfStr sh.inputValue).isSome := by
    intro hs h
    have hsafe := signed_safe h hp
    constructor
    · clear h
      induction hs with
      | nil => rfl
      | cons a t ih =>
        rw [List.flatMap_cons, List.flatMap_cons, ih (fun sh hsh => hsafe sh (by simp [hsh]))]
        congr 1
        unfold Repaired.newLines sigLines
        rw [Repair.serInner_disp, Repair.disp_safe (hsafe a (by simp)).params]
    · intro sh hsh
      rw [hvOfStr_printable (safe_input_printable (hsafe sh hsh))]; rfl
  have wr : ∀ {p : SigParams}, SafeParams p → Repaired.Writable p := fun h =>
    ⟨h.created, h.expires, fun s hs => safe_printable (h.nonce s hs), fun s hs => safe_printable (h.alg s hs), fun s hs => safe_printable (h.keyid s hs),
      fun s hs => safe_printable (h.tag s hs), fun i hi => ⟨(h.ids i hi).toIdRules, fun f hf => safe_printable ((h.ids i hi).nameText f hf),
        fun f hf => safe_printable ((h.ids i hi).keyText f hf), fun f hf => safe_printable ((h.ids i hi).nameParam f hf)⟩, h.distinct⟩
  constructor
  · intro h
    obtain ⟨hs, h1, rfl, _⟩ := C110_signed hw hf h
    have h1 := (same l (fun _ h => h) hs).1 h1
    exact (setSignatures_ok hw hf l _).2 ⟨hs, h1, (lines hs h1).2, by rw [(lines hs h1).1]⟩
  · intro h
    obtain ⟨hs, h1, _, rfl⟩ := (setSignatures_ok hw hf l h').1 h
    rw [← (lines hs h1).1]
    exact (C110_signs hw hf h0 ((same l (fun _ h => h) hs).2 h1) (fun x hx => ⟨wr (hp x hx).1, (hp x hx).2⟩) hd).1

theorem wIds_unchanged : ∀ i ∈ wIds, ∀ h : Headers, fieldLines h (c! "date") ≠ [] → Repaired.Unchanged (.req { exReq with headers := h }) none i := by
  intro i hi h hd
  simp only [wIds, List.mem_cons, List.not_mem_nil, or_false] at hi
  rcases hi with rfl | rfl
  · refine ⟨?_, by simp, by simp⟩
    intro m' f hs hf
    injection hf with hf; subst hf
    simp only [Repaired.Source, List.not_mem_nil, if_false] at hs
    subst hs; exact hd
  · exact ⟨by simp, by simp, by simp⟩

/-- Headers of a request signed by the code. -/
def wSigned : Headers := (setSignatures (.req exReq) [(wParams (c! "k") wIds, toySign 7, none)] none).1

set_option maxRecDepth 20000 in
/-- C110_conservative_sign, C110_conservative and C110_conservative_errors have instances: a usual request is signed and verified as before. -/
example : Repair.setSignatures (.req exReq) [(wParams (c! "k") wIds, toySign 7, none)] none = (wSigned, .ok ()) ∧
    Repair.verifySignature 100 (.req { exReq with headers := wSigned }) (toyVerify 7) (some (c! "k")) none = .ok (c! "sig") ∧
    Repair.verifySignature 100 (.req { exReq with headers := wSigned }) (toyVerify 8) (some (c! "k")) none = .err .invalidSignature := by
  constructor
  · refine (C110_conservative_sign (m := .req exReq) (rf := none) exReq_wf (by simp) (l0 := []) (Or.inl ⟨by decide, by decide, rfl⟩) ?_ (by simp) ?_ _).2 (pair_ok (by decide))
    · intro x hx; rw [List.mem_singleton.1 hx]; exact ⟨wParams_safe (by decide), by decide⟩
    · intro x hx i hi
      rw [List.mem_singleton.1 hx] at hi
      exact wIds_unchanged i hi exReq.headers (by decide)
  · have hw : WfHeaders wSigned := by
      intro kv hkv
      have : wSigned = exReq.headers ++ sigLines ⟨c! "sig", [99, 7], wParams (c! "k") wIds⟩ := by decide +kernel
      rw [this] at hkv
      rcases List.mem_append.1 hkv with h | h
      · exact exReq_wf kv h
      · simp only [sigLines, List.mem_cons, List.not_mem_nil, or_false] at h
        rcases h with rfl | rfl <;> exact ⟨by decide, by decide, by decide⟩
    have hc : Carries wSigned [(c! "sig", ⟨c! "sig", [99, 7], wParams (c! "k") wIds⟩)] :=
      (extractSignatureHeaders_ok (m := .req { exReq with headers := wSigned }) hw _).1 (by decide +kernel)
    have hu : ∀ l, Carries wSigned l → ∀ kv ∈ l, SafeParams kv.2.params ∧ ∀ i ∈ kv.2.params.covered, Repaired.Unchanged (.req { exReq with headers := wSigned }) none i := by
      intro l hl kv hkv
      rw [carries_unique hw hl hc] at hkv
      rw [List.mem_singleton.1 hkv]
      exact ⟨wParams_safe (by decide), fun i hi => wIds_unchanged i hi wSigned (by decide +kernel)⟩
    refine ⟨(C110_conservative (m := .req { exReq with headers := wSigned }) (toy_noPanic 7) hw (by simp) hu _).2 (by decide +kernel), ?_⟩
    rw [C110_conservative_errors (m := .req { exReq with headers := wSigned }) (toy_noPanic 8) hw (by simp) hu (by decide +kernel)]
    decide +kernel

end Verif
