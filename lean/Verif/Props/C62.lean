import Verif.Proofs.Rfc
import Verif.Props.C10
/-!
C62: agreement with the signature base of RFC 9421, written down on its own in `Spec/Rfc9421.lean`, and where the library parts from it.
The full statement, that the library computes the base of the RFC whenever there is one and reports an error otherwise, is false
(`C62_differs_*`). What is missing from the `_partial` theorems are the conditions of `Usual`.
-/
namespace Verif
open Sfv Spec Rfc9421

/-- The text the library signs or verifies for a member of Signature-Input; `none` if it reports an error. -/
def codeBase (m : Msg) (rf : Option Request) (l : InnerList) : Option Str :=
  match SigParams.ofEntry (.inner l) with
  | .ok p => match buildBase m p rf with | .ok b => some b.disp | _ => none
  | _ => none

theorem codeBase_of {m : Msg} {rf : Option Request} {l : InnerList} {p : SigParams} {t : Str} (hw : WfHeaders m.headers)
    (hf : ∀ r, rf = some r → WfHeaders r.headers) (h1 : SigParams.ofEntry (.inner l) = .ok p) (h2 : BaseOf m rf p t) :
    codeBase m rf l = some t := by
  obtain ⟨b, hb, rfl⟩ := (buildBase_spec hw hf t).2 h2
  unfold codeBase
  rw [h1]; simp only; rw [hb]

/-- C62: if the RFC defines a base for a member of Signature-Input, and none of the listed conditions is missed, the library
computes the same text. -/
theorem C62_same_base_partial {c : Ctx} {m : Msg} {rf : Option Request} {l : InnerList} {t : Str} (hw : WfHeaders m.headers)
    (hf : ∀ r, rf = some r → WfHeaders r.headers) (hl : LegalEntry (.inner l)) (h : base c m rf l = some t) (hu : Usual c m rf l) :
    codeBase m rf l = some t := by
  obtain ⟨p, h1, h2, h3⟩ := Rfc.base_core hw hf hl h hu
  exact codeBase_of hw hf (by rw [← h1]; exact ofEntry_paramsEntry h2) h3

/-- C62: what the library signs for parameters that can be written down is the base of the RFC for the member it sends. -/
theorem C62_sign_partial {c : Ctx} {m : Msg} {rf : Option Request} {p : SigParams} {l : InnerList} {t : Str} (hw : WfHeaders m.headers)
    (hf : ∀ r, rf = some r → WfHeaders r.headers) (hs : SafeParams p) (hd : parseList p.disp = some [.inner l])
    (h : base c m rf l = some t) (hu : ∀ i ∈ l.items, UsualItem c m rf i) :
    ∃ b, buildBase m p rf = .ok b ∧ b.disp = t := by
  have hleg := paramsEntry_legal hs
  have hser : parseList p.disp = some [paramsEntry p] := by
    rw [params_disp_eq hs]
    exact parseList_ser (by intro e he; simp at he; subst he; exact hleg) (by simp [serList])
  rw [hser] at hd
  have he : paramsEntry p = .inner l := by injection hd with hd; injection hd
  have hps : UsualParams l.params := by
    have : l.params = paramsKV p := by
      unfold paramsEntry at he; injection he with he; rw [← he]
    rw [this]
    obtain ⟨cr, ex, no, al, ki, ta, ids⟩ := p
    refine ⟨?_, ?_, ?_⟩
    · have num : ∀ (n : Str) (o : Option UInt64), ((kvNum n o).map Prod.fst).Sublist [n] := by
        intro n o; cases o <;> simp [kvNum]
      have txt : ∀ (n : Str) (o : Option Str), ((kvText n o).map Prod.fst).Sublist [n] := by
        intro n o; cases o <;> simp [kvText]
      simp only [paramsKV, List.map_append]
      exact ((((((num _ _).append (num _ _)).append (txt _ _)).append (txt _ _)).append (txt _ _)).append (txt _ _))
    · intro kv hkv hk
      simp only [paramsKV, List.mem_append, or_assoc] at hkv
      have num : ∀ {n : Str} {o : Option UInt64}, (∀ t, o = some t → t.toNat < 10 ^ 15) → kv ∈ kvNum n o →
          ∃ n : Nat, kv.2 = .int n ∧ n < 10 ^ 15 := by
        intro n o ho hkv
        cases o with
        | none => cases hkv
        | some t => simp only [kvNum, List.mem_singleton] at hkv; subst hkv; exact ⟨t.toNat, rfl, ho t rfl⟩
      have txt : ∀ {n : Str} {o : Option Str}, n ≠ c! "created" → n ≠ c! "expires" → kv ∈ kvText n o → False := by
        intro n o h1 h2 hkv
        cases o with
        | none => cases hkv
        | some t =>
          simp only [kvText, List.mem_singleton] at hkv; subst hkv
          rcases hk with hk | hk
          exacts [h1 hk, h2 hk]
      rcases hkv with h | h | h | h | h | h
      · exact num hs.created h
      · exact num hs.expires h
      all_goals exact absurd h (fun h => txt (by decide) (by decide) h)
    · intro kv hkv hk1 hk2
      simp only [paramsKV, List.mem_append, or_assoc] at hkv
      have num : ∀ {n : Str} {o : Option UInt64}, kv ∈ kvNum n o → kv.1 = n := by
        intro n o hkv
        cases o with
        | none => cases hkv
        | some t => simp only [kvNum, List.mem_singleton] at hkv; subst hkv; rfl
      have txt : ∀ {n : Str} {o : Option Str}, (∀ t, o = some t → SafeText t) → kv ∈ kvText n o → ∃ s, kv.2 = .str s ∧ SafeText s := by
        intro n o ho hkv
        cases o with
        | none => cases hkv
        | some t => simp only [kvText, List.mem_singleton] at hkv; subst hkv; exact ⟨t, rfl, ho t rfl⟩
      rcases hkv with h | h | h | h | h | h
      · exact absurd (num h) hk1
      · exact absurd (num h) hk2
      exacts [txt hs.nonce h, txt hs.alg h, txt hs.keyid h, txt hs.tag h]
  obtain ⟨q, h1, h2, h3⟩ := Rfc.base_core hw hf (by rw [← he]; exact hleg) h ⟨hps, hu⟩
  have : q = p := by
    have e1 := ofEntry_paramsEntry h2
    rw [h1, ← he, ofEntry_paramsEntry hs] at e1
    injection e1 with e1; exact e1.symm
  subst this
  exact (buildBase_spec hw hf t).2 h3

/-! ### Verification as the RFC describes it -/

/-- The member is a signature by this key, in the words of the RFC: it verifies for the base of the RFC, names the key if a key id is asked
for, and has not expired. `a` is the Signature dictionary. -/
def RfcAccepts (c : Ctx) (now : UInt64) (m : Msg) (rf : Option Request) (k : VerifyingKey) (id : Option Str) (a : Dict) (kv : Str × Entry) :
    Prop :=
  ∃ l t sig ps, kv.2 = .inner l ∧ base c m rf l = some t ∧ (kv.1, .item ⟨.bytes sig, ps⟩) ∈ a ∧
    (∀ i, id = some i → l.params.lookup (c! "keyid") = some (.str i)) ∧
    (∀ e : Int, l.params.lookup (c! "expires") = some (.int e) → (now.toNat : Int) ≤ e) ∧
    k.verify (utf8 t) sig = .ok ()

theorem lookup_keyid (p : SigParams) (i : Str) : (paramsKV p).lookup (c! "keyid") = some (.str i) ↔ p.keyid = some i := by
  obtain ⟨c, e, n, a, k, t, ids⟩ := p
  cases c <;> cases e <;> cases n <;> cases a <;> cases k <;> cases t <;> simp [paramsKV, kvNum, kvText, List.lookup]

theorem lookup_expires (p : SigParams) (e : Int) :
    (paramsKV p).lookup (c! "expires") = some (.int e) ↔ ∃ u, p.expires = some u ∧ e = (u.toNat : Int) := by
  obtain ⟨c, x, n, a, k, t, ids⟩ := p
  cases c <;> cases x <;> cases n <;> cases a <;> cases k <;> cases t <;> simp [paramsKV, kvNum, kvText, List.lookup, eq_comm]

theorem base_unique {m : Msg} {rf : Option Request} {p : SigParams} {t u : Str} (hw : WfHeaders m.headers)
    (hf : ∀ r, rf = some r → WfHeaders r.headers) (h1 : BaseOf m rf p t) (h2 : BaseOf m rf p u) : t = u := by
  obtain ⟨b, hb, rfl⟩ := (buildBase_spec hw hf t).2 h1
  obtain ⟨b', hb', rfl⟩ := (buildBase_spec hw hf u).2 h2
  rw [hb] at hb'; injection hb' with hb'; rw [hb']

theorem forall₂_cut {α β : Type} {R : α → β → Prop} {l : List α} {r1 : List β} {y : β} {r2 : List β}
    (h : List.Forall₂ R l (r1 ++ y :: r2)) : ∃ l1 x l2, l = l1 ++ x :: l2 ∧ List.Forall₂ R l1 r1 ∧ R x y := by
  induction r1 generalizing l with
  | nil => cases h with | cons h1 h2 => exact ⟨[], _, _, rfl, .nil, h1⟩
  | cons z r1 ih =>
    cases h with
    | cons h1 h2 =>
      obtain ⟨l1, x, l2, rfl, h3, h4⟩ := ih h2
      exact ⟨_ :: l1, x, l2, rfl, .cons h1 h3, h4⟩

/-- C62: if all members of Signature-Input are signatures for which the RFC defines a base that meets the conditions, verification
succeeds exactly with the first member that the RFC accepts. -/
theorem C62_verify_partial {c : Ctx} {now : UInt64} {m : Msg} {rf : Option Request} {k : VerifyingKey} {id : Option Str} {ts us : List Str} {a b : Dict}
    (hw : WfHeaders m.headers) (hf : ∀ r, rf = some r → WfHeaders r.headers) (hk : ∀ d s, k.verify d s ≠ .panic)
    (ht : LineTexts (fieldLines m.headers (c! "signature-input")) ts) (hs : LineTexts (fieldLines m.headers (c! "signature")) us)
    (hne : ts ≠ [] ∧ us ≠ []) (ha : parseDict (join (c! ", ") us) = some a) (hb : parseDict (join (c! ", ") ts) = some b)
    (hlab : ∀ n, n ∈ a.map Prod.fst ↔ n ∈ b.map Prod.fst) (hby : ∀ kv ∈ a, ∃ x ps, kv.2 = .item ⟨.bytes x, ps⟩)
    (hm : ∀ kv ∈ b, ∃ l t, kv.2 = .inner l ∧ base c m rf l = some t ∧ Usual c m rf l) (n : Str) :
    verifySignature now m k id rf = .ok n ↔
      ∃ b1 e b2, b = b1 ++ (n, e) :: b2 ∧ RfcAccepts c now m rf k id a (n, e) ∧ ∀ kv ∈ b1, ¬ RfcAccepts c now m rf k id a kv := by
  have hleg := parseDict_legal hb
  have hlega := parseDict_legal ha
  -- the signatures the library sees
  have build : ∀ b' : Dict, (∀ kv ∈ b', kv ∈ b) → ∃ l : List (Str × SigHeaders), List.Forall₂ (fun (x : Str × SigHeaders) (y : Str × Entry) =>
      x.1 = y.1 ∧ x.2.name = x.1 ∧ (∃ ps, (x.1, .item ⟨.bytes x.2.signature, ps⟩) ∈ a) ∧
      SigParams.ofEntry y.2 = .ok x.2.params ∧
      (Accepts now m rf k id x.2 ↔ RfcAccepts c now m rf k id a y)) l b' := by
    intro b' hb'
    induction b' with
    | nil => exact ⟨[], .nil⟩
    | cons y b' ih =>
      obtain ⟨l, hl⟩ := ih (fun kv h => hb' kv (by simp [h]))
      have hy := hb' y (by simp)
      obtain ⟨il, t, e1, e2, e3⟩ := hm y hy
      obtain ⟨yk, ye⟩ := y
      simp only at e1; subst e1
      obtain ⟨p, h1, h2, h3⟩ := Rfc.base_core hw hf (hleg.2 _ hy).2 e2 e3
      have hya : yk ∈ a.map Prod.fst := (hlab yk).2 (List.mem_map.2 ⟨_, hy, rfl⟩)
      obtain ⟨⟨k', v⟩, hv, rfl⟩ := List.mem_map.1 hya
      obtain ⟨x, ps, rfl⟩ := hby _ hv
      have hof : SigParams.ofEntry (.inner il) = .ok p := by rw [← h1]; exact ofEntry_paramsEntry h2
      have hps : il.params = paramsKV p := by
        unfold paramsEntry at h1; injection h1 with h1; rw [← h1]
      refine ⟨(k', ⟨k', x, p⟩) :: l, .cons ⟨rfl, rfl, ⟨ps, hv⟩, hof, ?_⟩ hl⟩
      constructor
      · rintro ⟨t', q1, q2, q3, q4⟩
        have := base_unique hw hf q1 h3
        subst this
        refine ⟨il, t', x, ps, rfl, e2, hv, ?_, ?_, q4⟩
        · intro i hi; rw [hps, lookup_keyid]; exact q2 i hi
        · intro e he
          rw [hps, lookup_expires] at he
          obtain ⟨u, hu, rfl⟩ := he
          have := q3 u hu
          rw [UInt64.le_iff_toNat_le] at this
          omega
      · rintro ⟨il', t', sig, ps', q0, q1, q2, q3, q4, q5⟩
        injection q0 with q0; subst q0
        rw [e2] at q1; injection q1 with q1; subst q1
        have hsig : sig = x := by
          have e1 := Rfc.lookup_of_mem hlega.1 q2
          have e2 := Rfc.lookup_of_mem hlega.1 hv
          simp only at e1 e2
          rw [e1] at e2
          injection e2 with e2; injection e2 with e2; injection e2 with e2 _; injection e2
        subst hsig
        refine ⟨t, h3, ?_, ?_, q5⟩
        · intro i hi
          have := q3 i hi
          rwa [hps, lookup_keyid] at this
        · intro u hu
          have := q4 (u.toNat : Int) (by rw [hps, lookup_expires]; exact ⟨u, hu, rfl⟩)
          rw [UInt64.le_iff_toNat_le]
          omega
  obtain ⟨l, hl⟩ := build b (fun _ h => h)
  have hcar : Carries m.headers l := by
    refine ⟨ts, us, a, b, ht, hs, hne.1, hne.2, ha, hb, hlab, hby, ?_, ?_, ?_⟩
    · intro kv hkv; obtain ⟨il, _, h, _⟩ := hm kv hkv; exact ⟨il, h⟩
    · exact forall₂_map_eq hl (fun _ _ h => h.1)
    · intro kh hkh
      obtain ⟨y, hy, h1, h2, h3, h4, _⟩ := forall₂_mem_left hl kh hkh
      refine ⟨h2, h3, y.2, ?_, h4⟩
      rw [h1]; exact hy
  rw [C10_ok_iff hw hf]
  constructor
  · rintro ⟨l', hc, _, l1, h, l2, e, hacc, hno⟩
    have := carries_unique hw hc hcar
    subst this; subst e
    obtain ⟨b1, y, b2, rfl, g1, g2⟩ := forall₂_cut hl.flip
    obtain ⟨yk, ye⟩ := y
    obtain ⟨gk, _, _, _, gacc⟩ := g2
    simp only at gk; subst gk
    refine ⟨b1, ye, b2, rfl, gacc.1 hacc, ?_⟩
    intro kv hkv hr
    obtain ⟨x, hx, hxa⟩ := forall₂_mem_left g1 kv hkv
    exact hno x hx (hxa.2.2.2.2.2 hr)
  · rintro ⟨b1, e, b2, rfl, hacc, hno⟩
    obtain ⟨l1, x, l2, rfl, g1, g2⟩ := forall₂_cut hl
    obtain ⟨xk, xh⟩ := x
    obtain ⟨gk, _, _, _, gacc⟩ := g2
    simp only at gk; subst gk
    refine ⟨_, hcar, ?_, l1, xh, l2, rfl, gacc.2 hacc, ?_⟩
    · rintro kv _ ⟨t, _, _, _, hp⟩
      exact hk _ _ hp
    · intro kv hkv hr
      obtain ⟨y, hy, hya⟩ := forall₂_mem_left g1 kv hkv
      exact hno y hy (hya.2.2.2.2.1 hr)

/-! ### Examples -/

/-- The context of the examples: `d` is a dictionary field, the connection is https. -/
def dCtx : Ctx := { kind := fun n => if n = c! "d" then some .dict else none, scheme := c! "https" }

/-- The member of Signature-Input that a text is. -/
def memberOf (s : Str) : InnerList := match parseList s with | some [.inner l] => l | _ => ⟨[], []⟩

def dPost : Msg := .req
  { method := c! "POST", uri := ⟨none, none, c! "/p", some (c! "b=x%2fy&c=1&c=2&e=a+b")⟩,
    headers := [(c! "host", utf8 (c! "example.com")), (c! "date", utf8 (c! "Tue")), (c! "d", utf8 (c! "a=1, b=2")), (c! "d", utf8 (c! "a=3")),
      (c! "sp", utf8 (c! " x "))],
    body := .data [] }
def dLower : Msg := .req { method := c! "get", uri := ⟨none, none, c! "/p", none⟩, headers := [(c! "d", utf8 (c! "a, a"))], body := .data [] }
def dOptions : Msg := .req { method := c! "OPTIONS", uri := ⟨none, none, c! "/p", none⟩, headers := [], body := .data [] }
def dAbs : Msg := .req { method := c! "GET", uri := ⟨some (c! "https"), some (c! "EX.com:443"), c! "/p", none⟩, headers := [], body := .data [] }

def dInput : Str :=
  c! "(\"@method\" \"@authority\" \"@query-param\";name=\"b\" \"date\" \"d\";sf \"d\";key=\"b\");created=1;keyid=\"k\""
/-- A message with a signature that meets all conditions. -/
def dGood : Msg := .req
  { method := c! "POST", uri := ⟨some (c! "https"), some (c! "Example.com"), c! "/p", some (c! "a=1&b=x%2Fy")⟩,
    headers := [(c! "date", utf8 (c! "Tue")), (c! "d", utf8 (c! "a=1,   b=(x   y)")), (c! "d", utf8 (c! "c=2")),
      (c! "signature-input", utf8 (c! "s=" ++ dInput)), (c! "signature", utf8 (c! "s=:AQ==:"))], body := .data [] }
def dBase : Str :=
  c! "\"@method\": POST\n\"@authority\": example.com\n\"@query-param\";name=\"b\": x%2Fy\n\"date\": Tue\n\"d\";sf: a=1, b=(x y), c=2\n\"d\";key=\"b\": (x y)\n\"@signature-params\": (\"@method\" \"@authority\" \"@query-param\";name=\"b\" \"date\" \"d\";sf \"d\";key=\"b\");created=1;keyid=\"k\""

theorem dGood_wf : WfHeaders dGood.headers := by
  intro kv hkv
  simp only [dGood, Msg.headers, List.mem_cons, List.not_mem_nil, or_false] at hkv
  rcases hkv with rfl | rfl | rfl | rfl | rfl <;> exact ⟨by decide, by decide, by decide⟩

set_option maxRecDepth 20000 in
theorem dGood_member : parseList dInput = some [.inner (memberOf dInput)] := by decide +kernel

set_option maxRecDepth 20000 in
theorem dGood_base : base dCtx dGood none (memberOf dInput) = some dBase := by decide +kernel


theorem texts_det {ls : List Bytes} {ts us : List Str} (h : LineTexts ls ts) (h' : allSome (ls.map hvToStr) = some us) : ts = us := by
  have h2 : LineTexts ls us := Rfc.allSome_texts h'
  clear h'
  induction h generalizing us with
  | nil => cases h2; rfl
  | cons h1 _ ih =>
    cases h2 with
    | cons g1 g2 =>
      rw [h1] at g1; injection g1 with g1
      rw [g1, ih g2]

theorem dGood_usual : Usual dCtx dGood none (memberOf dInput) := by
  have hi : (memberOf dInput).items = [⟨.str (c! "@method"), []⟩, ⟨.str (c! "@authority"), []⟩,
      ⟨.str (c! "@query-param"), [(c! "name", .str (c! "b"))]⟩, ⟨.str (c! "date"), []⟩, ⟨.str (c! "d"), [(c! "sf", .bool true)]⟩,
      ⟨.str (c! "d"), [(c! "key", .str (c! "b"))]⟩] := by decide +kernel
  have hp : (memberOf dInput).params = [(c! "created", .int 1), (c! "keyid", .str (c! "k"))] := by decide +kernel
  constructor
  · rw [hp]
    refine ⟨by decide, ?_, ?_⟩
    · intro kv hkv h
      simp only [List.mem_cons, List.not_mem_nil, or_false] at hkv
      rcases hkv with rfl | rfl
      · exact ⟨1, rfl, by decide⟩
      · exact absurd h (by decide)
    · intro kv hkv h _
      simp only [List.mem_cons, List.not_mem_nil, or_false] at hkv
      rcases hkv with rfl | rfl
      · exact absurd rfl h
      · exact ⟨_, rfl, by decide⟩
  · rw [hi]
    have derived : ∀ (name : Str) (ps : Params) (w : Wants), wants ps = some w → w.req = false → name.head? = some '@' →
        (∀ r, dGood = .req r → UsualRequest dCtx r name) → UsualItem dCtx dGood none ⟨.str name, ps⟩ := by
      intro name ps w hw hr hat h name' w' hn hw'
      injection hn with hn; subst hn
      rw [hw] at hw'; injection hw' with hw'; subst hw'
      rw [hr, if_neg (by simp), UsualIn, if_pos hat]; exact h
    have field : ∀ (name : Str) (ps : Params) (w : Wants) (us : List Str), wants ps = some w → w.req = false → w.bs = false →
        name.head? ≠ some '@' → allSome ((fieldLines dGood.headers name).map hvToStr) = some us → UsualField dCtx name w us →
        UsualItem dCtx dGood none ⟨.str name, ps⟩ := by
      intro name ps w us hw hr hb hat hus h name' w' hn hw'
      injection hn with hn; subst hn
      rw [hw] at hw'; injection hw' with hw'; subst hw'
      rw [hr, if_neg (by simp), UsualIn, if_neg hat]
      exact ⟨hb, fun ts hts => by rw [texts_det hts hus]; exact h⟩
    have d1 : parseDict (c! "a=1,   b=(x   y)") = some [(c! "a", .item ⟨.int 1, []⟩),
        (c! "b", .inner ⟨[⟨.tok (c! "x"), []⟩, ⟨.tok (c! "y"), []⟩], []⟩)] := by decide +kernel
    have d2 : parseDict (c! "c=2") = some [(c! "c", .item ⟨.int 2, []⟩)] := by decide +kernel
    intro i hi
    simp only [List.mem_cons, List.not_mem_nil, or_false] at hi
    rcases hi with rfl | rfl | rfl | rfl | rfl | rfl
    · refine derived _ _ _ rfl rfl rfl ?_
      intro r hr; injection hr with hr; subst hr
      exact ⟨fun _ => by decide, fun h => absurd h (by decide), fun h => absurd h (by decide), fun h => absurd h (by decide),
        fun h => absurd h (by decide), fun h => absurd h (by decide)⟩
    · refine derived _ _ _ rfl rfl rfl ?_
      intro r hr; injection hr with hr; subst hr
      refine ⟨fun h => absurd h (by decide), fun h => absurd h (by decide), fun _ => ⟨_, rfl, ?_⟩, fun h => absurd h (by decide),
        fun h => absurd h (by decide), fun h => absurd h (by decide)⟩
      intro p hp
      have e : defaultPort (c! "https") = some (c! ":443") := by decide
      have : p = c! ":443" := Option.some.inj (hp.symm.trans e)
      subst this; decide
    · refine derived _ _ _ rfl rfl rfl ?_
      intro r hr; injection hr with hr; subst hr
      refine ⟨fun h => absurd h (by decide), fun h => absurd h (by decide), fun h => absurd h (by decide), fun h => absurd h (by decide),
        fun h => absurd h (by decide), fun _ => ?_⟩
      decide +kernel
    · exact field _ _ _ [c! "Tue"] rfl rfl rfl (by decide) (by decide +kernel) ⟨by decide, trivial⟩
    · refine field _ _ _ [c! "a=1,   b=(x   y)", c! "c=2"] rfl rfl rfl (by decide) (by decide +kernel) ⟨by decide, ?_⟩
      refine ⟨?_, ?_⟩
      · intro t ht
        simp only [List.mem_cons, List.not_mem_nil, or_false] at ht
        rcases ht with rfl | rfl
        · exact ⟨by decide +kernel, _, by simp, d1⟩
        · exact ⟨by decide +kernel, _, by simp, d2⟩
      · simp only [List.pairwise_cons, List.mem_singleton, forall_eq, List.not_mem_nil, false_implies, implies_true, List.Pairwise.nil, and_true]
        intro d e k h1 h2
        rw [d1] at h1; rw [d2] at h2
        injection h1 with h1; injection h2 with h2; subst h1; subst h2
        simp only [List.map_cons, List.map_nil, List.mem_cons, List.not_mem_nil, or_false]
        rintro (rfl | rfl) <;> decide
    · refine field _ _ _ [c! "a=1,   b=(x   y)", c! "c=2"] rfl rfl rfl (by decide) (by decide +kernel) ⟨by decide, ?_⟩
      refine ⟨?_, ?_⟩
      · intro t ht
        simp only [List.mem_cons, List.not_mem_nil, or_false] at ht
        rcases ht with rfl | rfl
        · exact ⟨_, by simp, d1⟩
        · exact ⟨_, by simp, d2⟩
      · simp only [List.pairwise_cons, List.mem_singleton, forall_eq, List.not_mem_nil, false_implies, implies_true, List.Pairwise.nil, and_true]
        intro d e h1 h2
        rw [d1] at h1; rw [d2] at h2
        injection h1 with h1; injection h2 with h2; subst h1; subst h2
        intro _; decide

theorem dGood_legal : LegalEntry (.inner (memberOf dInput)) := parseList_legal dGood_member _ (by simp)

-- C62_same_base_partial on the example
example : codeBase dGood none (memberOf dInput) = some dBase :=
  C62_same_base_partial dGood_wf (by simp) dGood_legal dGood_base dGood_usual

-- C62_sign_partial
example : ∃ p b, SafeParams p ∧ p.disp = dInput ∧ buildBase dGood p none = .ok b ∧ b.disp = dBase := by
  obtain ⟨p, h1, h2, _⟩ := Rfc.base_core dGood_wf (by simp) dGood_legal dGood_base dGood_usual
  have hd : parseList p.disp = some [.inner (memberOf dInput)] := by
    rw [params_disp_eq h2, h1]
    exact parseList_ser (by intro e he; simp at he; subst he; exact dGood_legal) (by simp [serList])
  obtain ⟨b, h3, h4⟩ := C62_sign_partial dGood_wf (by simp) h2 hd dGood_base dGood_usual.items
  refine ⟨p, b, h2, ?_, h3, h4⟩
  rw [params_disp_eq h2, h1]; decide +kernel

/-- A key that accepts one signature of one text. -/
def dKey : VerifyingKey where
  verify d s := if d = utf8 dBase ∧ s = [1] then .ok () else .err .invalidSignature
  keyId := c! "k"
  alg := .ed25519

-- C62_verify_partial
set_option maxRecDepth 20000 in
example : verifySignature 9 dGood dKey (some (c! "k")) none = .ok (c! "s") := by
  refine (C62_verify_partial (c := dCtx) (ts := [c! "s=" ++ dInput]) (us := [c! "s=:AQ==:"])
    (a := [(c! "s", .item ⟨.bytes [1], []⟩)]) (b := [(c! "s", .inner (memberOf dInput))]) dGood_wf (by simp) ?_
    (Rfc.allSome_texts (by decide +kernel)) (Rfc.allSome_texts (by decide +kernel)) (by simp) (by decide +kernel) (by decide +kernel)
    (by simp) (by simp) ?_ _).2 ?_
  · intro d s; unfold dKey; simp only; split <;> simp
  · intro kv hkv
    simp only [List.mem_singleton] at hkv; subst hkv
    exact ⟨_, _, rfl, dGood_base, dGood_usual⟩
  · refine ⟨[], _, [], rfl, ⟨_, dBase, [1], [], rfl, dGood_base, by simp, ?_, ?_, by simp [dKey]⟩, by simp⟩
    · intro i hi; injection hi with hi; subst hi; decide +kernel
    · have : (memberOf dInput).params.lookup (c! "expires") = none := by decide +kernel
      intro e he; rw [this] at he; cases he

/-! ### The differences -/

set_option maxRecDepth 20000 in
/-- C62, a difference: the library writes the signature parameters in its own order, not in the order received (RFC 9421 section 2.3). -/
theorem C62_differs_param_order : base dCtx dPost none (memberOf (c! "(\"date\");keyid=\"k\";created=1")) = some (c! "\"date\": Tue\n\"@signature-params\": (\"date\");keyid=\"k\";created=1") ∧
    codeBase dPost none (memberOf (c! "(\"date\");keyid=\"k\";created=1")) = some (c! "\"date\": Tue\n\"@signature-params\": (\"date\");created=1;keyid=\"k\"") := by decide +kernel

set_option maxRecDepth 20000 in
/-- C62, a difference: a signature parameter the library does not know is left out. -/
theorem C62_differs_unknown_param : base dCtx dPost none (memberOf (c! "(\"date\");created=1;foo=2")) = some (c! "\"date\": Tue\n\"@signature-params\": (\"date\");created=1;foo=2") ∧
    codeBase dPost none (memberOf (c! "(\"date\");created=1;foo=2")) = some (c! "\"date\": Tue\n\"@signature-params\": (\"date\");created=1") := by decide +kernel

set_option maxRecDepth 20000 in
/-- C62, a difference: a quote in a parameter is written without its backslash. -/
theorem C62_differs_escapes : base dCtx dPost none (memberOf (c! "(\"date\");keyid=\"a\\\"b\"")) = some (c! "\"date\": Tue\n\"@signature-params\": (\"date\");keyid=\"a\\\"b\"") ∧
    codeBase dPost none (memberOf (c! "(\"date\");keyid=\"a\\\"b\"")) = some (c! "\"date\": Tue\n\"@signature-params\": (\"date\");keyid=\"a\"b\"") := by decide +kernel

set_option maxRecDepth 20000 in
/-- C62, a difference: `bs` is refused. -/
theorem C62_differs_bs : base dCtx dPost none (memberOf (c! "(\"date\";bs)")) = some (c! "\"date\";bs: :VHVl:\n\"@signature-params\": (\"date\";bs)") ∧
    codeBase dPost none (memberOf (c! "(\"date\";bs)")) = none := by decide +kernel

set_option maxRecDepth 20000 in
/-- C62, a difference: whitespace around a field value stays. -/
theorem C62_differs_whitespace : base dCtx dPost none (memberOf (c! "(\"sp\")")) = some (c! "\"sp\": x\n\"@signature-params\": (\"sp\")") ∧
    codeBase dPost none (memberOf (c! "(\"sp\")")) = some (c! "\"sp\":  x \n\"@signature-params\": (\"sp\")") := by decide +kernel

set_option maxRecDepth 20000 in
/-- C62, a difference: with `sf`, a dictionary on several lines is not merged. -/
theorem C62_differs_sf_lines : base dCtx dPost none (memberOf (c! "(\"d\";sf)")) = some (c! "\"d\";sf: a=3, b=2\n\"@signature-params\": (\"d\";sf)") ∧
    codeBase dPost none (memberOf (c! "(\"d\";sf)")) = some (c! "\"d\";sf: a=1, b=2, a=3\n\"@signature-params\": (\"d\";sf)") := by decide +kernel

set_option maxRecDepth 20000 in
/-- C62, a difference: with `sf`, a dictionary that also reads as a list is taken for a list. -/
theorem C62_differs_sf_kind : base dCtx dLower none (memberOf (c! "(\"d\";sf)")) = some (c! "\"d\";sf: a\n\"@signature-params\": (\"d\";sf)") ∧
    codeBase dLower none (memberOf (c! "(\"d\";sf)")) = some (c! "\"d\";sf: a, a\n\"@signature-params\": (\"d\";sf)") := by decide +kernel

set_option maxRecDepth 20000 in
/-- C62, a difference: with `key`, a member that is on several lines is listed once for each. -/
theorem C62_differs_key_lines : base dCtx dPost none (memberOf (c! "(\"d\";key=\"a\")")) = some (c! "\"d\";key=\"a\": 3\n\"@signature-params\": (\"d\";key=\"a\")") ∧
    codeBase dPost none (memberOf (c! "(\"d\";key=\"a\")")) = some (c! "\"d\";key=\"a\": 1, 3\n\"@signature-params\": (\"d\";key=\"a\")") := by decide +kernel

set_option maxRecDepth 20000 in
/-- C62, a difference: a dictionary member that is not there is an error in the RFC and empty in the library. -/
theorem C62_differs_key_absent : base dCtx dPost none (memberOf (c! "(\"d\";key=\"z\")")) = none ∧
    codeBase dPost none (memberOf (c! "(\"d\";key=\"z\")")) = some (c! "\"d\";key=\"z\": \n\"@signature-params\": (\"d\";key=\"z\")") := by decide +kernel

set_option maxRecDepth 20000 in
/-- C62, a difference: a field that is not there is an error in the RFC and empty in the library (C47). -/
theorem C62_differs_field_absent : base dCtx dPost none (memberOf (c! "(\"absent\")")) = none ∧
    codeBase dPost none (memberOf (c! "(\"absent\")")) = some (c! "\"absent\": \n\"@signature-params\": (\"absent\")") := by decide +kernel

set_option maxRecDepth 20000 in
/-- C62, a difference: field names in upper case are accepted and written as they are. -/
theorem C62_differs_upper_case : base dCtx dPost none (memberOf (c! "(\"Date\")")) = none ∧
    codeBase dPost none (memberOf (c! "(\"Date\")")) = some (c! "\"Date\": Tue\n\"@signature-params\": (\"Date\")") := by decide +kernel

set_option maxRecDepth 20000 in
/-- C62, a difference: a request with only a path has no authority for the library, which does not look at Host. -/
theorem C62_differs_authority : base dCtx dPost none (memberOf (c! "(\"@authority\" \"@scheme\")")) = some (c! "\"@authority\": example.com\n\"@scheme\": https\n\"@signature-params\": (\"@authority\" \"@scheme\")") ∧
    codeBase dPost none (memberOf (c! "(\"@authority\" \"@scheme\")")) = some (c! "\"@authority\": \n\"@scheme\": \n\"@signature-params\": (\"@authority\" \"@scheme\")") := by decide +kernel

set_option maxRecDepth 20000 in
/-- C62, a difference: nor a full target URI. -/
theorem C62_differs_target_uri : base dCtx dPost none (memberOf (c! "(\"@target-uri\")")) = some (c! "\"@target-uri\": https://example.com/p?b=x%2fy&c=1&c=2&e=a+b\n\"@signature-params\": (\"@target-uri\")") ∧
    codeBase dPost none (memberOf (c! "(\"@target-uri\")")) = some (c! "\"@target-uri\": /p?b=x%2fy&c=1&c=2&e=a+b\n\"@signature-params\": (\"@target-uri\")") := by decide +kernel

set_option maxRecDepth 20000 in
/-- C62, a difference: query parameters are not decoded and encoded again. -/
theorem C62_differs_query_encoding : base dCtx dPost none (memberOf (c! "(\"@query-param\";name=\"b\" \"@query-param\";name=\"e\")")) = some (c! "\"@query-param\";name=\"b\": x%2Fy\n\"@query-param\";name=\"e\": a%20b\n\"@signature-params\": (\"@query-param\";name=\"b\" \"@query-param\";name=\"e\")") ∧
    codeBase dPost none (memberOf (c! "(\"@query-param\";name=\"b\" \"@query-param\";name=\"e\")")) = some (c! "\"@query-param\";name=\"b\": x%2fy\n\"@query-param\";name=\"e\": a+b\n\"@signature-params\": (\"@query-param\";name=\"b\" \"@query-param\";name=\"e\")") := by decide +kernel

set_option maxRecDepth 20000 in
/-- C62, a difference: a query parameter that is there twice is an error in the RFC and joined in the library. -/
theorem C62_differs_query_repeated : base dCtx dPost none (memberOf (c! "(\"@query-param\";name=\"c\")")) = none ∧
    codeBase dPost none (memberOf (c! "(\"@query-param\";name=\"c\")")) = some (c! "\"@query-param\";name=\"c\": 1, 2\n\"@signature-params\": (\"@query-param\";name=\"c\")") := by decide +kernel

set_option maxRecDepth 20000 in
/-- C62, a difference: a query parameter that is not there is an error in the RFC and empty in the library. -/
theorem C62_differs_query_absent : base dCtx dPost none (memberOf (c! "(\"@query-param\";name=\"z\")")) = none ∧
    codeBase dPost none (memberOf (c! "(\"@query-param\";name=\"z\")")) = some (c! "\"@query-param\";name=\"z\": \n\"@signature-params\": (\"@query-param\";name=\"z\")") := by decide +kernel

set_option maxRecDepth 20000 in
/-- C62, a difference: methods are case-sensitive in the RFC; the library writes them in upper case. -/
theorem C62_differs_method_case : base dCtx dLower none (memberOf (c! "(\"@method\")")) = some (c! "\"@method\": get\n\"@signature-params\": (\"@method\")") ∧
    codeBase dLower none (memberOf (c! "(\"@method\")")) = some (c! "\"@method\": GET\n\"@signature-params\": (\"@method\")") := by decide +kernel

set_option maxRecDepth 20000 in
/-- C62, a difference: the request target of OPTIONS is `*` for the library, whatever it is. -/
theorem C62_differs_options : base dCtx dOptions none (memberOf (c! "(\"@request-target\")")) = some (c! "\"@request-target\": /p\n\"@signature-params\": (\"@request-target\")") ∧
    codeBase dOptions none (memberOf (c! "(\"@request-target\")")) = some (c! "\"@request-target\": *\n\"@signature-params\": (\"@request-target\")") := by decide +kernel

set_option maxRecDepth 20000 in
/-- C62, a difference: the default port stays in the authority. -/
theorem C62_differs_default_port : base dCtx dAbs none (memberOf (c! "(\"@authority\")")) = some (c! "\"@authority\": ex.com\n\"@signature-params\": (\"@authority\")") ∧
    codeBase dAbs none (memberOf (c! "(\"@authority\")")) = some (c! "\"@authority\": ex.com:443\n\"@signature-params\": (\"@authority\")") := by decide +kernel

set_option maxRecDepth 20000 in
/-- C62, a difference: the request target of a request in absolute form is only its path and query. -/
theorem C62_differs_absolute_form : base dCtx dAbs none (memberOf (c! "(\"@request-target\")")) = some (c! "\"@request-target\": https://EX.com:443/p\n\"@signature-params\": (\"@request-target\")") ∧
    codeBase dAbs none (memberOf (c! "(\"@request-target\")")) = some (c! "\"@request-target\": /p\n\"@signature-params\": (\"@request-target\")") := by decide +kernel

/-- C62: for the library, no derived component of a request depends on its Host field, so Host is protected only if it is covered itself. -/
theorem C62_host_unbound {r : Request} {h' : Headers} {p : SigParams} {rf : Option Request} (hw : WfHeaders r.headers) (hw' : WfHeaders h')
    (hf : ∀ r, rf = some r → WfHeaders r.headers) (hsame : ∀ f, lower f ≠ c! "host" → fieldLines h' f = fieldLines r.headers f)
    (hp : ∀ i ∈ p.covered, ∀ f, i.name = .field f → lower f ≠ c! "host") :
    buildBase (.req { r with headers := h' }) p rf = buildBase (.req r) p rf := by
  refine buildBase_congr (m := .req { r with headers := h' }) (m' := .req r) hw' hw rfl rfl hf hf ?_ ?_
  · intro i hi _
    cases hn : i.name with
    | field f => exact hsame f (hp i hi f hn)
    | derived d =>
      cases d with
      | signatureParams => exact hsame _ (by decide)
      | requestTarget => exact ⟨rfl, rfl⟩
      | _ => rfl
  · intro i _ _ r1 r2 h1 h2
    rw [h1] at h2; injection h2 with h2; subst h2
    cases hn : i.name with
    | field f => rfl
    | derived d => cases d <;> first | rfl | exact ⟨rfl, rfl⟩

/-- A request as a server receives it, for this host. -/
def dHost (h : Str) : Request where
  method := c! "GET"
  uri := ⟨none, none, c! "/pay", none⟩
  headers := [(c! "host", utf8 h)]
  body := .data []

theorem dHost_wf (h : Str) : WfHeaders (dHost h).headers := by
  intro kv hkv
  simp only [dHost, List.mem_singleton] at hkv
  subst hkv
  show WfName (c! "host")
  exact ⟨by decide, by decide, by decide⟩

set_option maxRecDepth 20000 in
/-- C62, the consequence: the RFC tells requests to two hosts apart by `@authority` and `@target-uri`, the library does not. -/
theorem C62_host_witness (p : SigParams) (rf : Option Request) (hf : ∀ r, rf = some r → WfHeaders r.headers)
    (hp : p.covered = [⟨.derived .authority, []⟩, ⟨.derived .targetUri, []⟩]) :
    base dCtx (.req (dHost (c! "a.example"))) none (memberOf (c! "(\"@authority\" \"@target-uri\")")) =
      some (c! "\"@authority\": a.example\n\"@target-uri\": https://a.example/pay\n\"@signature-params\": (\"@authority\" \"@target-uri\")") ∧
    base dCtx (.req (dHost (c! "b.example"))) none (memberOf (c! "(\"@authority\" \"@target-uri\")")) =
      some (c! "\"@authority\": b.example\n\"@target-uri\": https://b.example/pay\n\"@signature-params\": (\"@authority\" \"@target-uri\")") ∧
    buildBase (.req (dHost (c! "b.example"))) p rf = buildBase (.req (dHost (c! "a.example"))) p rf ∧
    ∃ b, buildBase (.req (dHost (c! "a.example"))) p rf = .ok b := by
  refine ⟨by decide +kernel, by decide +kernel, ?_, ?_⟩
  · refine C62_host_unbound (r := dHost (c! "a.example")) (h' := (dHost (c! "b.example")).headers) (dHost_wf _) (dHost_wf _) hf ?_ ?_
    · intro f hfl
      have : ∀ h, fieldLines (dHost h).headers f = [] := by
        intro h
        unfold fieldLines
        rw [List.map_eq_nil_iff, List.filter_eq_nil_iff]
        intro kv hkv
        simp only [dHost, List.mem_singleton] at hkv
        subst hkv
        simp only [decide_eq_true_eq]
        intro e
        exact hfl (by rw [← e]; decide)
      rw [this, this]
    · rw [hp]
      intro i hi f hn
      simp only [List.mem_cons, List.not_mem_nil, or_false] at hi
      rcases hi with rfl | rfl <;> cases hn
  · have hb : BaseOf (.req (dHost (c! "a.example"))) rf p (baseText p.covered [[], c! "/pay"] p.disp) := by
      refine ⟨[[], c! "/pay"], ?_, rfl⟩
      rw [hp]
      exact .cons (by rw [HasValue, if_neg (by simp)]; exact ⟨by intro q hq; simp at hq, rfl⟩)
        (.cons (by rw [HasValue, if_neg (by simp)]; exact ⟨by intro q hq; simp at hq, rfl⟩) .nil)
    obtain ⟨b, hb, _⟩ := (buildBase_spec (m := .req (dHost (c! "a.example"))) (dHost_wf _) hf _).2 hb
    exact ⟨b, hb⟩

end Verif
