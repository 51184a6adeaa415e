import Verif.Spec.RfcInterop
import Verif.Proofs.Chain
import Verif.Props.C95
/-!
C96: an exchange between the library and a program that follows RFC 9421. Which signatures of the other side the library accepts, and
which of its own the other side accepts.
-/
namespace Verif
open Sfv Spec Rfc9421 Grammar

section
variable {c : Ctx} {m : Msg} {rf : Option Request} {l : InnerList} {p : SigParams} {a b : Dict} {k : VerifyingKey} {id : Option Str}
  {now : UInt64} {n : Str} {sig : Bytes}

theorem key_mem {d : Dict} {s : Str} (h : DictText d s) {n : Str} {e e' : Entry} (h1 : (n, e) ∈ d) (h2 : (n, e') ∈ d) : e = e' := by
  have hl := (parseDict_legal ((C63_dict _ _).2 h)).1
  have e1 := Rfc.lookup_of_mem hl h1
  have e2 := Rfc.lookup_of_mem hl h2
  rw [e1] at e2
  injection e2

/-- Dictionaries that can be read are those of some signatures. -/
theorem readable_agrees (h : Readable a b) : ∃ sigs, Wire.Agrees a b sigs := by
  have : ∃ sigs, List.Forall₂ (fun (kv : Str × Entry) (kh : Str × SigHeaders) =>
      kh.1 = kv.1 ∧ kh.2.name = kv.1 ∧ (∃ ps, (kv.1, .item ⟨.bytes kh.2.signature, ps⟩) ∈ a) ∧
        ∃ il, kv.2 = .inner il ∧ Wire.ParamsOf il kh.2.params) b sigs := by
    have hl := fun n => (h.labels n).2
    have hi := h.inner
    have hb := h.bytes
    clear h
    induction b with
    | nil => exact ⟨[], .nil⟩
    | cons kv b ih =>
      obtain ⟨sigs, hs⟩ := ih (fun n hn => hl n (by simp [hn])) (fun kv hkv => hi kv (by simp [hkv]))
      obtain ⟨x, hx, ex⟩ := List.mem_map.1 (hl kv.1 (by simp))
      obtain ⟨sig, ps, es⟩ := hb x hx
      obtain ⟨il, p, e1, e2⟩ := hi kv (by simp)
      exact ⟨(kv.1, ⟨kv.1, sig, p⟩) :: sigs, .cons ⟨rfl, rfl, ⟨ps, by rw [← ex, ← es]; exact hx⟩, il, e1, e2⟩ hs⟩
  obtain ⟨sigs, hs⟩ := this
  exact ⟨sigs, h.labels, h.bytes, hs⟩

/-- The member is what the library writes for some parameters. -/
theorem common_params (hl : LegalEntry (.inner l)) {t : Str} (hb : base c m rf l = some t) (h : Common c m rf l) :
    ∃ p, SafeParams p ∧ l = ⟨p.covered.map idItem, paramsKV p⟩ := by
  obtain ⟨hp, _⟩ := Rfc.base_lines hb
  obtain ⟨items, ps⟩ := l
  obtain ⟨hu, hi⟩ := h
  have : ∃ ids : List CId, items = ids.map idItem ∧ ∀ i ∈ ids, SafeId i := by
    have hl : ∀ it ∈ items, LegalItem it := hl.1
    have hi : ∀ it ∈ items, ∃ i, SafeId i ∧ serItem it = idText i ∧ ExactAll c m rf i it := hi
    clear * - hl hi
    induction items with
    | nil => exact ⟨[], rfl, by simp⟩
    | cons it items ih =>
      obtain ⟨ids, e, hs⟩ := ih (fun it h => hl it (by simp [h])) (fun it h => hi it (by simp [h]))
      obtain ⟨i, h1, h2, _⟩ := hi it (by simp)
      refine ⟨i :: ids, ?_, by simpa using ⟨h1, hs⟩⟩
      rw [List.map_cons, ← e, item_eq h1 (hl it (by simp)) h2]
  obtain ⟨ids, rfl, hs⟩ := this
  have hd : ids.Pairwise (fun a b => ¬ SameId a b) := by
    simp only at hp
    rw [List.pairwise_map] at hp
    exact hp.imp (fun hn hs => hn (Rfc.same_idItem hs))
  obtain ⟨p, rfl, rfl, hs⟩ := Rfc.params_core hu ids hs hd
  exact ⟨p, hs, rfl⟩

theorem common_base (hm : WfMsg m) (hf : ∀ r, rf = some r → WfRequest r) (hc : OneLine c.scheme) (hc' : c.scheme ≠ [])
    (ha : ∀ r, m = .req r ∨ rf = some r → rfcValue c r (c! "@authority") ≠ some []) (hl : LegalEntry (.inner l)) {t : Str}
    (hb : base c m rf l = some t) : (∃ p, Wire.ParamsOf l p ∧ Wire.BaseOf m rf p t) ↔ Common c m rf l := by
  have hw := WfMsg.wfHeaders hm
  have hf' : ∀ r, rf = some r → WfHeaders r.headers := fun r hr => (hf r hr).headers
  unfold Common
  rw [← C95_exact hm hf hc hc' ha hl hb]
  simp only [paramsOf_iff hl, wireBaseOf_iff]
  constructor
  · rintro ⟨p, h1, h2⟩; exact codeBase_of hw hf' h1 h2
  · intro h
    unfold codeBase at h
    split at h
    · rename_i p hp
      split at h
      · rename_i b' hb'
        injection h with h
        exact ⟨p, hp, (buildBase_spec hw hf' t).1 ⟨b', hb', h⟩⟩
      · cases h
    · cases h

/-- C96: a message with a valid signature of the other side, the only one of this key: the library accepts it, under its label,
exactly if it can read all signatures and writes the member in the same way with the same values. -/
theorem C96_receive {ps : Params} (hm : WfMsg m) (hf : ∀ r, rf = some r → WfRequest r) (hc : OneLine c.scheme) (hc' : c.scheme ≠ [])
    (ha : ∀ r, m = .req r ∨ rf = some r → rfcValue c r (c! "@authority") ≠ some []) (hab : SigFields m.headers a b)
    (hn : (n, .inner l) ∈ b) (hsig : (n, .item ⟨.bytes sig, ps⟩) ∈ a) (hv : Valid c now m rf k id l sig)
    (hd : ∀ p u, Wire.ParamsOf l p → Wire.BaseOf m rf p u → k.verify (utf8 u) sig = .ok () → base c m rf l = some u)
    (ho : ∀ n' l' sig' ps' p u, n' ≠ n → (n', .inner l') ∈ b → (n', .item ⟨.bytes sig', ps'⟩) ∈ a → Wire.ParamsOf l' p →
      Wire.BaseOf m rf p u → ∃ e, k.verify (utf8 u) sig' = .err e) (n' : Str) :
    verifySignature now m k id rf = .ok n' ↔ n' = n ∧ Readable a b ∧ Common c m rf l := by
  have hw := WfMsg.wfHeaders hm
  have hf' : ∀ r, rf = some r → WfHeaders r.headers := fun r hr => (hf r hr).headers
  obtain ⟨t, hb, hver⟩ := hv.verifies
  obtain ⟨ts, us, h1, h2, h3, h4, h5, h6⟩ := hab
  have hlb := (parseDict_legal ((C63_dict _ _).2 h5)).2
  have hl : LegalEntry (.inner l) := (hlb _ hn).2
  rw [C10_ok_iff hw hf']
  constructor
  · rintro ⟨sigs, hcar, _, s1, h, s2, rfl, hacc, _⟩
    obtain ⟨ts', us', g1, g2, _, _, a', b', g3, g4, g5⟩ := wireCarries_iff.2 hcar
    have e1 : ts' = ts := by
      have x := linesText_iff.1 g1
      have y := linesText_iff.1 h1
      exact lineTexts_inj x y
    have e2 : us' = us := lineTexts_inj (linesText_iff.1 g2) (linesText_iff.1 h2)
    subst e1; subst e2
    have e3 : a' = a := Option.some.inj (((C63_dict _ _).2 g3).symm.trans ((C63_dict _ _).2 h6))
    have e4 : b' = b := Option.some.inj (((C63_dict _ _).2 g4).symm.trans ((C63_dict _ _).2 h5))
    subst e3; subst e4
    obtain ⟨⟨n1, e⟩, hx, x1, x2, ⟨qs, x3⟩, il, x4, x5⟩ := forall₂_mem_right g5.order (n', h) (by simp)
    simp only at x1 x3 x4
    subst x1; subst x4
    obtain ⟨u, y1, y2, y3, y4⟩ := hacc
    have y1 := wireBaseOf_iff.2 y1
    have hnn : n' = n := by
      by_contra hne
      obtain ⟨e, he⟩ := ho n' il h.signature qs _ u hne hx x3 x5 y1
      rw [y4] at he; cases he
    subst hnn
    have := key_mem h5 hx hn
    injection this with this; subst this
    have := key_mem h6 x3 hsig
    injection this with this; injection this with this; injection this with this
    subst this
    refine ⟨rfl, ⟨g5.labels, g5.bytes, ?_⟩, ?_⟩
    · intro kv hkv
      obtain ⟨kh, _, _, _, _, il, z1, z2⟩ := forall₂_mem_left g5.order kv hkv
      exact ⟨il, _, z1, z2⟩
    · exact (common_base hm hf hc hc' ha hl (hd _ u x5 y1 y4)).1 ⟨_, x5, y1⟩
  · rintro ⟨rfl, hr, hcom⟩
    obtain ⟨sigs, hsigs⟩ := readable_agrees hr
    have hcar : Carries m.headers sigs := wireCarries_iff.1 ⟨ts, us, h1, h2, h3, h4, a, b, h6, h5, hsigs⟩
    obtain ⟨⟨n1, h⟩, hmem, x1, x2, ⟨qs, x3⟩, il, x4, x5⟩ := forall₂_mem_left hsigs.order _ hn
    simp only at x1 x3 x4 x5
    subst x1
    injection x4 with x4; subst x4
    have := key_mem h6 x3 hsig
    injection this with this; injection this with this; injection this with this
    subst this
    obtain ⟨p, q1, q2⟩ := (common_base hm hf hc hc' ha hl hb).2 hcom
    have hpe : h.params = p := by
      have e1 := (paramsOf_iff hl).1 x5
      have e2 := (paramsOf_iff hl).1 q1
      rw [e1] at e2; injection e2
    obtain ⟨p', hs, e⟩ := common_params hl hb hcom
    have hpe' : p = p' := by
      have e1 := (paramsOf_iff hl).1 q1
      rw [e] at e1
      have e2 := ofEntry_paramsEntry hs
      rw [show paramsEntry p' = .inner ⟨p'.covered.map idItem, paramsKV p'⟩ from rfl, e1] at e2
      injection e2
    subst hpe'
    have hps : l.params = paramsKV p := by rw [e]
    have hother : ∀ kv ∈ sigs, kv.1 ≠ n1 → ∀ u, BaseOf m rf kv.2.params u → ∃ e, k.verify (utf8 u) kv.2.signature = .err e := by
      intro kv hkv hne u hu
      obtain ⟨⟨n2, e⟩, hx, z1, z2, ⟨qs, z3⟩, il, z4, z5⟩ := forall₂_mem_right hsigs.order kv hkv
      simp only at z1 z3 z4
      subst z1; subst z4
      exact ho kv.1 il kv.2.signature qs _ u hne hx z3 z5 (wireBaseOf_iff.2 hu)
    have hacc : Accepts now m rf k id h := by
      refine ⟨t, by rw [hpe]; exact wireBaseOf_iff.1 q2, ?_, ?_, hver⟩
      · intro i hi
        have := hv.keyid i hi
        rwa [hps, lookup_keyid, ← hpe] at this
      · intro u hu
        have := hv.expires (u.toNat : Int) (by rw [hps, lookup_expires]; exact ⟨u, by rw [← hpe]; exact hu, rfl⟩)
        rw [UInt64.le_iff_toNat_le]
        omega
    have hnd := carries_nodup hcar
    obtain ⟨s1, s2, hsp⟩ := List.append_of_mem hmem
    have hdist : ∀ kv ∈ sigs, kv.1 = n1 → kv.2 = h := by
      intro kv hkv e
      have := List.inj_on_of_nodup_map hnd hkv hmem e
      rw [this]
    refine ⟨sigs, hcar, ?_, s1, h, s2, hsp, hacc, ?_⟩
    · rintro kv hkv ⟨u, z1, _, _, z4⟩
      by_cases hne : kv.1 = n1
      · rw [hdist kv hkv hne] at z1 z4
        have : u = t := base_unique hw hf' z1 (by rw [hpe]; exact wireBaseOf_iff.1 q2)
        rw [this, hver] at z4; cases z4
      · obtain ⟨e, he⟩ := hother kv hkv hne u z1
        rw [z4] at he; cases he
    · rintro kv hkv ⟨u, z1, _, _, z4⟩
      have hne : kv.1 ≠ n1 := by
        intro e
        rw [hsp, List.map_append, List.map_cons] at hnd
        have := (List.nodup_append.1 hnd).2.2 _ (List.mem_map_of_mem (f := Prod.fst) hkv) n1 (by simp)
        exact this e
      obtain ⟨e, he⟩ := hother kv (by rw [hsp]; simp [hkv]) hne u z1
      rw [z4] at he; cases he

/-- C96: a message signed by the library: its signature is valid for the other side exactly if no component is one for which the RFC
has no value, and all values are the same on both sides. -/
theorem C96_send {sk : SigningKey} {vk : VerifyingKey} {name : Option Str} {h' : Headers} (hm : WfMsg m)
    (hf : ∀ r, rf = some r → WfRequest r) (hc : OneLine c.scheme) (hc' : c.scheme ≠ [])
    (ha : ∀ r, m.withHeaders h' = .req r ∨ rf = some r → rfcValue c r (c! "@authority") ≠ some [])
    (h0 : Wire.linesOf m.headers (c! "signature-input") = []) (h0' : Wire.linesOf m.headers (c! "signature") = [])
    (hp : SafeParams p) (hs : NotSelf p) (hn : LegalKey (name.getD (c! "sig"))) (hk : KeyPair sk vk)
    (h : setSignature m p sk name rf = (h', .ok ())) (ht : ∀ e, p.expires = some e → now ≤ e) (hid : id = none ∨ id = p.keyid)
    (hd : ∀ l t u s, LegalEntry (.inner l) → serInner l = paramsText p → Wire.BaseOf m rf p t → base c (m.withHeaders h') rf l = some u →
      sk.sign (utf8 t) = .ok s → vk.verify (utf8 u) s = .ok () → u = t) :
    ∃ l sig, SigFields h' [(name.getD (c! "sig"), .item ⟨.bytes sig, []⟩)] [(name.getD (c! "sig"), .inner l)] ∧ serInner l = paramsText p ∧
      (Valid c now (m.withHeaders h') rf vk id l sig ↔ ∀ it ∈ l.items, ∃ i ∈ p.covered, serItem it = idText i ∧
        ¬ LaxAll c (m.withHeaders h') rf i ∧ ExactAll c (m.withHeaders h') rf i it) := by
  have hw := WfMsg.wfHeaders hm
  have hf' : ∀ r, rf = some r → WfHeaders r.headers := fun r hr => (hf r hr).headers
  obtain ⟨hs', h1, _, rfl⟩ := (setSignatures_ok hw hf' [(p, sk, name)] h').1 h
  cases h1 with
  | @cons _ sh _ _ hsh hx =>
  cases hx
  have hsafe : SafeHeaders sh := signed_safe (.cons hsh .nil) (by
    intro x hx; rw [List.mem_singleton.1 hx]; exact ⟨hp, hn⟩) sh (by simp)
  have e1 : sh.name = name.getD (c! "sig") := hsh.name
  have e2 : sh.params = p := hsh.params
  obtain ⟨t, hb, hsign⟩ := hsh.signature
  simp only at hb hsign
  rw [linesOf_eq] at h0 h0'
  have hm' : WfMsg (m.withHeaders (m.headers ++ [sh].flatMap sigLines)) := by
    have := wf_sigLines hw [sh]
    cases m with
    | req r => exact ⟨this, hm.method, hm.uri⟩
    | res s => exact this
  have hl : LegalEntry (.inner ⟨p.covered.map idItem, paramsKV p⟩) := paramsEntry_legal hp
  have hser : serInner ⟨p.covered.map idItem, paramsKV p⟩ = paramsText p := by
    rw [← C58_params_text, params_disp_eq hp]; rfl
  have hb' : BaseOf (m.withHeaders (m.headers ++ [sh].flatMap sigLines)) rf p t := (base_after hs hw hf' [sh] t).2 hb
  have hbw := wireBaseOf_iff.2 hb'
  refine ⟨⟨p.covered.map idItem, paramsKV p⟩, sh.signature, ?_, hser, ?_⟩
  · refine ⟨[sh.inputValue], [sh.signatureValue], ?_, ?_, by simp, by simp, ?_, ?_⟩
    · rw [linesText_iff, fieldLines_append, fieldLines_sigLines_input, h0]
      exact .cons (hvToStr_utf8 (safe_input_printable hsafe)) .nil
    · rw [linesText_iff, fieldLines_append, fieldLines_sigLines_sig, h0']
      exact .cons (hvToStr_utf8 (safe_signature_printable hsafe.name)) .nil
    · rw [commas_eq, ← e1]
      have := (C63_dict _ _).1 (inputLine_dict hsafe)
      rw [show (inputMember sh).2 = .inner ⟨p.covered.map idItem, paramsKV p⟩ by unfold inputMember; rw [e2]; rfl] at this
      exact this
    · rw [commas_eq, ← e1]
      exact (C63_dict _ _).1 (signatureLine_dict hsafe.name)
  generalize m.withHeaders (m.headers ++ [sh].flatMap sigLines) = m' at *
  have hval : ∀ i ∈ p.covered, ∃ v, Wire.HasValue m' rf i v := baseOf_exists.1 ⟨t, hbw⟩
  have hlax := C95_base_lax (c := c) (m := m') (rf := rf) hp hl hser
  have hpo : Wire.ParamsOf ⟨p.covered.map idItem, paramsKV p⟩ p := (paramsOf_iff hl).2 (ofEntry_paramsEntry hp)
  constructor
  · rintro ⟨⟨u, hu, hver⟩, _, _⟩ it hit
    have := hd _ t u _ hl hser (wireBaseOf_iff.2 hb) hu hsign hver
    subst this
    obtain ⟨i, hi, rfl⟩ := List.mem_map.1 hit
    refine ⟨i, hi, idItem_text (hp.ids i hi), fun hx => ?_, ?_⟩
    · rw [(hlax.2 ⟨hval, i, hi, hx⟩).1] at hu; cases hu
    · obtain ⟨j, hj, hj2, hj3⟩ := ((common_base hm' hf hc hc' ha hl hu).1 ⟨p, hpo, hbw⟩).2 _ hit
      rw [idItem_inj (hp.ids i hi) hj (item_eq hj (idItem_legal (hp.ids i hi)) hj2)] at hj3 ⊢
      exact hj3
  · intro hall
    have hns : base c m' rf ⟨p.covered.map idItem, paramsKV p⟩ ≠ none := by
      intro hx
      obtain ⟨_, i, hi, hxi⟩ := hlax.1 ⟨hx, t, hbw⟩
      obtain ⟨j, hj, hj2, hj3, _⟩ := hall (idItem i) (List.mem_map_of_mem hi)
      have := idItem_inj (hp.ids i hi) (hp.ids j hj) (item_eq (hp.ids j hj) (idItem_legal (hp.ids i hi)) hj2)
      rw [← this] at hj3; exact hj3 hxi
    obtain ⟨u, hu⟩ := Option.ne_none_iff_exists'.1 hns
    have hcom : Common c m' rf ⟨p.covered.map idItem, paramsKV p⟩ := by
      refine ⟨Rfc.paramsKV_usual hp, fun it hit => ?_⟩
      obtain ⟨i, hi, h2, _, h4⟩ := hall it hit
      exact ⟨i, hp.ids i hi, h2, h4⟩
    obtain ⟨q, q1, q2⟩ := (common_base hm' hf hc hc' ha hl hu).2 hcom
    have : q = p := by
      have e1 := (paramsOf_iff hl).1 q1
      have e2 := (paramsOf_iff hl).1 hpo
      rw [e1] at e2; injection e2
    subst this
    have : u = t := base_unique (WfMsg.wfHeaders hm') hf' (wireBaseOf_iff.1 q2) hb'
    subst this
    refine ⟨⟨u, hu, hk _ _ hsign⟩, ?_, ?_⟩
    · intro i hi
      show (paramsKV q).lookup _ = _
      rw [lookup_keyid]
      rcases hid with rfl | rfl
      · cases hi
      · exact hi
    · intro e he
      have he : (paramsKV q).lookup _ = _ := he
      rw [lookup_expires] at he
      obtain ⟨v, hv, rfl⟩ := he
      have := ht v hv
      rw [UInt64.le_iff_toNat_le] at this
      omega

end

/-! ### Concrete cases -/

/-- A message of the other side: the field `d` is covered, with these signature parameters. -/
def x96 (params : String) : Request := xReq "GET" none none "/" none
  [(c! "d", utf8 (c! "x")), (c! "signature-input", utf8 (c! "s=(\"d\")" ++ params.toList)), (c! "signature", utf8 (c! "s=:AQ==:"))]

def l96 (ps : Params) : InnerList := ⟨[⟨.str (c! "d"), []⟩], ps⟩

def t96 (params : String) : Str := c! "\"d\": x\n\"@signature-params\": (\"d\")" ++ params.toList

/-- A key for which every signature is good for one text only. -/
def k96 (t : Str) : VerifyingKey := ⟨fun d _ => if d = utf8 t then .ok () else .err .invalidSignature, c! "k", .ed25519⟩

def a96 : Dict := [(c! "s", .item ⟨.bytes [1], []⟩)]

def b96 (ps : Params) : Dict := [(c! "s", .inner (l96 ps))]

def usual96 : Params := [(c! "created", .int 1), (c! "expires", .int 9), (c! "keyid", .str (c! "k"))]

def other96 : Params := [(c! "keyid", .str (c! "k")), (c! "expires", .int 9), (c! "created", .int 1)]

theorem x96_wf (params : String) : WfMsg (.req (x96 params)) := by
  refine ⟨?_, (by show OneLine (c! "GET"); decide), ⟨(by intro s h; cases h), (by intro s h; cases h), (by show OneLine (c! "/"); decide),
    (by intro s h; cases h)⟩⟩
  intro kv hkv
  simp only [x96, xReq, List.mem_cons, List.not_mem_nil, or_false] at hkv
  rcases hkv with rfl | rfl | rfl
  · exact (⟨by decide, by decide, by decide⟩ : WfName (c! "d"))
  · exact (⟨by decide, by decide, by decide⟩ : WfName (c! "signature-input"))
  · exact (⟨by decide, by decide, by decide⟩ : WfName (c! "signature"))

/-- The rules of `C96_receive` for such a message. -/
theorem x96_receive (params : String) {ps : Params} (hw : WfMsg (.req (x96 params)))
    (ha : rfcValue xCtx (x96 params) (c! "@authority") = none)
    (hi : SigFields (x96 params).headers a96 (b96 ps)) (hb : base xCtx (.req (x96 params)) none (l96 ps) = some (t96 params))
    (hk : ps.lookup (c! "keyid") = some (.str (c! "k"))) (he : ps.lookup (c! "expires") = some (.int 9)) (n : Str) :
    verifySignature 5 (.req (x96 params)) (k96 (t96 params)) (some (c! "k")) none = .ok n ↔
      n = c! "s" ∧ Readable a96 (b96 ps) ∧ Common xCtx (.req (x96 params)) none (l96 ps) := by
  have hv : Valid xCtx 5 (.req (x96 params)) none (k96 (t96 params)) (some (c! "k")) (l96 ps) [1] := by
    refine ⟨⟨_, hb, by simp [k96]⟩, fun i h => ?_, fun e h => ?_⟩
    · cases h; exact hk
    · rw [show (l96 ps).params = ps from rfl, he] at h
      cases h; decide
  refine C96_receive (m := .req (x96 params)) (n := c! "s") (ps := []) hw (by simp) (by decide) (by decide) ?_ hi (by simp [b96])
    (by simp [a96]) hv ?_ ?_ n
  · rintro r (h | h)
    · injection h with h; subst h; rw [ha]; nofun
    · cases h
  · intro p u _ _ h
    simp only [k96] at h
    split at h
    · rename_i e; rw [hb, utf8_inj e]
    · cases h
  · intro n' l' sig' ps' p u hne hm
    rw [b96, List.mem_singleton] at hm
    injection hm with hm
    exact absurd hm hne

theorem x96_fields (params : String) {ps : Params} {t : Str} (h1 : hvToStr (utf8 (c! "s=(\"d\")" ++ params.toList)) = some t)
    (h2 : parseDict t = some (b96 ps)) : SigFields (x96 params).headers a96 (b96 ps) := by
  refine ⟨[t], [c! "s=:AQ==:"], ?_, ?_, by simp, by simp, ?_, ?_⟩
  · rw [linesText_iff]
    have : fieldLines (x96 params).headers (c! "signature-input") = [utf8 (c! "s=(\"d\")" ++ params.toList)] := rfl
    rw [this]; exact .cons h1 .nil
  · rw [linesText_iff]
    have : fieldLines (x96 params).headers (c! "signature") = [utf8 (c! "s=:AQ==:")] := rfl
    rw [this]; exact .cons (by decide +kernel) .nil
  · rw [commas_eq]; exact (C63_dict _ _).1 h2
  · rw [commas_eq]; exact (C63_dict _ _).1 (by decide +kernel)

theorem i96_safe : SafeId (i92 (.field (c! "d"))) := (i92_field (f := c! "d") (ps := []) (by decide) (by decide) (by decide) (by simp)).1

/-- The signature of the other side is accepted if its parameters are in the order of the library. -/
example : verifySignature 5 (.req (x96 ";created=1;expires=9;keyid=\"k\"")) (k96 (t96 ";created=1;expires=9;keyid=\"k\"")) (some (c! "k")) none =
    .ok (c! "s") := by
  refine (x96_receive (ps := usual96) _ (x96_wf _) (by decide +kernel) (x96_fields _ rfl (by decide +kernel))
    (by decide +kernel) rfl rfl _).2 ⟨rfl, ⟨by simp [a96, b96], ?_, ?_⟩, ?_, ?_⟩
  · intro kv hkv
    rw [a96, List.mem_singleton] at hkv
    subst hkv; exact ⟨_, _, rfl⟩
  · intro kv hkv
    rw [b96, List.mem_singleton] at hkv
    subst hkv
    refine ⟨_, { p92 [i92 (.field (c! "d"))] with created := some 1, expires := some 9, keyid := some (c! "k") }, rfl, ?_⟩
    have hl := ((parseDict_legal (s := c! "s=(\"d\");created=1;expires=9;keyid=\"k\"") (d := b96 usual96) (by decide +kernel)).2 _
      (List.mem_singleton.2 rfl)).2
    rw [paramsOf_iff hl]
    decide +kernel
  · refine ⟨by decide, ?_, ?_⟩
    · intro kv hkv hk
      simp only [l96, usual96, List.mem_cons, List.not_mem_nil, or_false] at hkv
      rcases hkv with rfl | rfl | rfl
      · exact ⟨1, rfl, by decide⟩
      · exact ⟨9, rfl, by decide⟩
      · exact absurd hk (by decide)
    · intro kv hkv hk hk'
      simp only [l96, usual96, List.mem_cons, List.not_mem_nil, or_false] at hkv
      rcases hkv with rfl | rfl | rfl
      · exact absurd rfl hk
      · exact absurd rfl hk'
      · exact ⟨c! "k", rfl, by decide⟩
  · intro it hit
    rw [l96, List.mem_singleton] at hit
    subst hit
    refine ⟨_, i96_safe, by decide, by simp [i92], fun ts h => ?_⟩
    have hl : SourceLines (.req (x96 ";created=1;expires=9;keyid=\"k\"")) none (i92 (.field (c! "d"))) (c! "d") [c! "x"] :=
      ⟨_, Or.inl ⟨by simp [i92], rfl⟩, linesText_iff.2 (.cons (by decide +kernel) .nil)⟩
    cases sourceLines_unique h hl
    exact ⟨fun _ _ => by decide, fun h => absurd h.1 (by simp [i92]), fun k hk => by simp [i92] at hk⟩

/-- The same signature with its parameters in another order is valid, and the library does not accept it. -/
example : Valid xCtx 5 (.req (x96 ";keyid=\"k\";expires=9;created=1")) none (k96 (t96 ";keyid=\"k\";expires=9;created=1")) (some (c! "k"))
      (l96 other96) [1] ∧
    ∀ n, verifySignature 5 (.req (x96 ";keyid=\"k\";expires=9;created=1")) (k96 (t96 ";keyid=\"k\";expires=9;created=1")) (some (c! "k")) none ≠
    .ok n := by
  have hb : base xCtx (.req (x96 ";keyid=\"k\";expires=9;created=1")) none (l96 other96) = some (t96 ";keyid=\"k\";expires=9;created=1") := by
    decide +kernel
  refine ⟨⟨⟨_, hb, by simp [k96]⟩, ?_, ?_⟩, fun n h => ?_⟩
  · intro i h; cases h; rfl
  · intro e h
    have : (l96 other96).params.lookup (c! "expires") = some (.int 9) := rfl
    rw [this] at h; cases h; decide
  · obtain ⟨_, _, hu, _⟩ := (x96_receive (ps := other96) _ (x96_wf _) (by decide +kernel)
      (x96_fields _ rfl (by decide +kernel)) hb rfl rfl n).1 h
    exact absurd hu.order (by decide)

/-- Keys for which the signature is the signed data. -/
def sk96 : SigningKey := ⟨fun d => .ok d, c! "k", .ed25519⟩
def vk96 : VerifyingKey := ⟨fun d s => if d = s then .ok () else .err .invalidSignature, c! "k", .ed25519⟩

theorem send96 (ls : List String) (ha : rfcValue xCtx ({ xReq "GET" none none "/" none [] with
      headers := (setSignature (x94 ls) (p92 [i92 (.field (c! "d"))]) sk96 none none).1 }) (c! "@authority") = none)
    (hok : (setSignature (x94 ls) (p92 [i92 (.field (c! "d"))]) sk96 none none).2 = .ok ()) {ts : List Str}
    {m' : Msg} (hm : m' = (x94 ls).withHeaders (setSignature (x94 ls) (p92 [i92 (.field (c! "d"))]) sk96 none none).1)
    (hsl : SourceLines m' none (i92 (.field (c! "d"))) (c! "d") ts) :
    ∃ sig, SigFields m'.headers [(c! "sig", .item ⟨.bytes sig, []⟩)] [(c! "sig", .inner (l96 []))] ∧
      (Valid xCtx 5 m' none vk96 none (l96 []) sig ↔ ts ≠ [] ∧ ∀ t ∈ ts, strip t = t) := by
  have hp : SafeParams (p92 [i92 (.field (c! "d"))]) := p92_safe (by simpa using i96_safe) (by simp)
  have hwf : WfHeaders (x94 ls).headers := by
    intro kv hkv
    obtain ⟨l, _, rfl⟩ := List.mem_map.1 hkv
    exact (⟨by decide, by decide, by decide⟩ : WfName (c! "d"))
  have none_of : ∀ f, lower f ≠ c! "d" → Wire.linesOf (x94 ls).headers f = [] := by
    intro f hf
    rw [linesOf_eq]
    unfold fieldLines
    rw [List.map_eq_nil_iff, List.filter_eq_nil_iff]
    intro kv hkv
    obtain ⟨l, _, rfl⟩ := List.mem_map.1 hkv
    simp only [decide_eq_true_eq]
    exact fun e => hf (e.symm.trans (by decide))
  obtain ⟨l, sig, h1, h2, h3⟩ := C96_send (c := xCtx) (m := x94 ls) (rf := none) (p := p92 [i92 (.field (c! "d"))]) (now := 5) (id := none)
    (sk := sk96) (vk := vk96) (name := none) (h' := (setSignature (x94 ls) (p92 [i92 (.field (c! "d"))]) sk96 none none).1)
    ⟨hwf, (by show OneLine (c! "GET"); decide), ⟨(by intro s h; cases h), (by intro s h; cases h), (by show OneLine (c! "/"); decide),
      (by intro s h; cases h)⟩⟩ (by simp) (by decide) (by decide)
    (by
      rintro r (h | h)
      · injection h with h; subst h
        intro e
        have := ha.symm.trans e
        cases this
      · cases h)
    (none_of _ (by decide)) (none_of _ (by decide)) hp
    (by
      intro i hi _
      rw [List.mem_singleton.1 hi]
      exact ⟨nofun, by intro f h; injection h with h; subst h; decide⟩)
    (by decide) (by intro d s h; cases h; simp [vk96]) (Prod.ext rfl hok) nofun (Or.inl rfl)
    (by
      intro l t u s _ _ _ _ hs hv
      cases hs
      simp only [vk96] at hv
      split at hv
      · rename_i e; exact utf8_inj e
      · cases hv)
  rw [← hm] at h3
  have hl : LegalEntry (.inner l) := by
    obtain ⟨ts, us, _, _, _, _, hb, _⟩ := h1
    exact ((parseDict_legal ((C63_dict _ _).2 hb)).2 _ (List.mem_singleton.2 rfl)).2
  have : l = l96 [] := inner_eq hp hl h2
  subst this
  refine ⟨sig, ?_, h3.trans ?_⟩
  · have : m'.headers = (setSignature (x94 ls) (p92 [i92 (.field (c! "d"))]) sk96 none none).1 := by rw [hm]; rfl
    rw [this]; exact h1
  constructor
  · intro h
    obtain ⟨i, hi, _, h4, h5⟩ := h _ (List.mem_singleton.2 rfl)
    rw [p92, List.mem_singleton] at hi
    subst hi
    refine ⟨fun e => h4 ⟨ts, hsl, .plain (by simp [i92]) (Or.inr e)⟩, (h5.2 ts hsl).plain (by simp [i92]) (by simp [i92])⟩
  · rintro ⟨h4, h5⟩ it hit
    rw [l96, List.mem_singleton] at hit
    subst hit
    refine ⟨i92 (.field (c! "d")), by simp [p92], by decide, ?_, by simp [i92], fun us hu => ?_⟩
    · rintro ⟨us, hu, hx⟩
      cases sourceLines_unique hu hsl
      cases hx with
      | plain _ h =>
        rcases h with h | h
        · exact absurd h (by decide)
        · exact h4 h
      | sf h => simp [i92] at h
      | key h => simp [i92] at h
    · cases sourceLines_unique hu hsl
      exact ⟨fun _ _ => h5, fun h => absurd h.1 (by simp [i92]), fun k hk => by simp [i92] at hk⟩

/-- The field `d` covered by the library: valid for the other side with one line, not with white space around it, and not if the field is
not there. -/
example : (∃ sig, Valid xCtx 5 ((x94 ["x"]).withHeaders (setSignature (x94 ["x"]) (p92 [i92 (.field (c! "d"))]) sk96 none none).1) none vk96 none
      (l96 []) sig) ∧
    (∃ sig, SigFields (setSignature (x94 [" x"]) (p92 [i92 (.field (c! "d"))]) sk96 none none).1 [(c! "sig", .item ⟨.bytes sig, []⟩)]
        [(c! "sig", .inner (l96 []))] ∧
      ¬ Valid xCtx 5 ((x94 [" x"]).withHeaders (setSignature (x94 [" x"]) (p92 [i92 (.field (c! "d"))]) sk96 none none).1) none vk96 none (l96 []) sig) ∧
    ∃ sig, SigFields (setSignature (x94 []) (p92 [i92 (.field (c! "d"))]) sk96 none none).1 [(c! "sig", .item ⟨.bytes sig, []⟩)]
        [(c! "sig", .inner (l96 []))] ∧
      ¬ Valid xCtx 5 ((x94 []).withHeaders (setSignature (x94 []) (p92 [i92 (.field (c! "d"))]) sk96 none none).1) none vk96 none (l96 []) sig := by
  obtain ⟨s1, _, h1⟩ := send96 ["x"] (by decide +kernel) (by decide +kernel) (ts := [c! "x"]) rfl
    ⟨_, Or.inl ⟨by simp [i92], rfl⟩, linesText_iff.2 (.cons (by decide +kernel) .nil)⟩
  obtain ⟨s2, f2, h2⟩ := send96 [" x"] (by decide +kernel) (by decide +kernel) (ts := [c! " x"]) rfl
    ⟨_, Or.inl ⟨by simp [i92], rfl⟩, linesText_iff.2 (.cons (by decide +kernel) .nil)⟩
  obtain ⟨s3, f3, h3⟩ := send96 [] (by decide +kernel) (by decide +kernel) (ts := []) rfl
    ⟨_, Or.inl ⟨by simp [i92], rfl⟩, linesText_iff.2 .nil⟩
  exact ⟨⟨s1, h1.2 (by decide)⟩, ⟨s2, f2, fun h => absurd (h2.1 h).2 (by decide)⟩, ⟨s3, f3, fun h => (h3.1 h).1 rfl⟩⟩

end Verif
