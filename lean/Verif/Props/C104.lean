import Verif.Proofs.Standard
import Verif.Props.C96
import Verif.Props.C101
/-!
C104: a sender whose signatures every program that follows RFC 9421 accepts, whatever that program knows about types of fields and the
scheme of the connection.
-/
namespace Verif
open Sfv Spec Rfc9421 Grammar

section
variable {m : Msg} {rf : Option Request} {p : SigParams} {i : CId} {l : InnerList}

/-- C104: a component that passes the check has a value in the RFC, for all programs the same, and it is the one of the library. -/
theorem C104_value (hw : WfHeaders m.headers) (hf : ∀ r, rf = some r → WfHeaders r.headers) (hi : Guard.idFine i = true)
    (h : Guard.standard m rf i = true) :
    ∃ v, Wire.HasValue m rf i v ∧ ∀ c it, LegalItem it → serItem it = idText i → value c m rf it = some v := by
  have hs := (C101_id i).1 hi
  have key : ∀ c : Ctx, ∃ v, value c m rf (idItem i) = some v ∧ Wire.HasValue m rf i v := by
    intro c
    obtain ⟨⟨v, h1⟩, h2⟩ := std_value (c := c) hw hf hs h
    obtain ⟨j, e, hj, h3⟩ := Rfc.value_core hw hf (idItem_legal hs) h1 h2
    rw [idItem_inj hj hs e] at h3
    exact ⟨v, h1, wireHasValue_iff.2 h3⟩
  obtain ⟨v, _, h1⟩ := key ⟨fun _ => none, []⟩
  refine ⟨v, h1, fun c it hl ht => ?_⟩
  rw [item_eq hs hl ht]
  obtain ⟨u, h2, h3⟩ := key c
  have e1 := (extracts_iff hw hf i v).2 (wireHasValue_iff.1 h1)
  have e2 := (extracts_iff hw hf i u).2 (wireHasValue_iff.1 h3)
  rw [h2, extracts_unique e2 e1]

/-- C104: the check refuses no more than it has to, for components without parameters but `req`: those that pass are exactly those with the
same value in the library and in all programs. -/
theorem C104_exact (hw : WfHeaders m.headers) (hf : ∀ r, rf = some r → WfHeaders r.headers)
    (ha : ∀ c r, m = .req r ∨ rf = some r → rfcValue c r (c! "@authority") ≠ some [])
    (hp : ∀ r, m = .req r ∨ rf = some r → ∀ ch, r.uri.pathData.head? = some ch → ch = '/' ∨ ch = '*')
    (hi : Guard.idFine i = true) (ho : ∀ x ∈ i.params, x = .req) :
    Guard.standard m rf i = true ↔
      ∀ c it, LegalItem it → serItem it = idText i → ∃ v, value c m rf it = some v ∧ Wire.HasValue m rf i v := by
  constructor
  · intro h c it hl ht
    obtain ⟨v, h1, h2⟩ := C104_value hw hf hi h
    exact ⟨v, h2 c it hl ht, h1⟩
  intro h
  have hs := (C101_id i).1 hi
  have h : ∀ c, ∃ v, value c m rf (idItem i) = some v ∧ Wire.HasValue m rf i v := fun c => h c _ (idItem_legal hs) (idItem_text hs)
  have hplain : PlainItem (idItem i) := by
    intro kv hkv
    obtain ⟨p, hp, rfl⟩ := List.mem_map.1 hkv
    rw [ho p hp]; exact ⟨by decide, by decide⟩
  have hx : ∀ c : Ctx, c.scheme ≠ [] → ExactItem c m rf (idItem i) := by
    intro c hc
    obtain ⟨v, h1, h2⟩ := h c
    exact (C76_item hw hf hc (ha c) (idItem_legal hs) hplain h1).1 ⟨i, v, hs, idItem_text hs, wireHasValue_iff.1 h2, h1⟩
  obtain ⟨w, e, hr⟩ := wants_of hs
  have hv : ∀ c, ∃ v, (if w.req then (match (generalizing := false) m, rf with | .res _, some r => valueIn c (.req r) (nameText i.name) w | _, _ => none)
      else valueIn c m (nameText i.name) w) = some v := by
    intro c
    obtain ⟨v, h1, _⟩ := h c
    refine ⟨v, ?_⟩
    rw [← h1]
    unfold value idItem
    simp only
    rw [e]; rfl
  have hu : ∀ c : Ctx, c.scheme ≠ [] →
      if w.req then ∀ r, rf = some r → ExactIn c (.req r) (nameText i.name) w else ExactIn c m (nameText i.name) w :=
    fun c hc => hx c hc _ w rfl e
  clear h hx
  unfold Guard.standard
  by_cases hq : w.req = true
  · simp only [if_pos hq] at hv hu
    rw [if_pos (by simpa using hr.req.1 hq)]
    cases m with
    | req _ => obtain ⟨v, hv⟩ := hv ⟨fun _ => none, []⟩; cases hv
    | res s =>
      cases rf with
      | none => obtain ⟨v, hv⟩ := hv ⟨fun _ => none, []⟩; cases hv
      | some r =>
        exact in_std (m := .req r) (hf r rfl) hs hr ho (fun r' e => by injection e with e; subst e; exact hp r (Or.inr rfl)) hv
          (fun c hc => hu c hc r rfl)
  · simp only [if_neg hq] at hv hu
    rw [if_neg (by simpa using fun hx => hq (hr.req.2 hx))]
    exact in_std hw hs hr ho (fun r e => hp r (Or.inl e)) hv hu

/-- C104: all of the covered components pass the check: the RFC has a base for the member, for all programs the same, and it is the one
of the library. -/
theorem C104_base (hw : WfHeaders m.headers) (hf : ∀ r, rf = some r → WfHeaders r.headers) (hp : Guard.paramsFine p = true)
    (h : ∀ i ∈ p.covered, Guard.standard m rf i = true) :
    ∃ t, Wire.BaseOf m rf p t ∧ ∀ c l, LegalEntry (.inner l) → serInner l = paramsText p → base c m rf l = some t := by
  have hs := (C101_params p).1 hp
  have key : ∀ c : Ctx, ∃ t, base c m rf ⟨p.covered.map idItem, paramsKV p⟩ = some t ∧ BaseOf m rf p t := by
    intro c
    obtain ⟨t, ht⟩ := (base_some (c := c) (m := m) (rf := rf) hs).2 fun i hi => (std_value hw hf (hs.ids i hi) (h i hi)).1
    obtain ⟨q, e, h2, h3⟩ := Rfc.base_core hw hf (paramsEntry_legal hs) ht ⟨Rfc.paramsKV_usual hs, fun it hit => by
      obtain ⟨i, hi, rfl⟩ := List.mem_map.1 hit
      exact (std_value hw hf (hs.ids i hi) (h i hi)).2⟩
    have : q = p := by
      have e1 := ofEntry_paramsEntry h2
      have e2 := ofEntry_paramsEntry hs
      rw [e] at e1
      have e2 : SigParams.ofEntry (.inner ⟨p.covered.map idItem, paramsKV p⟩) = .ok p := e2
      rw [e1] at e2; injection e2
    subst this
    exact ⟨t, ht, h3⟩
  obtain ⟨t, _, h1⟩ := key ⟨fun _ => none, []⟩
  refine ⟨t, wireBaseOf_iff.2 h1, fun c l hl ht => ?_⟩
  rw [inner_eq hs hl ht]
  obtain ⟨u, h2, h3⟩ := key c
  rw [h2, base_unique hw hf h3 h1]

/-- C104: a signature over such components is valid for any program exactly if it is one that the library accepts. -/
theorem C104_same {now : UInt64} {k : VerifyingKey} {id : Option Str} {n : Str} {sig : Bytes} (hw : WfHeaders m.headers)
    (hf : ∀ r, rf = some r → WfHeaders r.headers) (hp : Guard.paramsFine p = true) (h : ∀ i ∈ p.covered, Guard.standard m rf i = true)
    (hl : LegalEntry (.inner l)) (ht : serInner l = paramsText p) (c : Ctx) :
    Valid c now m rf k id l sig ↔ Wire.Checked now m rf k id ⟨n, sig, p⟩ (.ok ()) := by
  obtain ⟨t, h1, h2⟩ := C104_base hw hf hp h
  have hs := (C101_params p).1 hp
  have e := h2 c l hl ht
  have el := inner_eq hs hl ht
  have hid : (∀ i, id = some i → l.params.lookup (c! "keyid") = some (.str i)) ↔ Wire.ForKey id ⟨n, sig, p⟩ := by
    rw [el]
    show (∀ i, id = some i → (paramsKV p).lookup _ = _) ↔ id = none ∨ id = p.keyid
    simp only [lookup_keyid]
    cases id with
    | none => simp
    | some i => simp [eq_comm]
  have hex : (∀ e : Int, l.params.lookup (c! "expires") = some (.int e) → (now.toNat : Int) ≤ e) ↔ Wire.InTime now ⟨n, sig, p⟩ := by
    rw [el]
    show (∀ e : Int, (paramsKV p).lookup _ = _ → _) ↔ ∀ e, p.expires = some e → now.toNat ≤ e.toNat
    simp only [lookup_expires]
    constructor
    · intro hx u hu
      have := hx _ ⟨u, hu, rfl⟩
      omega
    · rintro hx e ⟨u, hu, rfl⟩
      have := hx u hu
      omega
  constructor
  · rintro ⟨⟨u, g1, g2⟩, g3, g4⟩
    rw [e] at g1; injection g1 with g1; subst g1
    exact ⟨_, h1, hid.1 g3, hex.1 g4, g2⟩
  · rintro ⟨u, g1, g2, g3, g4⟩
    have : u = t := base_unique hw hf (wireBaseOf_iff.1 g1) (wireBaseOf_iff.1 h1)
    subst this
    exact ⟨⟨u, e, g4⟩, hid.2 g2, hex.2 g3⟩

/-! ### Sending -/

theorem standard_after (hw : WfHeaders m.headers) (hs : List SigHeaders) (h : Guard.standard m rf i = true) (hn : Guard.notSelf i = true) :
    Guard.standard (m.withHeaders (m.headers ++ hs.flatMap sigLines)) rf i = true := by
  unfold Guard.standard at h ⊢
  unfold Guard.notSelf at hn
  by_cases hq : i.params.contains .req = true
  · rw [if_pos hq] at h ⊢
    cases m with
    | req r => cases h
    | res s =>
      cases rf with
      | none => cases h
      | some r => exact h
  · rw [if_neg hq] at h ⊢
    have hq' : i.params.contains .req = false := by simpa using hq
    rw [hq', Bool.false_or, Bool.and_eq_true, bne_iff_ne, bne_iff_ne] at hn
    obtain ⟨n, ps⟩ := i
    cases n with
    | derived d => cases m <;> exact h
    | field f =>
      have e : ((m.withHeaders (m.headers ++ hs.flatMap sigLines)).headers).getAll f = m.headers.getAll f := by
        have hlow : Guard.noUpper f = true := by
          simp only [Guard.stdIn, Bool.and_eq_true] at h; exact h.1.1.2
        have hlow : lower f = f := noUpper_lower hlow
        rw [headers_withHeaders, getAll_fieldLines (wf_sigLines hw hs), getAll_fieldLines hw, fieldLines_append,
          fieldLines_sigLines_other hs (by rw [hlow]; intro e; exact hn.1 (by rw [e])) (by rw [hlow]; intro e; exact hn.2 (by rw [e])), List.append_nil]
      simp only [Guard.stdIn] at h ⊢
      rw [e]; exact h

theorem last_member {hs : List SigHeaders} (hn : (hs.map (·.name)).Nodup) (e : SigHeaders → Entry) {sh : SigHeaders} (h : sh ∈ hs)
    (ds : List Dict) : ((ds ++ hs.map fun x => [(x.name, e x)]).filterMap (fun d => d.lookup sh.name)).getLast? = some (e sh) := by
  have key : ((hs.map fun x => ([(x.name, e x)] : Dict)).filterMap (fun d => d.lookup sh.name)) = [e sh] := by
    induction hs with
    | nil => cases h
    | cons a hs ih =>
      rw [List.map_cons, List.nodup_cons] at hn
      rw [List.map_cons, List.filterMap_cons]
      by_cases ha : a.name = sh.name
      · have : sh = a := by
          rcases List.mem_cons.1 h with h | h
          · exact h
          · exact absurd (ha ▸ List.mem_map_of_mem (f := fun x : SigHeaders => x.name) h) hn.1
        subst this
        have e0 : List.lookup sh.name [(sh.name, e sh)] = some (e sh) := by simp [List.lookup]
        rw [e0]
        have : ((hs.map fun x => ([(x.name, e x)] : Dict)).filterMap (fun d => d.lookup sh.name)) = [] := by
          rw [List.filterMap_eq_nil_iff]
          intro d hd
          obtain ⟨x, hx, rfl⟩ := List.mem_map.1 hd
          exact lookup_other fun hxe => hn.1 (hxe ▸ List.mem_map_of_mem (f := fun x : SigHeaders => x.name) hx)
        simp only [this]
      · rw [lookup_other ha]
        exact ih hn.2 ((List.mem_cons.1 h).resolve_left fun hx => ha (by rw [hx]))
  rw [List.filterMap_append, key, List.getLast?_append]; rfl

/-- New lines, each with one label, all different, after lines that are a dictionary or nothing. -/
theorem joined_member {hs : List SigHeaders} (hne : hs ≠ []) (hn : (hs.map (·.name)).Nodup) (e : SigHeaders → Entry) (txt : SigHeaders → Str)
    (ht : ∀ sh ∈ hs, parseDict (txt sh) = some [(sh.name, e sh)]) {ts : List Str} (h0 : ts = [] ∨ ∃ d, parseDict (join (c! ", ") ts) = some d)
    {b : Dict} (hb : parseDict (join (c! ", ") (ts ++ hs.map txt)) = some b) {sh : SigHeaders} (h : sh ∈ hs) : (sh.name, e sh) ∈ b := by
  have hnew : List.Forall₂ (fun v d => parseDict v = some d) (hs.map txt) (hs.map fun x => [(x.name, e x)]) := by
    rw [List.forall₂_map_left_iff, List.forall₂_map_right_iff, List.forall₂_same]
    exact ht
  have hne' : hs.map txt ≠ [] := by simpa using hne
  apply lookup_mem
  by_cases hts : ts = []
  · subst hts
    rw [lookup_joined hnew hne' hb]
    exact last_member hn e h []
  · obtain ⟨d, hd⟩ := h0.resolve_left hts
    have hj : join (c! ", ") (ts ++ hs.map txt) = join (c! ", ") (join (c! ", ") ts :: hs.map txt) := by
      rw [join_append _ hts hne', join_cons _ _ hne']
    rw [hj] at hb
    rw [lookup_joined (.cons hd hnew) (by simp) hb]
    exact last_member hn e h [d]

theorem sendStandard_ok {l : List Signer} {h' : Headers} : Guard.sendStandard m l rf = (h', .ok ()) ↔
    (∀ x ∈ l, ∀ i ∈ x.1.covered, Guard.standard m rf i = true ∧ Guard.notSelf i = true) ∧ Guard.send m l rf = (h', .ok ()) := by
  unfold Guard.sendStandard
  have e : (l.all fun x => x.1.covered.all fun i => Guard.standard m rf i && Guard.notSelf i) = true ↔
      ∀ x ∈ l, ∀ i ∈ x.1.covered, Guard.standard m rf i = true ∧ Guard.notSelf i = true := by
    simp only [List.all_eq_true, Bool.and_eq_true]
  split
  · rename_i h; exact ⟨fun hx => ⟨e.1 h, hx⟩, fun hx => hx.2⟩
  · rename_i h; exact ⟨fun hx => (by cases hx), fun hx => absurd (e.2 hx.1) h⟩

theorem notSelf_params (hs : ∀ i ∈ p.covered, Guard.standard m rf i = true ∧ Guard.notSelf i = true) : NotSelf p := by
  intro i hi hq
  obtain ⟨h, hn⟩ := hs i hi
  have hq' : i.params.contains .req = false := by simpa using hq
  unfold Guard.standard at h
  unfold Guard.notSelf at hn
  rw [hq', if_neg (by simp)] at h
  rw [hq', Bool.false_or, Bool.and_eq_true, bne_iff_ne, bne_iff_ne] at hn
  obtain ⟨n, ps⟩ := i
  cases n with
  | derived d =>
    refine ⟨?_, nofun⟩
    rintro ⟨⟩
    cases m <;> cases h
  | field f =>
    refine ⟨nofun, fun g hg => ?_⟩
    injection hg with hg; subst hg
    simp only [Guard.stdIn, Bool.and_eq_true] at h
    have hlow : lower f = f := noUpper_lower h.1.1.2
    rw [hlow]
    exact ⟨fun e => hn.1 (by rw [e]), fun e => hn.2 (by rw [e])⟩

/-- C104: whatever the sender sends, besides any signatures that were there before, every program that follows the RFC finds every new
signature in it and takes it for valid, with the matching key. -/
theorem C104_send (hw : WfHeaders m.headers) (hf : ∀ r, rf = some r → WfHeaders r.headers) {l : List Signer} (hl : l ≠ []) {h' : Headers}
    (h : Guard.sendStandard m l rf = (h', .ok ())) :
    ∃ a b, SigFields h' a b ∧ ∀ x ∈ l, ∃ il sig, (x.label, .inner il) ∈ b ∧ (x.label, .item ⟨.bytes sig, []⟩) ∈ a ∧ serInner il = paramsText x.1 ∧
      ∀ vk, KeyPair x.2.1 vk → ∀ now : UInt64, (∀ e, x.1.expires = some e → now ≤ e) → ∀ id, id = none ∨ id = x.1.keyid →
        ∀ c, Valid c now (m.withHeaders h') rf vk id il sig := by
  obtain ⟨hstd, h⟩ := sendStandard_ok.1 h
  obtain ⟨_, _, _, _, hcar⟩ := C101_kept hw hf hl h
  obtain ⟨hS, hs, h2, rfl⟩ := (C101_sends hw hf l h').1 h
  have hsafe := signed_safe h2 hS.safe
  have hne : hs ≠ [] := by rintro rfl; cases h2; exact hl rfl
  have hnames : (hs.map (·.name)).Nodup := by
    have : hs.map (·.name) = l.map Signer.label := by
      clear * - h2
      induction h2 with
      | nil => rfl
      | cons h _ ih => rw [List.map_cons, List.map_cons, ih, h.name]
    rw [this]; exact hS.labels
  obtain ⟨ts, us, g1, g2, g3, g4, a, b, ga, gb, _⟩ := wireCarries_iff.2 hcar
  have hin : LineTexts (fieldLines (hs.flatMap sigLines) (c! "signature-input")) (hs.map (·.inputValue)) := by
    rw [fieldLines_sigLines_input]
    unfold LineTexts
    rw [List.forall₂_map_left_iff, List.forall₂_map_right_iff, List.forall₂_same]
    exact fun sh hsh => hvToStr_utf8 (safe_input_printable (hsafe sh hsh))
  have hsg : LineTexts (fieldLines (hs.flatMap sigLines) (c! "signature")) (hs.map (·.signatureValue)) := by
    rw [fieldLines_sigLines_sig]
    unfold LineTexts
    rw [List.forall₂_map_left_iff, List.forall₂_map_right_iff, List.forall₂_same]
    exact fun sh hsh => hvToStr_utf8 (safe_signature_printable (hsafe sh hsh).name)
  have k1 := linesText_iff.1 g1
  have k2 := linesText_iff.1 g2
  rw [fieldLines_append] at k1 k2
  obtain ⟨ts0, k3, rfl⟩ := (lineTexts_append hin ts).1 k1
  obtain ⟨us0, k4, rfl⟩ := (lineTexts_append hsg us).1 k2
  have hold : (ts0 = [] ∨ ∃ d, parseDict (join (c! ", ") ts0) = some d) ∧ (us0 = [] ∨ ∃ d, parseDict (join (c! ", ") us0) = some d) := by
    obtain ⟨l0, ⟨z1, z2, _⟩ | ⟨z, _⟩⟩ := hS.signatures
    · rw [z1] at k3; rw [z2] at k4
      cases k3; cases k4
      exact ⟨Or.inl rfl, Or.inl rfl⟩
    · obtain ⟨ts', us', y1, y2, _, _, a', b', y3, y4, _⟩ := wireCarries_iff.2 z
      rw [lineTexts_inj (linesText_iff.1 y1) k3, commas_eq] at y4
      rw [lineTexts_inj (linesText_iff.1 y2) k4, commas_eq] at y3
      exact ⟨Or.inr ⟨_, (C63_dict _ _).2 y4⟩, Or.inr ⟨_, (C63_dict _ _).2 y3⟩⟩
  have pb := (C63_dict _ _).2 gb
  have pa := (C63_dict _ _).2 ga
  rw [commas_eq] at pa pb
  refine ⟨a, b, ⟨_, _, g1, g2, g3, g4, gb, ga⟩, fun x hx => ?_⟩
  obtain ⟨sh, hsh, hby⟩ := forall₂_mem_left h2 x hx
  have hp := (hS.safe x hx).1
  have m1 := joined_member hne hnames (fun sh => (inputMember sh).2) (·.inputValue) (fun sh h => inputLine_dict (hsafe sh h)) hold.1 pb hsh
  have m2 := joined_member hne hnames (fun sh => (sigMember sh).2) (·.signatureValue) (fun sh h => signatureLine_dict (hsafe sh h).name) hold.2 pa hsh
  rw [hby.name] at m1 m2
  rw [show (inputMember sh).2 = .inner ⟨x.1.covered.map idItem, paramsKV x.1⟩ by unfold inputMember; rw [hby.params]; rfl] at m1
  have hleg : LegalEntry (.inner ⟨x.1.covered.map idItem, paramsKV x.1⟩) := paramsEntry_legal hp
  have hser : serInner ⟨x.1.covered.map idItem, paramsKV x.1⟩ = paramsText x.1 := by
    rw [← C58_params_text, params_disp_eq hp]; rfl
  refine ⟨⟨x.1.covered.map idItem, paramsKV x.1⟩, sh.signature, m1, m2, hser, fun vk hk now ht id hid c => ?_⟩
  have hw' : WfHeaders (m.withHeaders (m.headers ++ hs.flatMap sigLines)).headers := by
    rw [headers_withHeaders]; exact wf_sigLines hw hs
  refine (C104_same (n := x.label) hw' hf ((C101_params _).2 hp) (fun i hi => standard_after hw hs (hstd x hx i hi).1 (hstd x hx i hi).2)
    hleg hser c).2 ?_
  obtain ⟨t, hb, hsign⟩ := hby.signature
  refine ⟨t, wireBaseOf_iff.2 ((base_after (notSelf_params (hstd x hx)) hw hf hs t).2 hb), hid, fun e he => ?_, hk _ _ hsign⟩
  exact UInt64.le_iff_toNat_le.1 (ht e he)

/-- C104: the sender adds all signatures or leaves the message as it is. -/
theorem C104_all_or_nothing (hw : WfHeaders m.headers) (hf : ∀ r, rf = some r → WfHeaders r.headers) (l : List Signer)
    (h : (Guard.sendStandard m l rf).2 ≠ .ok ()) : (Guard.sendStandard m l rf).1 = m.headers := by
  unfold Guard.sendStandard at h ⊢
  split
  · rename_i hx; rw [if_pos hx] at h; exact C101_all_or_nothing hw hf l h
  · rfl

end
/-! ### Cases -/

/-- A request with an absolute URI, a query and fields on two lines. -/
def c104Req : Request := xReq "GET" (some "https") (some "a.example:8443") "/p" (some "x=1&y=2-3")
  [(c! "date", utf8 (c! "now")), (c! "x-two", utf8 (c! "a")), (c! "x-two", utf8 (c! "b,c"))]

def c104Ids : List CId := [⟨.derived .method, []⟩, ⟨.derived .targetUri, []⟩, ⟨.derived .authority, []⟩, ⟨.derived .scheme, []⟩, ⟨.derived .path, []⟩,
  ⟨.derived .query, []⟩, ⟨.derived .queryParam, [.name (c! "y")]⟩, ⟨.field (c! "date"), []⟩, ⟨.field (c! "x-two"), []⟩]

def c104Signers : List Signer :=
  [(wParams (c! "k") c104Ids, (SecretKey.ecdsaP384Sha384 (P := toyPrims) [1]).signing [], some (c! "a")),
    (wParams (c! "k") c104Ids, (SecretKey.ecdsaP256Sha256 (P := toyPrims) [1]).signing [], some (c! "b"))]

theorem c104Req_wf : WfHeaders c104Req.headers := by
  intro kv hkv
  simp only [c104Req, xReq, List.mem_cons, List.not_mem_nil, or_false] at hkv
  rcases hkv with rfl | rfl | rfl <;> exact ⟨by decide, by decide, by decide⟩

set_option maxRecDepth 20000 in
theorem c104_std : ∀ i ∈ c104Ids, Guard.idFine i = true ∧ Guard.standard (.req c104Req) none i = true ∧ Guard.notSelf i = true := by decide +kernel

set_option maxRecDepth 20000 in
theorem c104_sent : (Guard.sendStandard (.req c104Req) c104Signers none).2 = .ok () := by decide +kernel

-- every program that knows the key takes the first signature for valid, at any time up to the expiry
example (now : UInt64) (hn : now ≤ 100) (c : Ctx) : ∃ b il sig, (c! "a", .inner il) ∈ (b : Dict) ∧
    Valid c now ((Msg.req c104Req).withHeaders (Guard.sendStandard (.req c104Req) c104Signers none).1) none
      (PublicKey.ecdsaP384Sha384 (P := toyPrims) [1]).verifying (some (c! "k")) il sig := by
  obtain ⟨_, b, _, h⟩ := C104_send (m := .req c104Req) (rf := none) c104Req_wf (by simp) (l := c104Signers) (by simp [c104Signers])
    (Prod.ext rfl c104_sent)
  obtain ⟨il, sig, h1, _, _, h2⟩ := h _ (List.mem_cons_self ..)
  refine ⟨b, il, sig, h1, h2 _ (toy_secret_pair (.ecdsaP384Sha384 [1]) []) now ?_ _ (Or.inr rfl) c⟩
  intro e he
  injection he with he; subst he; exact hn

-- the value of a component is the same for all programs
example (c : Ctx) : value c (.req c104Req) none (idItem ⟨.derived .authority, []⟩) = some (c! "a.example:8443") := by
  obtain ⟨v, h1, h2⟩ := C104_value (m := .req c104Req) (rf := none) (i := ⟨.derived .authority, []⟩) c104Req_wf (by simp) (by decide) (by decide)
  have e := fun c => h2 c (idItem ⟨.derived .authority, []⟩) (idItem_legal ((C101_id _).1 (by decide))) (idItem_text ((C101_id _).1 (by decide)))
  rw [e c, ← e ⟨fun _ => none, c! "http"⟩]
  decide

-- the base of all of them
example : ∃ t, Wire.BaseOf (.req c104Req) none (wParams (c! "k") c104Ids) t ∧ ∀ c, base c (.req c104Req) none
    ⟨c104Ids.map idItem, paramsKV (wParams (c! "k") c104Ids)⟩ = some t := by
  have hf : Guard.paramsFine (wParams (c! "k") c104Ids) = true := by decide +kernel
  obtain ⟨t, h1, h2⟩ := C104_base (m := .req c104Req) (rf := none) (p := wParams (c! "k") c104Ids) c104Req_wf (by simp) hf
    (fun i hi => (c104_std i hi).2.1)
  have hs := (C101_params _).1 hf
  exact ⟨t, h1, fun c => h2 c _ (paramsEntry_legal hs) (by rw [← C58_params_text, params_disp_eq hs]; rfl)⟩

/-- The programs that take the connection for one with this scheme. -/
def c104Ctx (s : String) : Ctx := ⟨fun _ => none, s.toList⟩

/-- Requests and components that the sender refuses though the library signs them, with a program that has another value or none. -/
def c104Refused : List (Request × CId × Ctx) :=
  [(xReq "get" none none "/" none [], ⟨.derived .method, []⟩, c104Ctx "http"),
    (xReq "GET" none none "/" none [(c! "host", utf8 (c! "a.example"))], ⟨.derived .targetUri, []⟩, c104Ctx "http"),
    (xReq "GET" none none "/" none [(c! "host", utf8 (c! "a.example"))], ⟨.derived .authority, []⟩, c104Ctx "http"),
    (xReq "GET" none (some "a.example:443") "/" none [], ⟨.derived .authority, []⟩, c104Ctx "https"),
    (xReq "GET" (some "http") (some "u@a.example") "/" none [], ⟨.derived .authority, []⟩, c104Ctx "http"),
    (xReq "GET" (some "http") (some "a.example") "/" none [], ⟨.derived .requestTarget, []⟩, c104Ctx "http"),
    (xReq "OPTIONS" none none "/" none [], ⟨.derived .requestTarget, []⟩, c104Ctx "http"),
    (xReq "GET" none none "/" (some "x=1&x=2") [], ⟨.derived .queryParam, [.name (c! "x")]⟩, c104Ctx "http"),
    (xReq "GET" none none "/" (some "x=1+2") [], ⟨.derived .queryParam, [.name (c! "x")]⟩, c104Ctx "http"),
    (xReq "GET" none none "/" none [], ⟨.field (c! "date"), []⟩, c104Ctx "http"),
    (xReq "GET" none none "/" none [(c! "date", utf8 (c! "now"))], ⟨.field (c! "Date"), []⟩, c104Ctx "http"),
    (xReq "GET" none none "/" none [(c! "date", utf8 (c! " now"))], ⟨.field (c! "date"), []⟩, c104Ctx "http")]

set_option maxRecDepth 20000 in
example : ∀ x ∈ c104Refused, Guard.standard (.req x.1) none x.2.1 = false ∧
    (match buildBase (.req x.1) { covered := [x.2.1] } none with
      | .ok b => decide (base x.2.2 (.req x.1) none ⟨[idItem x.2.1], []⟩ ≠ some b.disp)
      | _ => false) = true := by decide +kernel

-- without parameters: the check passes exactly if all programs agree
example : ¬ ∀ c it, LegalItem it → serItem it = idText ⟨.derived .method, []⟩ →
    ∃ v, value c (.req (xReq "get" none none "/" none [])) none it = some v ∧ Wire.HasValue (.req (xReq "get" none none "/" none [])) none ⟨.derived .method, []⟩ v := by
  rw [← C104_exact (m := .req (xReq "get" none none "/" none [])) (rf := none) (by intro kv h; cases h) (by simp)
    (by rintro c r (h | h)
        · injection h with h; subst h; exact fun h => by cases h
        · cases h)
    (by rintro r (h | h) ch hc
        · injection h with h; subst h; injection hc with hc; exact Or.inl hc.symm
        · cases h)
    (by decide) (by intro x h; cases h)]
  decide

end Verif
