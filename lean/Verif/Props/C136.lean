import Verif.Spec.Cache
import Verif.Props.C133
import Verif.Proofs.UriText
import Verif.Props.C71
/-!
C136: signed answers in caches.
-/
namespace Verif
open Sfv Spec Arrival Http1 Http2

theorem same_lower {h : Headers} {f g : Str} (e : f.map Char.toLower = g.map Char.toLower) : Wire.linesOf h f = Wire.linesOf h g := by
  unfold Wire.linesOf
  rw [e]

theorem no_lines {h : Headers} {f : Str} (hf : f.map Char.toLower ∉ h.map fun kv => kv.1.map Char.toLower) : Wire.linesOf h f = [] := by
  unfold Wire.linesOf
  rw [List.filter_eq_nil_iff.2 (fun kv hkv hd => hf (List.mem_map.2 ⟨kv, hkv, by simpa using hd⟩))]
  rfl

/-- C136: whatever happens to an answer in caches, it has its status, its body, and all lines of names that were not changed. -/
theorem C136_life {ns : List Str} {s s' : Response} (h : Cache.Life ns s s') (hw : WfHeaders s.headers) :
    s'.status = s.status ∧ (∀ f : Str, f.map Char.toLower ∉ ns → Wire.linesOf s'.headers f = Wire.linesOf s.headers f) ∧ WfHeaders s'.headers ∧ s'.body = s.body := by
  induction h with
  | stored => exact ⟨rfl, fun _ _ => rfl, hw, rfl⟩
  | sent _ h2 ih =>
    obtain ⟨i1, i2, i3, i4⟩ := ih hw
    refine ⟨h2.status.trans i1, fun f hf => ?_, h2.wf, h2.body.trans i4⟩
    rw [List.mem_cons, not_or] at hf
    exact (h2.fields f hf.1).trans (i2 f hf.2)
  | @fresh _ out _ _ _ _ _ h2 ih =>
    obtain ⟨i1, i2, i3, i4⟩ := ih hw
    refine ⟨h2.status.trans i1, fun f hf => ?_, h2.wf, h2.body.trans i4⟩
    rw [List.mem_append, not_or] at hf
    refine (h2.old f ?_).trans (i2 f hf.2)
    rw [List.mem_filter, not_and] at hf
    by_cases ho : f.map Char.toLower ∈ out
    · exact Or.inl ho
    · exact Or.inr (no_lines fun hm => hf.1 hm (by simpa using ho))
  | carried _ h2 ih =>
    obtain ⟨i1, i2, i3, i4⟩ := ih hw
    obtain ⟨b1, b2, b3, b4⟩ := C133_back h2 i3
    refine ⟨b1.trans i1, fun f hf => ?_, b3, b4.trans i4⟩
    rw [List.mem_append, not_or] at hf
    exact (b2 f hf.1).trans (i2 f hf.2)

/-- A member of a list as it is written, with blanks around it. -/
def Member (w : Bytes) (g : Str) : Prop := Token g ∧ ∃ a b, w = a ++ utf8 g ++ b ∧ ∀ x ∈ a ++ b, Ows x

theorem ows_small {x : UInt8} (h : Ows x) : x.toNat < 33 := by rcases h with rfl | rfl <;> decide

theorem member_text {w : Bytes} {g : Str} (h : Member w g) : w.filter (fun x => decide (33 ≤ x.toNat)) = utf8 g := by
  obtain ⟨ht, a, b, rfl, hx⟩ := h
  have small : ∀ l : Bytes, (∀ x ∈ l, Ows x) → l.filter (fun x => decide (33 ≤ x.toNat)) = [] := by
    intro l hl
    refine List.filter_eq_nil_iff.2 fun x hm => ?_
    have := ows_small (hl x hm)
    simpa using this
  rw [List.filter_append, List.filter_append, small a (fun x hm => hx x (by simp [hm])), small b (fun x hm => hx x (by simp [hm])), List.append_nil, List.nil_append]
  exact List.filter_eq_self.2 fun x hm => by simpa using (token_bytes ht x hm).1

theorem member_comma {w : Bytes} {g : Str} (h : Member w g) : (44 : UInt8) ∉ w := by
  obtain ⟨ht, a, b, rfl, hx⟩ := h
  intro hm
  rw [List.append_assoc, List.mem_append, List.mem_append] at hm
  rcases hm with hm | hm | hm
  · have := ows_small (hx 44 (by simp [hm]))
    exact absurd this (by decide)
  · obtain ⟨c, hc, e⟩ := utf8_mem (fun c hc => by have := tchar_visible (ht.2 c hc); omega) hm
    have e1 : c.toNat = 44 := e.symm.trans (by decide)
    rcases ht.2 c hc with h | h | h
    · rcases h with ⟨h1, _⟩ | ⟨h1, _⟩
      · have a : 97 ≤ c.toNat := h1
        omega
      · have a : 65 ≤ c.toNat := h1
        omega
    · have a : 48 ≤ c.toNat := h.1
      omega
    · have hall : ∀ c ∈ c! "!#$%&'*+-.^_`|~", c.toNat ≠ 44 := by decide
      exact hall c h e1
  · have := ows_small (hx 44 (by simp [hm]))
    exact absurd this (by decide)

/-- C136: a line Vary names the members of its list, with capitals or not and with any blanks around them, and no other fields. -/
theorem C136_names {h : Headers} {ws : List Bytes} {gs : List Str} (hm : List.Forall₂ Member ws gs) (hne : gs ≠ [])
    (hl : Wire.linesOf h (c! "vary") = [[44].intercalate ws]) {f : Str} (hf : WfName f) : Cache.Varies h f ↔ ∃ g ∈ gs, g.map Char.toLower = f.map Char.toLower := by
  have hws : ws ≠ [] := by
    rintro rfl
    cases hm
    exact hne rfl
  have hsplit : ([44].intercalate ws).splitOn (44 : UInt8) = ws := by
    refine List.splitOn_intercalate _ (fun w hw => ?_) hws
    obtain ⟨g, _, hg⟩ := (forall₂_mem_left hm) w hw
    exact member_comma hg
  constructor
  · rintro ⟨v, hv, w, hw, a, g', b, e1, hx, e2⟩
    rw [hl, List.mem_singleton] at hv
    subst hv
    rw [hsplit] at hw
    obtain ⟨g, hg, hwg⟩ := (forall₂_mem_left hm) w hw
    have hg' : Member w g' := by
      refine ⟨⟨?_, fun c hc => ?_⟩, a, b, e1, hx⟩
      · rintro rfl
        exact hf.1 (by simpa using e2.symm)
      · have : c.toLower ∈ f.map Char.toLower := e2 ▸ List.mem_map_of_mem hc
        obtain ⟨d, hd, e⟩ := List.mem_map.1 this
        exact tchar_of_isTchar (tchar_of_lower (e ▸ (lower_tchar (hf.2.2 d hd).1).1))
    exact ⟨g, hg, by rw [utf8_inj ((member_text hwg).symm.trans (member_text hg'))]; exact e2⟩
  · rintro ⟨g, hg, e⟩
    obtain ⟨w, hw, _, a, b, e1, hx⟩ := (forall₂_mem_right hm) g hg
    exact ⟨_, by rw [hl]; exact List.mem_singleton.2 rfl, w, by rw [hsplit]; exact hw, a, g, b, e1, hx, e⟩

/-- C136: what a component of the request is worth, if it is no field or one that Vary names: the same in all requests for which the answer is used. -/
theorem C136_value {r0 r : Request} {s : Response} (h : Cache.Selected r0 s r) {i : CId} (hi : Cache.Bound s i) (v : Str) :
    Wire.ValueIn (.req r) i v ↔ Wire.ValueIn (.req r0) i v := by
  obtain ⟨n, ps⟩ := i
  unfold Wire.ValueIn
  cases n with
  | field f => simp only [Wire.FieldValue, Wire.LinesText, h.vary f (hi.1 f rfl)]
  | derived d =>
    simp only
    refine and_congr_right fun _ => ?_
    unfold Wire.RequestValue
    cases d with
    | signatureParams => simp only [Wire.SigParamsValue, h.vary _ (hi.2 rfl)]
    | _ => simp only [h.method, h.target]

/-- C136: signatures of an answer from a cache are verified, with the request for which it is used, as those of the server's answer with the request for which it was
made, if what they cover lasts. -/
theorem C136_verify {ns : List Str} {r0 r : Request} {s s' : Response} (h : Cache.Life ns s s') (hsel : Cache.Selected r0 s r) (hw0 : WfHeaders r0.headers)
    (hw : WfHeaders r.headers) (hs : WfHeaders s.headers) (ht : Untouched ns)
    (hc : ∀ l, Wire.Carries s.headers l → ∀ kv ∈ l, ∀ i ∈ kv.2.params.covered, Cache.Lasts ns s i) (now : UInt64) (keys : List (VerifyingKey × Option Str)) :
    verifySignatures now (.res s') keys (some r) = verifySignatures now (.res s) keys (some r0) ∧
    ∀ k id, verifySignature now (.res s') k id (some r) = verifySignature now (.res s) k id (some r0) := by
  obtain ⟨b1, b2, b3, _⟩ := C136_life h hs
  have hf : ∀ q, some r = some q → WfHeaders q.headers := by intro q e; injection e with e; exact e ▸ hw
  have hf' : ∀ q, some r0 = some q → WfHeaders q.headers := by intro q e; injection e with e; exact e ▸ hw0
  have he := extract_of_lines (m := .res s) (m' := .res s') hs b3 (b2 (c! "signature-input") ht.1).symm (b2 (c! "signature") ht.2).symm
  obtain ⟨g1, g2⟩ := verify_congr_base (m := .res s) (m' := .res s') hs b3 hf' hf he (fun l hl kv hkv t => by
    have hb := hc l (wireCarries_iff.2 ((extractSignatureHeaders_ok (m := .res s) hs l).1 hl)) kv hkv
    rw [← wireBaseOf_iff, ← wireBaseOf_iff]
    refine wireBase_congr (fun i hi v => ?_) t
    have hb := hb i hi
    unfold Cache.Lasts at hb
    unfold Wire.HasValue
    by_cases hq : CParam.req ∈ i.params
    · rw [if_pos hq] at hb
      have := C136_value hsel hb v
      simp [hq, this]
    · rw [if_neg hq] at hb
      have := response_value (s := s) (s' := s') b1 b2 hb v
      simp [hq, this]) now keys
  exact ⟨g1.symm, fun k id => (g2 k id).symm⟩

/-- C136: the server signs an answer; from a cache it is valid for every request for which it is used, until the signature expires and no longer. -/
theorem C136_hit {p : SigParams} {name : Option Str} {sk : SigningKey} {vk : VerifyingKey} {t0 : UInt64} {r0 r : Request} {s s1 s2 : Response}
    (ha : Seal [] s.headers p name sk vk t0) (hw0 : WfHeaders r0.headers) (hw : WfHeaders r.headers) (hsign : s.setSignature p sk name (some r0) = (s1, .ok ()))
    {ns : List Str} (hlife : Cache.Life ns s1 s2) (hsel : Cache.Selected r0 s1 r) (ht : Untouched ns) (hc : ∀ i ∈ p.covered, Cache.Lasts ns s1 i) (now : UInt64) :
    s2.verifySignature now vk none (some r) = .ok (name.getD (c! "sig")) ↔ ∀ e, p.expires = some e → now ≤ e := by
  have hws : WfHeaders s.headers := ha.wf
  have hf : ∀ q, some r0 = some q → WfHeaders q.headers := by intro q e; injection e with e; exact e ▸ hw0
  obtain ⟨f1, f2⟩ := seal_fresh ha
  have h1 := fun hfr => C02_response (now := now) s hws hf f1 f2 ha.params ha.notSelf ha.label ha.pair hsign hfr (id := none) (Or.inl rfl)
  injection hsign with e1 e2
  subst e1
  have hset : setSignatures (.res s) [(p, sk, name)] (some r0) = ((setSignatures (.res s) [(p, sk, name)] (some r0)).1, .ok ()) := Prod.ext rfl e2
  obtain ⟨ls, g1, g2⟩ := (C65_sign (m := .res s) hws hf _ _).1 hset
  obtain ⟨_, c2, _, _⟩ := all_added g1 (legal_start ha.label)
  have hw1 : WfHeaders (setSignatures (.res s) [(p, sk, name)] (some r0)).1 := g2 ▸ wf_append (a := (Msg.res s).headers) hws c2
  have hp := fun k hk kv hkv => seal_carries (m := .res s) hws hf f1 f2 ha.params ha.notSelf ha.label hset (k := k) hk kv hkv
  have h2 := (C136_verify hlife hsel hw0 hw hw1 ht (fun k hk kv hkv i hi => hc i (by rwa [hp k hk kv hkv] at hi)) now []).2 vk none
  refine ⟨fun h e he => ?_, fun h => h2.trans (h1 h)⟩
  obtain ⟨l, sh, k1, k2, k3⟩ := C12_expired_never_succeeds (m := .res { s with headers := (setSignatures (.res s) [(p, sk, name)] (some r0)).1 }) hw1 hf _ (h2.symm.trans h)
  exact k3 e (by rw [hp l (wireCarries_iff.2 k1) _ k2]; exact he)

/-! ### Examples -/

namespace Ex136
open Ex124 Ex126 Ex128 Ex129

def pageIds : List CId := [⟨.derived .status, []⟩, ⟨.field (c! "etag"), []⟩, ⟨.derived .targetUri, [.req]⟩, ⟨.field (c! "accept-language"), [.req]⟩]
def pageParams : SigParams := { exParams pageIds with expires := some 200 }

/-- Two requests for the same page in the same language. -/
def first : Request := { sent with headers := [(c! "accept-language", utf8 (c! "en"))] }
def second : Request := { sent with headers := [(c! "x1", utf8 (c! "Tue")), (c! "accept-language", utf8 (c! "en"))] }
/-- One in another language. -/
def third : Request := { sent with headers := [(c! "accept-language", utf8 (c! "fr"))] }

def page : Response := ⟨200, [(c! "etag", utf8 (c! "x")), (c! "vary", utf8 (c! "accept, Accept-Language"))], .data (utf8 (c! "hi"))⟩
def pageSigned : Response := (page.setSignature pageParams (toySign 9) none (some first)).1
/-- The page from the cache, and then with a new date from an answer 304. -/
def pageSent : Response := { pageSigned with headers := [(c! "age", utf8 (c! "5"))] ++ pageSigned.headers }
def notModified : Response := ⟨304, [(c! "date", utf8 (c! "Wed")), (c! "content-length", utf8 (c! "0"))], .data []⟩
def pageFresh : Response := { pageSent with headers := [(c! "date", utf8 (c! "Wed"))] ++ pageSent.headers }

theorem names6 {h : Headers} (hn : ∀ kv ∈ h, kv.1 ∈ [c! "etag", c! "vary", c! "age", c! "date", c! "x1", c! "accept-language", c! "signature", c! "signature-input"]) : WfHeaders h := by
  intro kv hkv
  have := hn kv hkv
  simp only [List.mem_cons, List.not_mem_nil, or_false] at this
  rcases this with e | e | e | e | e | e | e | e <;> rw [e] <;> exact ⟨by decide, by decide, by decide⟩

/-- A line in front changes nothing in lines of other names. -/
theorem line_before {n f : Str} {v : Bytes} {h : Headers} (hf : f.map Char.toLower ≠ n.map Char.toLower) : Wire.linesOf ([(n, v)] ++ h) f = Wire.linesOf h f := by
  rw [linesOf_append, no_lines (h := [(n, v)]) (by simpa using hf), List.nil_append]

theorem page_safe : SafeParams pageParams where
  created := by intro t h; cases h
  expires := by intro t h; injection h with h; subst h; decide
  nonce := by intro t h; cases h
  alg := by intro t h; cases h
  keyid := by intro t h; cases h
  tag := by intro t h; cases h
  ids := by
    intro i hi
    simp only [pageParams, exParams, pageIds, List.mem_cons, List.not_mem_nil, or_false] at hi
    rcases hi with rfl | rfl | rfl | rfl
    · exact ⟨⟨by simp, by simp, by simp, by intro f h; cases h⟩, (by intro f h; cases h), by simp, by simp⟩
    · exact ⟨⟨by simp, by simp, by simp, by intro f h; injection h with h; subst h; decide⟩,
        (by intro f h; injection h with h; subst h; decide), by simp, by simp⟩
    · exact ⟨⟨by simp, by simp, by simp, by intro f h; cases h⟩, (by intro f h; cases h), by simp, by simp⟩
    · exact ⟨⟨by simp, by simp, by simp, by intro f h; injection h with h; subst h; decide⟩,
        (by intro f h; injection h with h; subst h; decide), by simp, by simp⟩
  distinct := by simp [pageParams, exParams, pageIds, SameId]

theorem pageSeal : Seal [] page.headers pageParams none (toySign 9) (toyVerify 9) 100 := by
  refine ⟨names6 (by decide +kernel), lines_ok (by decide +kernel), by decide +kernel, by decide +kernel, page_safe, ?_, by decide, toy_pair 9, ?_⟩
  · intro i hi hr
    simp only [pageParams, exParams, pageIds, List.mem_cons, List.not_mem_nil, or_false] at hi
    rcases hi with rfl | rfl | rfl | rfl
    · exact ⟨by simp, by intro f h; cases h⟩
    · exact ⟨by simp, by intro f h; injection h with h; subst h; decide⟩
    · exact absurd (by simp) hr
    · exact absurd (by simp) hr
  · intro e h; injection h with h; subst h; decide

theorem pageLife : Cache.Life ([c! "date"] ++ [c! "age"]) pageSigned pageFresh := by
  refine .fresh (s1 := pageSent) (u := notModified) (out := [c! "content-length"]) (.sent .stored ⟨rfl, rfl, fun f hf => line_before hf, ⟨c! "5", 5, ?_, ?_⟩, ?_⟩) ?_
  · decide +kernel
  · exact ⟨by decide, by simp [Digit], by decide⟩
  · exact names6 (by decide +kernel)
  · refine ⟨rfl, by simp, rfl, rfl, fun f ho hf => ?_, fun f hf => ?_, names6 (by decide +kernel)⟩
    · by_cases e : f.map Char.toLower = (c! "date").map Char.toLower
      · rw [same_lower e, same_lower e]
        decide +kernel
      · have ho' : f.map Char.toLower ≠ (c! "content-length").map Char.toLower := fun e => ho (by rw [e]; decide)
        exact absurd (no_lines (by simp only [notModified, List.map_cons, List.map_nil, List.mem_cons, List.not_mem_nil, or_false, not_or]; exact ⟨e, ho'⟩)) hf
    · refine line_before fun e => ?_
      rcases hf with hf | hf
      · rw [e] at hf
        exact absurd hf (by decide)
      · rw [same_lower e] at hf
        exact absurd hf (by decide +kernel)

theorem pageVaries : Cache.Varies pageSigned.headers (c! "accept-language") :=
  ⟨utf8 (c! "accept, Accept-Language"), by decide +kernel, utf8 (c! " Accept-Language"), by decide +kernel, [32], c! "Accept-Language", [], by decide +kernel,
    by simp [Ows], by decide⟩

theorem pageLines : Wire.linesOf pageSigned.headers (c! "vary") = [utf8 (c! "accept, Accept-Language")] := by decide +kernel

/-- The hypotheses of C136_names. -/
example {f : Str} (hf : WfName f) : Cache.Varies pageSigned.headers f ↔ f.map Char.toLower = c! "accept" ∨ f.map Char.toLower = c! "accept-language" := by
  have tok : ∀ g : Str, g ≠ [] → (∀ c ∈ g, isTchar c = true) → Token g := fun g h1 h2 => ⟨h1, fun c hc => tchar_of_isTchar (h2 c hc)⟩
  have := C136_names (h := pageSigned.headers) (ws := [utf8 (c! "accept"), utf8 (c! " Accept-Language")]) (gs := [c! "accept", c! "Accept-Language"])
    (.cons ⟨tok _ (by decide) (by decide), [], [], by decide +kernel, by simp⟩
      (.cons ⟨tok _ (by decide) (by decide), [32], [], by decide +kernel, by simp [Ows]⟩ .nil)) (by simp) (by decide +kernel) hf
  rw [this]
  have l1 : (c! "accept").map Char.toLower = c! "accept" := by decide
  have l2 : (c! "Accept-Language").map Char.toLower = c! "accept-language" := by decide
  simp only [List.mem_cons, List.not_mem_nil, or_false, exists_eq_or_imp, exists_eq_left, l1, l2, eq_comm]

/-- Fields that Vary names have no other characters, capitals aside. -/
theorem pageNames {f : Str} (h : Cache.Varies pageSigned.headers f) {c : Char} (hc : c ∈ f.map Char.toLower) (hx : c.toNat < 97) :
    ∀ b ∈ utf8 [c], b ∈ utf8 (c! "accept, Accept-Language") := by
  obtain ⟨v, hv, w, hw, a, g, b, rfl, _, e⟩ := h
  rw [pageLines, List.mem_singleton] at hv
  subst hv
  rw [← e] at hc
  obtain ⟨d, hd, he⟩ := List.mem_map.1 hc
  have := toLower_eq hx he
  subst this
  obtain ⟨g1, g2, rfl⟩ := List.append_of_mem hd
  intro x hx
  have hin : x ∈ a ++ utf8 (g1 ++ d :: g2) ++ b := by
    rw [show g1 ++ d :: g2 = g1 ++ ([d] ++ g2) from rfl, utf8_append, utf8_append]
    simp [hx]
  have hs : (utf8 (c! "accept, Accept-Language")).splitOn 44 = [utf8 (c! "accept"), utf8 (c! " Accept-Language")] := by decide +kernel
  rw [hs, List.mem_cons, List.mem_singleton] at hw
  have h1 : ∀ x ∈ utf8 (c! "accept"), x ∈ utf8 (c! "accept, Accept-Language") := by decide +kernel
  have h2 : ∀ x ∈ utf8 (c! " Accept-Language"), x ∈ utf8 (c! "accept, Accept-Language") := by decide +kernel
  rcases hw with hw | hw <;> rw [hw] at hin
  · exact h1 x hin
  · exact h2 x hin

theorem pageSelected : Cache.Selected first pageSigned second where
  method := rfl
  target := rfl
  vary := by
    intro f hf
    refine line_before fun e => ?_
    exact absurd (pageNames hf (c := '1') (by rw [e]; decide) (by decide) 49 (by decide +kernel)) (by decide +kernel)
  star := fun h => absurd (pageNames h (c := '*') (by decide) (by decide) 42 (by decide +kernel)) (by decide +kernel)

theorem pageLasts : ∀ i ∈ pageParams.covered, Cache.Lasts ([c! "date"] ++ [c! "age"]) pageSigned i := by
  intro i hi
  simp only [pageParams, exParams, pageIds, List.mem_cons, List.not_mem_nil, or_false] at hi
  unfold Cache.Lasts
  rcases hi with rfl | rfl | rfl | rfl
  · rw [if_neg (by simp)]
    exact ⟨(by intro f h; cases h), by intro h; cases h⟩
  · rw [if_neg (by simp)]
    exact ⟨(by intro f h; injection h with h; subst h; decide), by intro h; cases h⟩
  · rw [if_pos (by simp)]
    exact ⟨(by intro f h; cases h), by intro h; cases h⟩
  · rw [if_pos (by simp)]
    exact ⟨(by intro f h; injection h with h; subst h; exact pageVaries), by intro h; cases h⟩

/-- The hypotheses of the theorems: a stored page is sent with its age, gets a new date from an answer 304, and is used for another request. -/
example (now : UInt64) : pageFresh.verifySignature now (toyVerify 9) none (some second) = .ok (c! "sig") ↔ now ≤ 200 := by
  have hs : page.setSignature pageParams (toySign 9) none (some first) = (pageSigned, .ok ()) := Prod.ext rfl (by decide +kernel)
  refine (C136_hit pageSeal (names6 (by decide +kernel)) (names6 (by decide +kernel)) hs pageLife pageSelected ⟨by decide, by decide⟩ pageLasts now).trans ?_
  exact ⟨fun h => h 200 rfl, fun h e he => by injection he with he; subst he; exact h⟩

/-- The same page without Vary. -/
def leaf : Response := ⟨200, [(c! "etag", utf8 (c! "x"))], .data (utf8 (c! "hi"))⟩
def leafSigned : Response := (leaf.setSignature (exParams pageIds) sumSign none (some first)).1

/-- An answer 304 that is signed too, and the stored page with its lines. -/
def plain : Response := ⟨304, [], .data []⟩
def plainSigned : Response := (plain.setSignature (exParams backIds) sumSign none (some first)).1
def leafFresh : Response := { leafSigned with headers := leaf.headers ++ plainSigned.headers }

end Ex136

set_option maxRecDepth 20000 in
open Ex124 Ex126 Ex129 Ex136 in
/-- C136: if the server covers a field of the request that it does not name in Vary, a cache may use the answer where its signature is invalid. -/
theorem C136_unvaried : Cache.Selected first leafSigned third ∧ leafSigned.verifySignature 0 sumVerify none (some first) = .ok (c! "sig") ∧
    leafSigned.verifySignature 0 sumVerify none (some third) = .err .invalidSignature := by
  have hn : ∀ f, ¬ Cache.Varies leafSigned.headers f := by
    rintro f ⟨v, hv, _⟩
    rw [show Wire.linesOf leafSigned.headers (c! "vary") = [] by decide +kernel] at hv
    cases hv
  exact ⟨⟨rfl, rfl, fun f hf => absurd hf (hn f), hn _⟩, by decide +kernel, by decide +kernel⟩

set_option maxRecDepth 20000 in
open Ex124 Ex126 Ex129 Ex136 in
/-- C136: if the server signs an answer 304, the signature takes the place of the one of the stored answer, which then has none that is valid. -/
theorem C136_revalidated : Cache.Freshened [c! "content-length"] leafSigned plainSigned leafFresh ∧
    leafSigned.verifySignature 0 sumVerify none (some first) = .ok (c! "sig") ∧ plainSigned.verifySignature 0 sumVerify none (some first) = .ok (c! "sig") ∧
    leafFresh.verifySignature 0 sumVerify none (some first) = .err .invalidSignature := by
  have names : plainSigned.headers.map (fun kv => kv.1.map Char.toLower) = [c! "signature-input", c! "signature"] := by decide +kernel
  have keep : leafSigned.headers = leaf.headers ++ leafSigned.headers.drop 1 := by decide +kernel
  have names' : (leafSigned.headers.drop 1).map (fun kv => kv.1.map Char.toLower) = [c! "signature-input", c! "signature"] := by decide +kernel
  have some1 : Wire.linesOf plainSigned.headers (c! "signature-input") ≠ [] := by decide +kernel
  have some2 : Wire.linesOf plainSigned.headers (c! "signature") ≠ [] := by decide +kernel
  have sel : ∀ f : Str, f.map Char.toLower = c! "signature-input" ∨ f.map Char.toLower = c! "signature" → Wire.linesOf leaf.headers f = [] ∧
      Wire.linesOf plainSigned.headers f ≠ [] := by
    rintro f (e | e)
    · rw [same_lower (g := c! "signature-input") (e.trans (by decide)), same_lower (g := c! "signature-input") (e.trans (by decide))]
      exact ⟨by decide +kernel, some1⟩
    · rw [same_lower (g := c! "signature") (e.trans (by decide)), same_lower (g := c! "signature") (e.trans (by decide))]
      exact ⟨by decide +kernel, some2⟩
  refine ⟨⟨by decide +kernel, by simp, rfl, rfl, fun f _ hf => ?_, fun f hf => ?_, names6 (by decide +kernel)⟩, by decide +kernel, by decide +kernel, by decide +kernel⟩
  · show Wire.linesOf (leaf.headers ++ plainSigned.headers) f = _
    by_cases hs : f.map Char.toLower = c! "signature-input" ∨ f.map Char.toLower = c! "signature"
    · rw [linesOf_append, (sel f hs).1, List.nil_append]
    · exact absurd (no_lines (by rw [names]; simpa using hs)) hf
  · have hs : ¬ (f.map Char.toLower = c! "signature-input" ∨ f.map Char.toLower = c! "signature") := by
      intro hs
      rcases hf with hf | hf
      · rw [List.mem_singleton] at hf
        rcases hs with e | e <;> rw [e] at hf <;> exact absurd hf (by decide)
      · exact (sel f hs).2 hf
    show Wire.linesOf (leaf.headers ++ plainSigned.headers) f = _
    rw [keep, linesOf_append, linesOf_append, no_lines (h := plainSigned.headers) (by rw [names]; simpa using hs),
      no_lines (h := leafSigned.headers.drop 1) (by rw [names']; simpa using hs)]

end Verif
