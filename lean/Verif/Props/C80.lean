import Mathlib.Data.List.Dedup
import Verif.Proofs.Forward
import Verif.Props.C65
import Verif.Props.C01
/-!
C80: what happens to a message on its way. Combining the lines of a field, splitting them again and moving lines of different fields does
not matter to signatures over fields without `sf` and `key`. With those parameters it does (`C80_sf`, `C80_key`).
-/
namespace Verif
open Spec Sfv

section
variable {m m' : Msg} {rf rf' : Option Request}

/-- C80: the value of a component is the same if the part of the message it refers to is the same up to regrouping. -/
theorem C80_value {i : CId} (h : Wire.SameFor m m' rf rf' i) (v : Str) : Wire.HasValue m rf i v ↔ Wire.HasValue m' rf' i v := by
  rw [wireHasValue_iff, wireHasValue_iff]
  unfold HasValue
  cases h with
  | here hr h =>
    rw [if_neg hr, if_neg hr]
    exact ⟨samePart_value h, samePart_value (samePart_symm h)⟩
  | @there s s' r r' hr e1 e2 e3 e4 h =>
    subst e1; subst e2; subst e3; subst e4
    rw [if_pos hr, if_pos hr]
    constructor
    · rintro ⟨_, _, _, e, hv⟩; injection e with e; subst e; exact ⟨s', r', rfl, rfl, samePart_value h hv⟩
    · rintro ⟨_, _, _, e, hv⟩; injection e with e; subst e; exact ⟨s, r, rfl, rfl, samePart_value (samePart_symm h) hv⟩
  | never hr h1 h2 =>
    rw [if_pos hr, if_pos hr]
    constructor
    · rintro ⟨s, r, e1, e2, _⟩; exact absurd e2 (h1 s r e1)
    · rintro ⟨s, r, e1, e2, _⟩; exact absurd e2 (h2 s r e1)

/-- C80: so is the signature base. -/
theorem C80_base {p : SigParams} (h : ∀ i ∈ p.covered, Wire.SameFor m m' rf rf' i) (t : Str) : Wire.BaseOf m rf p t ↔ Wire.BaseOf m' rf' p t := by
  exact wireBase_congr (fun i hi => C80_value (h i hi)) t

/-- C80: signing adds the same lines. -/
theorem C80_sign (hw : WfHeaders m.headers) (hw' : WfHeaders m'.headers) (hf : ∀ r, rf = some r → WfHeaders r.headers)
    (hf' : ∀ r, rf' = some r → WfHeaders r.headers) (l : List Signer) (h : ∀ x ∈ l, ∀ i ∈ x.1.covered, Wire.SameFor m m' rf rf' i) (a : Headers) :
    setSignatures m l rf = (m.headers ++ a, .ok ()) ↔ setSignatures m' l rf' = (m'.headers ++ a, .ok ()) := by
  rw [C65_sign hw hf, C65_sign hw' hf']
  have key : ∀ {l : List Signer}, (∀ x ∈ l, ∀ i ∈ x.1.covered, Wire.SameFor m m' rf rf' i) → ∀ ls,
      List.Forall₂ (Wire.Added m rf) l ls ↔ List.Forall₂ (Wire.Added m' rf') l ls := by
    intro l
    induction l with
    | nil => intro _ ls; cases ls <;> simp
    | cons x t ih =>
      intro h ls
      cases ls with
      | nil => simp
      | cons y u =>
        rw [List.forall₂_cons, List.forall₂_cons, ih (fun x hx => h x (List.mem_cons_of_mem _ hx)) u]
        unfold Wire.Added
        simp only [C80_base (h x List.mem_cons_self)]
  simp only [key h, List.append_cancel_left_eq]

/-- C80: verification has the same outcome, of whatever kind, with one key and with many. -/
theorem C80_verify (hw : WfHeaders m.headers) (hw' : WfHeaders m'.headers) (hf : ∀ r, rf = some r → WfHeaders r.headers)
    (hf' : ∀ r, rf' = some r → WfHeaders r.headers)
    (hi : Wire.Regrouped (Wire.linesOf m.headers (c! "signature-input")) (Wire.linesOf m'.headers (c! "signature-input")))
    (hs : Wire.Regrouped (Wire.linesOf m.headers (c! "signature")) (Wire.linesOf m'.headers (c! "signature")))
    (h : ∀ l, Wire.Carries m.headers l → ∀ kv ∈ l, ∀ i ∈ kv.2.params.covered, Wire.SameFor m m' rf rf' i)
    (now : UInt64) (keys : List (VerifyingKey × Option Str)) :
    verifySignatures now m keys rf = verifySignatures now m' keys rf' ∧
    ∀ k id, verifySignature now m k id rf = verifySignature now m' k id rf' := by
  refine verify_congr_base hw hw' hf hf' (extract_regrouped hw hw' hi hs) ?_ now keys
  intro l hl kv hkv t
  rw [← wireBaseOf_iff, ← wireBaseOf_iff]
  exact C80_base (h l (wireCarries_iff.2 ((extractSignatureHeaders_ok hw l).1 hl)) kv hkv) t

/-- C80: what the accessors say depends on the two signature fields only, up to regrouping. -/
theorem C80_accessors (hw : WfHeaders m.headers) (hw' : WfHeaders m'.headers)
    (hi : Wire.Regrouped (Wire.linesOf m.headers (c! "signature-input")) (Wire.linesOf m'.headers (c! "signature-input")))
    (hs : Wire.Regrouped (Wire.linesOf m.headers (c! "signature")) (Wire.linesOf m'.headers (c! "signature"))) (rsa : Bool) :
    getAlgKeyIds rsa m = getAlgKeyIds rsa m' ∧ getSignatureParams m = getSignatureParams m' := by
  unfold getAlgKeyIds getSignatureParams
  rw [extract_regrouped hw hw' hi hs]
  exact ⟨rfl, rfl⟩

end

/-! ### One line per field -/

/-- A component that combining lines cannot touch: a field without `sf` and `key`, or derived and not `@signature-params`. -/
def Ordinary (i : CId) : Prop :=
  match i.name with
  | .field _ => ∀ p ∈ i.params, p = .req
  | .derived d => d ≠ .signatureParams

/-- What a proxy does that gives every field one line. -/
def oneLine (h : Headers) : Headers :=
  (h.map Prod.fst).dedup.map (fun n => (n, List.intercalate [44, 32] (Wire.linesOf h n)))

theorem wf_oneLine {h : Headers} (hw : WfHeaders h) : WfHeaders (oneLine h) := by
  intro kv hkv
  obtain ⟨n, hn, rfl⟩ := List.mem_map.1 hkv
  obtain ⟨kv, h1, rfl⟩ := List.mem_map.1 (List.mem_dedup.1 hn)
  exact hw kv h1

theorem filter_nodup_eq {α : Type} [DecidableEq α] {l : List α} (h : l.Nodup) (p : α → Bool) {a : α} (ha : a ∈ l)
    (hp : ∀ b ∈ l, p b = true ↔ b = a) : l.filter p = [a] := by
  induction l with
  | nil => cases ha
  | cons b t ih =>
    rw [List.nodup_cons] at h
    rw [List.filter_cons]
    by_cases e : b = a
    · rw [if_pos ((hp b List.mem_cons_self).2 e)]
      subst e
      congr 1
      rw [List.filter_eq_nil_iff]
      intro c hc hpc
      rw [(hp c (List.mem_cons_of_mem _ hc)).1 hpc] at hc
      exact h.1 hc
    · rw [if_neg (fun hpb => e ((hp b List.mem_cons_self).1 hpb))]
      rcases List.mem_cons.1 ha with h1 | h1
      · exact absurd h1.symm e
      · exact ih h.2 h1 (fun c hc => hp c (List.mem_cons_of_mem _ hc))

theorem lines_oneLine {h : Headers} (hw : WfHeaders h) (f : Str) :
    Wire.linesOf (oneLine h) f = if Wire.linesOf h f = [] then [] else [List.intercalate [44, 32] (Wire.linesOf h f)] := by
  have hsame : ∀ n, lower n = lower f → Wire.linesOf h n = Wire.linesOf h f := by
    intro n hn
    rw [linesOf_eq, linesOf_eq]
    unfold fieldLines
    rw [hn]
  have hone : Wire.linesOf (oneLine h) f =
      ((h.map Prod.fst).dedup.filter (fun n => lower n = lower f)).map (fun n => List.intercalate [44, 32] (Wire.linesOf h n)) := by
    rw [linesOf_eq]
    unfold fieldLines oneLine
    rw [List.filter_map, List.map_map]
    rfl
  rw [hone]
  by_cases e : Wire.linesOf h f = []
  · rw [if_pos e, List.map_eq_nil_iff, List.filter_eq_nil_iff]
    intro n hn hp
    obtain ⟨kv, hkv, rfl⟩ := List.mem_map.1 (List.mem_dedup.1 hn)
    rw [linesOf_eq] at e
    unfold fieldLines at e
    rw [List.map_eq_nil_iff, List.filter_eq_nil_iff] at e
    exact e kv hkv hp
  · rw [if_neg e]
    rw [linesOf_eq] at e
    unfold fieldLines at e
    rw [List.map_eq_nil_iff, List.filter_eq_nil_iff] at e
    simp only [not_forall, not_not] at e
    obtain ⟨kv, hkv, hp⟩ := e
    rw [decide_eq_true_iff] at hp
    rw [filter_nodup_eq (List.nodup_dedup _) _ (a := kv.1) (List.mem_dedup.2 (List.mem_map_of_mem hkv))]
    · simp only [List.map_cons, List.map_nil]
      rw [hsame _ hp]
    · intro b hb
      obtain ⟨kw, hkw, rfl⟩ := List.mem_map.1 (List.mem_dedup.1 hb)
      rw [decide_eq_true_iff, ← hp, (hw kv hkv).lower, (hw kw hkw).lower]

theorem combined_oneLine {h : Headers} (hw : WfHeaders h) (f : Str) : Wire.Combined (Wire.linesOf h f) (Wire.linesOf (oneLine h) f) := by
  rw [lines_oneLine hw]
  by_cases e : Wire.linesOf h f = []
  · rw [if_pos e, e]; exact ⟨[], by simp, rfl, rfl⟩
  · rw [if_neg e]; exact ⟨[Wire.linesOf h f], by simpa using e, by simp, rfl⟩

theorem samePart_oneLine {m : Msg} (hw : WfHeaders m.headers) {i : CId} (h : Ordinary i) :
    Wire.SamePart m (m.withHeaders (oneLine m.headers)) i := by
  obtain ⟨n, ps⟩ := i
  cases n with
  | field f =>
    refine Or.inr ⟨h, Wire.linesOf m.headers f, combined_self _, ?_⟩
    cases m <;> exact combined_oneLine hw f
  | derived d => cases d <;> cases m <;> simp_all [Wire.SamePart, Msg.withHeaders, Ordinary]

/-- C80: a proxy that gives every field one line, in a message and in the request that it answers, changes nothing for signatures over
components without `sf`, `key` and `@signature-params`. -/
theorem C80_one_line {m : Msg} {rf : Option Request} (hw : WfHeaders m.headers) (hf : ∀ r, rf = some r → WfHeaders r.headers)
    (h : ∀ l, Wire.Carries m.headers l → ∀ kv ∈ l, ∀ i ∈ kv.2.params.covered, Ordinary i)
    (now : UInt64) (keys : List (VerifyingKey × Option Str)) (rsa : Bool) :
    verifySignatures now (m.withHeaders (oneLine m.headers)) keys (rf.map fun r => { r with headers := oneLine r.headers }) =
      verifySignatures now m keys rf ∧
    (∀ k id, verifySignature now (m.withHeaders (oneLine m.headers)) k id (rf.map fun r => { r with headers := oneLine r.headers }) =
      verifySignature now m k id rf) ∧
    getAlgKeyIds rsa (m.withHeaders (oneLine m.headers)) = getAlgKeyIds rsa m ∧
    getSignatureParams (m.withHeaders (oneLine m.headers)) = getSignatureParams m := by
  have hh : (m.withHeaders (oneLine m.headers)).headers = oneLine m.headers := by cases m <;> rfl
  have hw' : WfHeaders (m.withHeaders (oneLine m.headers)).headers := by rw [hh]; exact wf_oneLine hw
  have hf' : ∀ r, rf.map (fun r => ({ r with headers := oneLine r.headers } : Request)) = some r → WfHeaders r.headers := by
    intro r hr
    cases rf with
    | none => cases hr
    | some r0 => injection hr with hr; subst hr; exact wf_oneLine (hf r0 rfl)
  have hg : ∀ f, Wire.Regrouped (Wire.linesOf m.headers f) (Wire.linesOf (m.withHeaders (oneLine m.headers)).headers f) := by
    intro f; rw [hh]; exact ⟨_, combined_self _, combined_oneLine hw f⟩
  have key : ∀ i, Ordinary i → Wire.SameFor m (m.withHeaders (oneLine m.headers)) rf (rf.map fun r => { r with headers := oneLine r.headers }) i := by
    intro i hi
    by_cases hr : CParam.req ∈ i.params
    · cases m with
      | req r => exact .never hr (by intro s r h; cases h) (by intro s r h; cases h)
      | res s =>
        cases rf with
        | none => exact .never hr (by intro s r _ h; cases h) (by intro s r _ h; cases h)
        | some r => exact .there hr rfl rfl rfl rfl (samePart_oneLine (m := .req r) (hf r rfl) hi)
    · exact .here hr (samePart_oneLine hw hi)
  obtain ⟨a, b⟩ := C80_verify hw hw' hf hf' (hg _) (hg _) (fun l hl kv hkv i hi => key i (h l hl kv hkv i hi)) now keys
  obtain ⟨c, d⟩ := C80_accessors hw hw' (hg _) (hg _) rsa
  exact ⟨a.symm, fun k id => (b k id).symm, c.symm, d.symm⟩

/-! ### What does not survive -/

/-- A request with two lines of one field and one of another between them. -/
def c80Req : Request where
  method := c! "GET"
  uri := { scheme := some (c! "https"), authority := some (c! "example.com"), pathData := c! "/", query := none }
  headers := [(c! "d", utf8 (c! "a=1")), (c! "x", utf8 (c! "u")), (c! "d", utf8 (c! "a=2"))]
  body := .data []

/-- It is signed over this component, then its header map goes through `f`, then it is verified. -/
def c80After (i : CId) (f : Headers → Headers) : Res HyperErr Str :=
  Request.verifySignature 0 { c80Req with headers := f (c80Req.setSignature (exParams [i]) (toySign 1) none).1.headers } (toyVerify 1) none

/-- C80: with `sf` the lines matter: `a=1` and `a=2` are two dictionaries, `a=1, a=2` is one. -/
theorem C80_sf : c80After ⟨.field (c! "d"), [.sf]⟩ id = .ok (c! "sig") ∧
    c80After ⟨.field (c! "d"), [.sf]⟩ oneLine = .err .invalidSignature := by decide +kernel

/-- C80: and with `key`. -/
theorem C80_key : c80After ⟨.field (c! "d"), [.key (c! "a")]⟩ id = .ok (c! "sig") ∧
    c80After ⟨.field (c! "d"), [.key (c! "a")]⟩ oneLine = .err .invalidSignature := by decide +kernel

/-- A comma without the space. -/
def bareComma (h : Headers) : Headers :=
  (h.map Prod.fst).dedup.map (fun n => (n, List.intercalate [44] (Wire.linesOf h n)))

/-- C80: combining with a comma alone, which RFC 9110 also allows, is noticed. -/
theorem C80_bare_comma : c80After ⟨.field (c! "d"), []⟩ id = .ok (c! "sig") ∧
    c80After ⟨.field (c! "d"), []⟩ oneLine = .ok (c! "sig") ∧ c80After ⟨.field (c! "d"), []⟩ bareComma = .err .invalidSignature := by
  decide +kernel

/-! ### Examples -/

/-- A response signed twice, over fields with several lines of its own and of its request. -/
def c80Res : Response :=
  (Response.setSignatures { exRes with headers := [(c! "v", utf8 (c! "1")), (c! "date", utf8 (c! "Wed")), (c! "v", utf8 (c! "2"))] }
    [(exParams [⟨.field (c! "v"), []⟩, ⟨.derived .status, []⟩], toySign 1, some (c! "a")),
     (exParams [⟨.field (c! "d"), [.req]⟩, ⟨.derived .method, [.req]⟩], toySign 2, some (c! "b"))] (some c80Req)).1

theorem c80Req_wf : WfHeaders c80Req.headers := by
  intro kv hkv
  simp only [c80Req, List.mem_cons, List.not_mem_nil, or_false] at hkv
  rcases hkv with rfl | rfl | rfl <;> exact ⟨by decide, by decide, by decide⟩
theorem c80Res_wf : WfHeaders c80Res.headers := by
  have h : ∀ kv ∈ c80Res.headers, kv.1 ∈ [c! "v", c! "date", c! "signature", c! "signature-input"] := by decide +kernel
  intro kv hkv
  have := h kv hkv
  simp only [List.mem_cons, List.not_mem_nil, or_false] at this
  rcases this with e | e | e | e <;> rw [e] <;> exact ⟨by decide, by decide, by decide⟩

theorem c80Res_ordinary (l : List (Str × SigHeaders)) (h : Wire.Carries c80Res.headers l) : ∀ kv ∈ l, ∀ i ∈ kv.2.params.covered, Ordinary i := by
  have h1 := (extractSignatureHeaders_ok (m := .res c80Res) c80Res_wf l).2 (wireCarries_iff.1 h)
  have h2 : ∃ l0, extractSignatureHeaders (.res c80Res) = .ok l0 ∧
      ∀ kv ∈ l0, ∀ i ∈ kv.2.params.covered, i ∈ [⟨.field (c! "v"), []⟩, ⟨.derived .status, []⟩, ⟨.field (c! "d"), [.req]⟩, ⟨.derived .method, [.req]⟩] := by
    refine ⟨[(c! "a", ⟨c! "a", [61, 1], exParams [⟨.field (c! "v"), []⟩, ⟨.derived .status, []⟩]⟩),
      (c! "b", ⟨c! "b", [81, 2], exParams [⟨.field (c! "d"), [.req]⟩, ⟨.derived .method, [.req]⟩]⟩)], by decide +kernel, by decide⟩
  obtain ⟨l0, h2, h3⟩ := h2
  rw [h2] at h1
  injection h1 with h1
  subst h1
  intro kv hkv i hi
  have := h3 kv hkv i hi
  simp only [List.mem_cons, List.not_mem_nil, or_false] at this
  rcases this with rfl | rfl | rfl | rfl <;> simp [Ordinary]

-- seven lines of four fields become four (and the three of the request two), and both signatures still verify
example : (c80Res.headers.length, (oneLine c80Res.headers).length) = (7, 4) := by decide +kernel
example : verifySignatures 0 ((Msg.res c80Res).withHeaders (oneLine c80Res.headers)) [(toyVerify 1, none), (toyVerify 2, none)]
    (some { c80Req with headers := oneLine c80Req.headers }) = .ok [.ok (c! "a"), .ok (c! "b")] :=
  (C80_one_line (m := .res c80Res) (rf := some c80Req) c80Res_wf (by rintro r ⟨⟩; exact c80Req_wf) c80Res_ordinary 0
    [(toyVerify 1, none), (toyVerify 2, none)] true).1.trans (by decide +kernel)
example : oneLine c80Req.headers = [(c! "x", utf8 (c! "u")), (c! "d", utf8 (c! "a=1, a=2"))] := by decide +kernel
example : Wire.Combined [utf8 (c! "a"), utf8 (c! "b"), utf8 (c! "c")] [utf8 (c! "a"), utf8 (c! "b, c")] :=
  ⟨[[utf8 (c! "a")], [utf8 (c! "b"), utf8 (c! "c")]], by decide, by decide +kernel, by decide +kernel⟩

end Verif
