import Verif.Model.HeaderMap
import Verif.Props.C82
/-!
C83: header maps. The library sees a header map only as the lines of each name, so the way crate http stores the lines does not matter;
and the limit on the size of a map shows only as a panic while lines are added.
-/
namespace Verif
open Spec Sfv

/-! ### The view of a header map -/

/-- The same message with header maps that hold the same lines for every name. -/
inductive SameView : Msg → Msg → Prop
  | req {r r' : Request} : r'.method = r.method → r'.uri = r.uri → SameMap r'.headers r.headers → SameView (.req r) (.req r')
  | res {s s' : Response} : s'.status = s.status → SameMap s'.headers s.headers → SameView (.res s) (.res s')

/-- The same for the request that belongs to a response. -/
def SameReq : Option Request → Option Request → Prop
  | none, none => True
  | some r, some r' => SameView (.req r) (.req r')
  | _, _ => False

section
variable {m m' : Msg} {rf rf' : Option Request}

theorem SameView.headers (h : SameView m m') : SameMap m'.headers m.headers := by
  cases h with
  | req _ _ h => exact h
  | res _ h => exact h

theorem SameMap.contains {h h' : Headers} (e : SameMap h h') (n : Str) : h.contains n = h'.contains n := by
  unfold Headers.contains; rw [e n]

theorem SameMap.append {h h' : Headers} (e : SameMap h h') (n : Str) (v : Bytes) : SameMap (h.append n v) (h'.append n v) := by
  intro k
  have := e k
  unfold Headers.getAll Headers.append at *
  cases hk : hdrKey k with
  | none => rfl
  | some x => rw [hk] at this; simp only at this; simp only [List.filter_append, List.map_append, this]

theorem SameMap.trans {a b c : Headers} (h : SameMap a b) (h' : SameMap b c) : SameMap a c := fun n => (h n).trans (h' n)

theorem SameMap.refl (h : Headers) : SameMap h h := fun _ => rfl

theorem SameMap.insert {h h' : Headers} (e : SameMap h h') (n : Str) (v : Bytes) : SameMap (h.insert n v) (h'.insert n v) := by
  intro k
  have := e k
  unfold Headers.getAll Headers.insert at *
  cases hk : hdrKey k with
  | none => rfl
  | some x =>
    rw [hk] at this
    simp only at this
    simp only [List.filter_append, List.map_append]
    congr 1
    by_cases hx : x = n
    · subst hx
      have : ∀ l : Headers, (l.filter fun kv => kv.1 != x).filter (fun kv => kv.1 == x) = [] := by
        intro l
        rw [List.filter_filter, List.filter_eq_nil_iff]
        intro a _; simp
      rw [this, this]
    · have : ∀ l : Headers, (l.filter fun kv => kv.1 != n).filter (fun kv => kv.1 == x) = l.filter fun kv => kv.1 == x := by
        intro l
        rw [List.filter_filter]
        refine List.filter_congr fun a _ => ?_
        by_cases ha : a.1 = x
        · simp [ha, hx]
        · simp [ha]
      rw [this, this]
      assumption

theorem extract_view (h : SameView m m') : extractSignatureHeaders m' = extractSignatureHeaders m := by
  have e := h.headers
  unfold extractSignatureHeaders headerTexts
  simp only [e.contains, e hSignatureInput, e hSignature]

theorem component_view (h : SameView m m') (i : CId) : extractComponent m' i = extractComponent m i := by
  have e := h.headers
  have hq : m'.isReq = m.isReq := by cases h <;> rfl
  have cp : ∀ d l, checkDerivedParams m' d l = checkDerivedParams m d l := by
    intro d l
    induction l with
    | nil => rfl
    | cons p t ih => simp only [checkDerivedParams, checkDerivedParam, hq, ih]
  have ck : ∀ d l, checkDerivedKind m' d l = checkDerivedKind m d l := by
    intro d l; cases h <;> rfl
  have dv : ∀ d, derivedValues m' d = derivedValues m d := by
    intro d
    have e1 : m'.method = m.method := by cases h <;> simp_all [Msg.method]
    have e2 : m'.uri = m.uri := by cases h <;> simp_all [Msg.uri]
    have e3 : m'.status = m.status := by cases h <;> simp_all [Msg.status]
    simp only [derivedValues, e1, e2, e3, e hSignatureInput]
  have ht : ∀ n, headerTexts m'.headers n = headerTexts m.headers n := fun n => by unfold headerTexts; rw [e n]
  unfold extractComponent extractHttpField extractDerived
  simp only [cp, ck, dv, ht]

theorem base_view (h : SameView m m') (hr : SameReq rf rf') (p : SigParams) : buildBase m' p rf' = buildBase m p rf := by
  have hq : m'.isReq = m.isReq := by cases h <;> rfl
  have : ∀ i, extractFor m' rf' i = extractFor m rf i := by
    intro i
    unfold extractFor
    rw [hq, component_view h]
    cases rf with
    | none => cases rf' with
      | none => rfl
      | some _ => cases hr
    | some r => cases rf' with
      | none => cases hr
      | some r' => simp only [component_view hr]
  unfold buildBase
  rw [show extractFor m' rf' = extractFor m rf from funext this]

/-- C83: reading depends on the header maps only through the lines of each name. -/
theorem C83_reads (h : SameView m m') (hr : SameReq rf rf') (now : UInt64) (rsa : Bool) (keys : List (VerifyingKey × Option Str)) :
    hasMessageSignature m'.headers = hasMessageSignature m.headers ∧
    getAlgKeyIds rsa m' = getAlgKeyIds rsa m ∧ getSignatureParams m' = getSignatureParams m ∧
    extractSignatures m' rf' = extractSignatures m rf ∧
    verifySignatures now m' keys rf' = verifySignatures now m keys rf ∧
    ∀ k id, verifySignature now m' k id rf' = verifySignature now m k id rf := by
  have e1 : hasMessageSignature m'.headers = hasMessageSignature m.headers := by
    unfold hasMessageSignature
    rw [h.headers.contains, h.headers.contains]
  have e2 : extractSignatures m' rf' = extractSignatures m rf := by
    unfold extractSignatures
    simp only [extract_view h, base_view h hr]
  refine ⟨e1, by unfold getAlgKeyIds; rw [extract_view h], by unfold getSignatureParams; rw [extract_view h], e2, ?_, ?_⟩
  · unfold verifySignatures; rw [e1, e2]
  · intro k id
    unfold verifySignature verifySignatures
    rw [e1, e2]

theorem appendAll_view {h h' : Headers} (e : SameMap h' h) (l : List SigHeaders) :
    (appendAll h' l).2 = (appendAll h l).2 ∧ SameMap (appendAll h' l).1 (appendAll h l).1 := by
  induction l generalizing h h' with
  | nil => exact ⟨rfl, e⟩
  | cons s t ih =>
    unfold appendAll appendOne
    cases h1 : hvOfStr s.inputValue with
    | none => exact ⟨rfl, e⟩
    | some v =>
      cases h2 : hvOfStr s.signatureValue with
      | none => exact ⟨rfl, e.append _ _⟩
      | some w => exact ih ((e.append _ _).append _ _)

/-- C83: signing as well: same result, and the header maps left behind hold the same lines for every name. -/
theorem C83_signs (h : SameView m m') (hr : SameReq rf rf') (l : List (SigParams × SigningKey × Option Str)) :
    (setSignatures m' l rf').2 = (setSignatures m l rf).2 ∧ SameMap (setSignatures m' l rf').1 (setSignatures m l rf).1 := by
  have e : signBases m' l rf' = signBases m l rf := by
    unfold signBases
    simp only [base_view h hr]
  unfold setSignatures
  rw [e]
  cases (do let bs ← signBases m l rf; signAll bs : Res HyperErr (List SigHeaders)) with
  | ok hs => exact appendAll_view h.headers hs
  | err e => exact ⟨rfl, h.headers⟩
  | panic => exact ⟨rfl, h.headers⟩

/-- C83: and the digests. -/
theorem C83_digests {h h' : Headers} (e : SameMap h' h) (t : DigestType) (b b' : Body) :
    ((∃ x, verifyDigest h' b = .ok (x, b')) ↔ ∃ x, verifyDigest h b = .ok (x, b')) ∧
    (∀ er, verifyDigest h' b = .err er ↔ verifyDigest h b = .err er) ∧
    (∀ er, setDigest t h' b = .err er ↔ setDigest t h b = .err er) ∧
    ((∃ x', setDigest t h' b = .ok (x', b')) ↔ ∃ x, setDigest t h b = .ok (x, b')) ∧
    ∀ x x', setDigest t h b = .ok x → setDigest t h' b = .ok x' → SameMap x'.1 x.1 := by
  have g : extractDigest h' = extractDigest h := by
    unfold extractDigest Headers.get
    rw [e hContentDigest]
  refine ⟨?_, ?_, ?_, ?_, ?_⟩
  · unfold verifyDigest
    rw [g]
    cases extractDigest h with
    | ok te =>
      cases b with
      | fail => simp [bind, Res.bind]
      | data b =>
        simp only [bind, Res.bind]
        split <;> simp
    | err er => simp [bind, Res.bind]
    | panic => simp [bind, Res.bind]
  · intro er
    unfold verifyDigest
    rw [g]
    cases extractDigest h with
    | ok te =>
      cases b with
      | fail => rfl
      | data b =>
        simp only [bind, Res.bind]
        split <;> simp
    | err er => rfl
    | panic => rfl
  · intro er
    unfold setDigest
    cases b with
    | fail => rfl
    | data b => cases hv : hvOfStr (digestText t b) <;> simp [hv]
  · unfold setDigest
    cases b with
    | fail => simp
    | data b => cases hv : hvOfStr (digestText t b) <;> simp [hv]
  · intro x x' h1 h2
    unfold setDigest at h1 h2
    cases b with
    | fail => cases h1
    | data b =>
      cases hv : hvOfStr (digestText t b) with
      | none => simp [hv] at h1
      | some v =>
        simp only [hv, Res.ok.injEq] at h1 h2
        subst h1 h2
        exact e.insert _ _

end

/-! ### The limit -/

/-- A result as an end of the function. -/
def Ended.Agrees (L : MapLib) (e : Ended L.Map) (x : Headers × Res HyperErr Unit) : Prop :=
  match e with
  | .panicked => False
  | .returned map (.ok ()) => x.2 = .ok () ∧ SameMap (L.lines map) x.1
  | .returned map (.error er) => x.2 = .err er ∧ SameMap (L.lines map) x.1

theorem appendAll_limit (L : MapLib) (hs : List SigHeaders) : ∀ (h : L.Map) (h' : Headers), SameMap (L.lines h) h' →
    (L.appendAll h hs = .panicked ∧ L.room h < 2 * hs.length) ∨ (L.appendAll h hs).Agrees L (appendAll h' hs) := by
  induction hs with
  | nil => intro h h' e; exact Or.inr ⟨rfl, e⟩
  | cons s t ih =>
    intro h h' e
    unfold MapLib.appendAll MapLib.appendOne appendAll appendOne
    cases h1 : hvOfStr s.inputValue with
    | none => exact Or.inr ⟨rfl, e⟩
    | some v =>
      simp only
      cases ha : L.append h hSignatureInput v with
      | none =>
        refine Or.inl ⟨rfl, ?_⟩
        by_contra hr
        obtain ⟨_, h3, _⟩ := L.append_room (m := h) hSignatureInput v (by simp only [List.length_cons] at hr; omega)
        rw [ha] at h3; cases h3
      | some m1 =>
        have e1 := (L.append_lines ha).trans (e.append hSignatureInput v)
        have r1 : 0 < L.room h → L.room h ≤ L.room m1 + 1 := by
          intro hr
          obtain ⟨_, h3, h4⟩ := L.append_room (m := h) hSignatureInput v hr
          rw [ha] at h3; injection h3 with h3; subst h3; exact h4
        simp only
        cases h2 : hvOfStr s.signatureValue with
        | none => exact Or.inr ⟨rfl, e1⟩
        | some w =>
          simp only
          cases hb : L.append m1 hSignature w with
          | none =>
            refine Or.inl ⟨rfl, ?_⟩
            by_contra hr
            simp only [List.length_cons] at hr
            obtain ⟨_, h3, _⟩ := L.append_room (m := m1) hSignature w (by have := r1 (by omega); omega)
            rw [hb] at h3; cases h3
          | some m2 =>
            have e2 := (L.append_lines hb).trans (e1.append hSignature w)
            simp only
            rcases ih m2 _ e2 with ⟨p1, p2⟩ | p
            · refine Or.inl ⟨p1, ?_⟩
              by_contra hr
              simp only [List.length_cons] at hr
              have := r1 (by omega)
              obtain ⟨_, h3, h4⟩ := L.append_room (m := m1) hSignature w (by omega)
              rw [hb] at h3; injection h3 with h3; subst h3
              omega
            · exact Or.inr p

theorem signAll_length {l : List (SigParams × SigningKey × Option Str)} {m : Msg} {rf : Option Request} {hs : List SigHeaders}
    (h : (do let bs ← signBases m l rf; signAll bs : Res HyperErr (List SigHeaders)) = .ok hs) : hs.length = l.length := by
  obtain ⟨bs, h1, h2⟩ := Res.bind_eq_ok.1 h
  rw [(signBases_ok.1 h1).length_eq, (signAll_ok.1 h2).length_eq]

/-- C83: with a map of limited size, signing returns what it returns without a limit, leaving the same lines behind, or it panics: because
signing itself panics, or because there was no room for two lines per signer. -/
theorem C83_limit (L : MapLib) (m : Msg) (h : L.Map) (l : List (SigParams × SigningKey × Option Str)) (rf : Option Request) :
    (L.setSignatures m h l rf).Agrees L (setSignatures (m.withHeaders (L.lines h)) l rf) ∨
    (L.setSignatures m h l rf = .panicked ∧
      ((setSignatures (m.withHeaders (L.lines h)) l rf).2 = .panic ∨ L.room h < 2 * l.length)) := by
  have hh : (m.withHeaders (L.lines h)).headers = L.lines h := by cases m <;> rfl
  unfold MapLib.setSignatures setSignatures
  cases hx : (do let bs ← signBases (m.withHeaders (L.lines h)) l rf; signAll bs : Res HyperErr (List SigHeaders)) with
  | ok hs =>
    have hl := signAll_length hx
    simp only
    rw [hh]
    rcases appendAll_limit L hs h (L.lines h) (SameMap.refl _) with ⟨p1, p2⟩ | p
    · exact Or.inr ⟨p1, Or.inr (by omega)⟩
    · exact Or.inl p
  | err e => exact Or.inl ⟨rfl, by rw [hh]; exact SameMap.refl _⟩
  | panic => exact Or.inr ⟨rfl, Or.inl rfl⟩

/-- C83: a digest is set as without a limit if there is room for one line; otherwise the only other outcome is a panic. -/
theorem C83_limit_digest (L : MapLib) (t : DigestType) (h : L.Map) (body : Body) :
    (∀ e, L.setDigest t h body = .err e ↔ Verif.setDigest t (L.lines h) body = .err e) ∧
    (∀ x, L.setDigest t h body = .ok x → ∃ y, Verif.setDigest t (L.lines h) body = .ok y ∧ SameMap (L.lines x.1) y.1 ∧ x.2 = y.2) ∧
    (0 < L.room h → ∀ y, Verif.setDigest t (L.lines h) body = .ok y → ∃ x, L.setDigest t h body = .ok x) := by
  unfold MapLib.setDigest Verif.setDigest
  cases body with
  | fail => simp
  | data b =>
    cases hv : hvOfStr (digestText t b) with
    | none => simp [hv]
    | some v =>
      simp only [hv]
      cases hi : L.insert h hContentDigest v with
      | none =>
        refine ⟨by simp, by simp, ?_⟩
        intro hr
        obtain ⟨_, h3⟩ := L.insert_room (m := h) hContentDigest v hr
        rw [hi] at h3; cases h3
      | some h' =>
        refine ⟨by simp, ?_, by simp⟩
        intro x hx
        injection hx with hx; subst hx
        exact ⟨_, rfl, L.insert_lines hi, rfl⟩

/-! ### The simple implementation -/

theorem appendAll_capped (cap : Nat) (hs : List SigHeaders) : ∀ (h h' : Headers), nameCount h ≤ cap → appendAll h hs = (h', .ok ()) →
    ((capped cap).appendAll h hs = .panicked ↔ cap < nameCount h') := by
  have mono : ∀ (hs : List SigHeaders) (h h' : Headers), appendAll h hs = (h', .ok ()) → nameCount h ≤ nameCount h' := by
    intro hs
    induction hs with
    | nil => intro h h' e; injection e with e _; rw [e]
    | cons s t ih =>
      intro h h' e
      unfold appendAll appendOne at e
      cases h1 : hvOfStr s.inputValue with
      | none => simp [h1] at e
      | some v =>
        cases h2 : hvOfStr s.signatureValue with
        | none => simp [h1, h2] at e
        | some w =>
          simp only [h1, h2] at e
          refine le_trans (Finset.card_le_card ?_) (ih _ _ e)
          intro x hx
          simp only [Headers.append, List.map_append, List.toFinset_append, Finset.mem_union]
          exact Or.inl (Or.inl hx)
  have grow : ∀ (h : Headers) n v, nameCount h ≤ nameCount (h.append n v) := by
    intro h n v
    refine Finset.card_le_card ?_
    intro x hx
    simp only [Headers.append, List.map_append, List.toFinset_append, Finset.mem_union]
    exact Or.inl hx
  induction hs with
  | nil =>
    intro h h' hc e
    injection e with e _; subst e
    constructor
    · intro h; cases h
    · intro h; omega
  | cons s t ih =>
    intro h h' hc e
    have e0 := e
    unfold appendAll appendOne at e
    simp only [MapLib.appendAll, MapLib.appendOne]
    cases h1 : hvOfStr s.inputValue with
    | none => simp [h1] at e
    | some v =>
      cases h2 : hvOfStr s.signatureValue with
      | none => simp [h1, h2] at e
      | some w =>
        simp only [h1, h2] at e
        have m1 := mono _ _ _ e
        have g1 := grow (h.append hSignatureInput v) hSignature w
        simp only [capped]
        by_cases c1 : nameCount (h.append hSignatureInput v) ≤ cap
        · rw [if_pos c1]
          simp only
          by_cases c2 : nameCount ((h.append hSignatureInput v).append hSignature w) ≤ cap
          · rw [if_pos c2]
            exact ih _ _ c2 e
          · rw [if_neg c2]
            exact ⟨fun _ => by omega, fun _ => rfl⟩
        · rw [if_neg c1]
          exact ⟨fun _ => by omega, fun _ => rfl⟩

/-- C83: for maps with at most `cap` different names the condition is exact: if signing succeeds without the limit, it panics with the limit
if and only if the signed message would have too many names. -/
theorem C83_capped (cap : Nat) (m : Msg) (l : List (SigParams × SigningKey × Option Str)) (rf : Option Request) {h' : Headers}
    (hc : nameCount m.headers ≤ cap) (h : setSignatures m l rf = (h', .ok ())) :
    (capped cap).setSignatures m m.headers l rf = .panicked ↔ cap < nameCount h' := by
  have hm : m.withHeaders m.headers = m := by cases m <;> rfl
  unfold MapLib.setSignatures
  unfold setSignatures at h
  rw [show (capped cap).lines m.headers = m.headers from rfl, hm]
  cases hx : (do let bs ← signBases m l rf; signAll bs : Res HyperErr (List SigHeaders)) with
  | ok hs =>
    simp only [hx] at h
    exact appendAll_capped cap hs _ _ hc h
  | err e => simp [hx] at h
  | panic => simp [hx] at h

/-! ### Examples -/

/-- One signer. -/
def c83Signers : List (SigParams × SigningKey × Option Str) := [(exParams [⟨.derived .status, []⟩], toySign 1, none)]

-- one field and two new ones: with at most two names signing panics, with three it does not
example : (capped 2).setSignatures (.res exRes) exRes.headers c83Signers none = .panicked ∧
    (capped 3).setSignatures (.res exRes) exRes.headers c83Signers none ≠ .panicked := by
  have h : (setSignatures (.res exRes) c83Signers none).2 = .ok () := by decide +kernel
  have n : nameCount (setSignatures (.res exRes) c83Signers none).1 = 3 := by decide +kernel
  have c : nameCount exRes.headers = 1 := by decide +kernel
  have hs : setSignatures (.res exRes) c83Signers none = ((setSignatures (.res exRes) c83Signers none).1, .ok ()) := Prod.ext rfl h
  have c' : nameCount (Msg.res exRes).headers = 1 := c
  refine ⟨(C83_capped 2 (.res exRes) c83Signers none (by omega) hs).2 (by omega), ?_⟩
  intro h'
  have := (C83_capped 3 (.res exRes) c83Signers none (by omega) hs).1 h'
  omega
-- with room for two lines the general theorem leaves no panic
example : ((capped 3).setSignatures (.res exRes) exRes.headers c83Signers none).Agrees (capped 3) (setSignatures (.res exRes) c83Signers none) := by
  rcases C83_limit (capped 3) (.res exRes) exRes.headers c83Signers none with h | ⟨_, h | h⟩
  · exact h
  · exact absurd h (by decide +kernel)
  · exact absurd h (by decide +kernel)
-- a map that keeps the lines of each name together holds the same lines
example : SameView (.req exReq) (.req { exReq with headers := [(c! "accept", utf8 (c! "*")), (c! "x-list", utf8 (c! "1,  2")),
    (c! "x-list", utf8 (c! "a;q=1")), (c! "date", utf8 (c! "Tue")), (c! "x-dict", utf8 (c! "a=1,   b=(1 2)"))] }) := by
  refine .req rfl rfl ?_
  intro n
  unfold Headers.getAll
  cases hdrKey n with
  | none => rfl
  | some k =>
    simp only [exReq, List.filter_cons, List.filter_nil, beq_iff_eq]
    by_cases h1 : c! "accept" = k
    · subst h1; decide +kernel
    by_cases h2 : c! "x-list" = k
    · subst h2; decide +kernel
    by_cases h3 : c! "date" = k
    · subst h3; decide +kernel
    by_cases h4 : c! "x-dict" = k
    · subst h4; decide +kernel
    simp [h1, h2, h3, h4]

end Verif
