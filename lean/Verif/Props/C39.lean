import Verif.Proofs.ParamsRead
import Verif.Props.C05
import Verif.Proofs.Base64Spec
/-!
C39 Canonical parameters, C44 component line round trip, C46 parameters built through the API, C52 injection.
-/
namespace Verif
open Sfv Spec

/-! ### C39 -/

/-- The value of a text parameter: present and a string. -/
def textParam (ps : Params) (k : Str) (s : Str) : Prop := (k, Bare.str s) ∈ ps
/-- The value of a time parameter: present and a non-negative integer. -/
def timeParam (ps : Params) (k : Str) (n : Nat) : Prop := (k, Bare.int n) ∈ ps

/-- Two parameter lists that agree on the six known parameters, where an ill-typed value counts as absent. -/
structure SameKnown (a b : Params) : Prop where
  time : ∀ k, k = c! "created" ∨ k = c! "expires" → ∀ n, timeParam a k n ↔ timeParam b k n
  text : ∀ k, k = c! "nonce" ∨ k = c! "alg" ∨ k = c! "keyid" ∨ k = c! "tag" → ∀ s, textParam a k s ↔ textParam b k s

/-- No negative timestamp (these panic, see C16). -/
def NoNegTime (ps : Params) : Prop :=
  ∀ k, k = c! "created" ∨ k = c! "expires" → ∀ n : Nat, (k, Bare.int (-(n + 1 : Int))) ∉ ps

theorem noNeg_badTime {ps : Params} (h : NoNegTime ps) : ∀ kv ∈ ps, ¬ BadTime kv := by
  rintro ⟨k, v⟩ hkv ⟨hk, n, hn⟩
  simp only at hk hn; subst hn
  exact h k hk n hkv

theorem timeOf_some {v : Bare} {t : UInt64} : timeOf v = some t ↔ ∃ n : Nat, v = .int n ∧ UInt64.ofNat n = t := by
  unfold timeOf
  split
  · rename_i n
    simp only [Option.some.injEq]
    constructor
    · intro h; exact ⟨n, rfl, h⟩
    · rintro ⟨m, hm, h⟩
      injection hm with hm
      have : n = m := Int.ofNat.inj hm
      rw [this]; exact h
  · rename_i h
    simp only [reduceCtorEq, false_iff, not_exists, not_and]
    intro n hn; exact absurd hn (h n)

theorem asString_some {v : Bare} {s : Str} : asString v = some s ↔ v = .str s := by
  cases v <;> simp [asString]

theorem opt_ext {α : Type} {a b : Option α} (h : ∀ x, a = some x ↔ b = some x) : a = b := Option.ext (by simpa using h)

/-- C39: parameters are determined by the covered items and the six known parameters: order of parameters, unknown parameters
and ill-typed values of known ones make no difference, neither to the result nor, therefore, to the signature base. -/
theorem C39_known_params_only (items : List Item) (ps ps' : Params) (hn : (ps.map Prod.fst).Nodup) (hn' : (ps'.map Prod.fst).Nodup)
    (hneg : NoNegTime ps) (hneg' : NoNegTime ps') (h : SameKnown ps ps') :
    SigParams.ofEntry (.inner ⟨items, ps⟩) = SigParams.ofEntry (.inner ⟨items, ps'⟩) := by
  have get : ∀ {ps : Params} {k : Str} {v : Bare}, (ps.map Prod.fst).Nodup → (imGet ps k = some v ↔ (k, v) ∈ ps) :=
    fun hn => ⟨imGet_mem, imGet_of_mem hn⟩
  have key : ∀ q : SigParams, q.created = none → q.expires = none → q.nonce = none → q.alg = none → q.keyid = none → q.tag = none →
      readOver q ps = readOver q ps' := by
    intro q h1 h2 h3 h4 h5 h6
    have tm : ∀ k, k = c! "created" ∨ k = c! "expires" →
        (match imGet ps k with | some v => timeOf v | none => none) = (match imGet ps' k with | some v => timeOf v | none => none) := by
      intro k hk
      have side : ∀ {ps : Params}, (ps.map Prod.fst).Nodup → ∀ t, (match imGet ps k with | some v => timeOf v | none => none) = some t ↔
          ∃ n : Nat, timeParam ps k n ∧ UInt64.ofNat n = t := by
        intro ps hn t
        constructor
        · intro h
          split at h
          · rename_i v hv
            obtain ⟨n, rfl, hn'⟩ := timeOf_some.1 h
            exact ⟨n, (get hn).1 hv, hn'⟩
          · cases h
        · rintro ⟨n, h1, h2⟩
          rw [(get hn).2 h1]
          exact timeOf_some.2 ⟨n, rfl, h2⟩
      apply opt_ext
      intro t
      rw [side hn, side hn']
      simp only [h.time k hk]
    have tx : ∀ k, k = c! "nonce" ∨ k = c! "alg" ∨ k = c! "keyid" ∨ k = c! "tag" →
        (match imGet ps k with | some v => asString v | none => none) = (match imGet ps' k with | some v => asString v | none => none) := by
      intro k hk
      have side : ∀ {ps : Params}, (ps.map Prod.fst).Nodup → ∀ t, (match imGet ps k with | some v => asString v | none => none) = some t ↔
          textParam ps k t := by
        intro ps hn t
        constructor
        · intro h
          split at h
          · rename_i v hv
            rw [asString_some] at h; subst h
            exact (get hn).1 hv
          · cases h
        · intro h
          rw [(get hn).2 h]
          rfl
      apply opt_ext
      intro t
      rw [side hn, side hn', h.text k hk]
    unfold readOver
    rw [h1, h2, h3, h4, h5, h6, SigParams.mk.injEq]
    exact ⟨tm _ (Or.inl rfl), tm _ (Or.inr rfl), tx _ (Or.inl rfl), tx _ (Or.inr (Or.inl rfl)),
      tx _ (Or.inr (Or.inr (Or.inl rfl))), tx _ (Or.inr (Or.inr (Or.inr rfl))), rfl⟩
  unfold SigParams.ofEntry
  simp only
  cases Res.collect (fun i => CId.ofStr (serItem i)) items with
  | err e => rfl
  | panic => rfl
  | ok ids =>
    simp only [Res.bind_ok]
    split
    · rfl
    · rw [setKVs_read _ _ hn (noNeg_badTime hneg), setKVs_read _ _ hn' (noNeg_badTime hneg'), key _ rfl rfl rfl rfl rfl rfl]

/-- C39: what is read, parameter by parameter. -/
theorem C39_values_read (l : InnerList) (p : SigParams) (hn : (l.params.map Prod.fst).Nodup)
    (h : SigParams.ofEntry (.inner l) = .ok p) :
    (∀ t, p.created = some t ↔ ∃ n : Nat, (c! "created", Bare.int n) ∈ l.params ∧ UInt64.ofNat n = t) ∧
    (∀ t, p.expires = some t ↔ ∃ n : Nat, (c! "expires", Bare.int n) ∈ l.params ∧ UInt64.ofNat n = t) ∧
    (∀ s, p.nonce = some s ↔ (c! "nonce", Bare.str s) ∈ l.params) ∧ (∀ s, p.alg = some s ↔ (c! "alg", Bare.str s) ∈ l.params) ∧
    (∀ s, p.keyid = some s ↔ (c! "keyid", Bare.str s) ∈ l.params) ∧ (∀ s, p.tag = some s ↔ (c! "tag", Bare.str s) ∈ l.params) := by
  obtain ⟨l', hl, _, _, hk⟩ := ofEntry_ok h
  injection hl with hl; subst hl
  have hb : ∀ kv ∈ l.params, ¬ BadTime kv := by
    intro kv hkv hb
    have := (setKVs_panic l.params { covered := p.covered }).2 ⟨kv, hkv, hb⟩
    rw [this] at hk; cases hk
  rw [setKVs_read _ _ hn hb] at hk
  injection hk with hk
  have get : ∀ {k : Str} {v : Bare}, (imGet l.params k = some v ↔ (k, v) ∈ l.params) := ⟨imGet_mem, imGet_of_mem hn⟩
  have tm : ∀ k t, (match imGet l.params k with | some v => timeOf v | none => none) = some t ↔
      ∃ n : Nat, (k, Bare.int n) ∈ l.params ∧ UInt64.ofNat n = t := by
    intro k t
    constructor
    · intro h
      split at h
      · rename_i v hv
        obtain ⟨n, rfl, hn'⟩ := timeOf_some.1 h
        exact ⟨n, get.1 hv, hn'⟩
      · cases h
    · rintro ⟨n, h1, h2⟩
      rw [get.2 h1]
      exact timeOf_some.2 ⟨n, rfl, h2⟩
  have tx : ∀ k t, (match imGet l.params k with | some v => asString v | none => none) = some t ↔ (k, Bare.str t) ∈ l.params := by
    intro k t
    constructor
    · intro h
      split at h
      · rename_i v hv
        rw [asString_some] at h; subst h
        exact get.1 hv
      · cases h
    · intro h
      rw [get.2 h]; rfl
  rw [← hk]
  exact ⟨tm _, tm _, tx _, tx _, tx _, tx _⟩

-- order, an unknown parameter and an ill-typed value make no difference
example : SigParams.ofStr (c! "(\"@path\");created=5;nonce=\"n\"") =
    SigParams.ofStr (c! "(\"@path\");nonce=\"n\";foo=1;expires=\"soon\";created=5") := by decide
example : SameKnown [(c! "created", .int 5), (c! "nonce", .str (c! "n"))]
    [(c! "nonce", .str (c! "n")), (c! "foo", .int 1), (c! "expires", .str (c! "soon")), (c! "created", .int 5)] where
  time := by rintro k (rfl | rfl) n <;> simp [timeParam]
  text := by rintro k (rfl | rfl | rfl | rfl) n <;> simp [textParam]

/-! ### C52 -/

/-- C52: setting a text parameter to a safe text and reading the text form back changes this parameter only. -/
theorem C52_no_injection_partial (p : SigParams) (h : SafeParams p) (s : Str) (hs : SafeText s) :
    SigParams.ofStr (p.setNonce s).disp = .ok { p with nonce := some s } ∧
    SigParams.ofStr (p.setKeyid s).disp = .ok { p with keyid := some s } ∧
    SigParams.ofStr (p.setTag s).disp = .ok { p with tag := some s } := by
  refine ⟨C05_params_round_trip _ ?_, C05_params_round_trip _ ?_, C05_params_round_trip _ ?_⟩
  · exact { h with nonce := by rintro t ⟨⟩; exact hs }
  · exact { h with keyid := by rintro t ⟨⟩; exact hs }
  · exact { h with tag := by rintro t ⟨⟩; exact hs }

/-- C52 is false for texts with a double quote: `nonce`, `keyid` and `tag` are not escaped. Setting `nonce` changes `keyid` and
`expires` of what a verifier reads. -/
theorem C52_false :
    (∃ p : SigParams, SafeParams p ∧ ∃ s q, SigParams.ofStr (p.setNonce s).disp = .ok q ∧ q.keyid ≠ p.keyid ∧ q.expires ≠ p.expires) ∧
    (∃ p : SigParams, SafeParams p ∧ ∃ s q, SigParams.ofStr (p.setKeyid s).disp = .ok q ∧ q.tag ≠ p.tag) ∧
    (∃ p : SigParams, SafeParams p ∧ ∃ s q, SigParams.ofStr (p.setTag s).disp = .ok q ∧ q.keyid ≠ p.keyid) := by
  have safe : SafeParams { covered := [] } :=
    { created := by simp, expires := by simp, nonce := by simp, alg := by simp, keyid := by simp, tag := by simp, ids := by simp,
      distinct := by simp }
  exact ⟨⟨_, safe, c! "n\";keyid=\"other\";expires=9;x=\"", { nonce := some (c! "n"), keyid := some (c! "other"), expires := some 9, covered := [] },
      by decide, by decide, by decide⟩,
    ⟨_, safe, c! "k\";tag=\"t", { keyid := some (c! "k"), tag := some (c! "t"), covered := [] }, by decide, by decide⟩,
    ⟨_, safe, c! "k\";keyid=\"t", { keyid := some (c! "t"), tag := some (c! "k"), covered := [] }, by decide, by decide⟩⟩

/-! ### C46 -/

/-- The base64 alphabet is safe text. -/
theorem base64_safe (b : Bytes) : SafeText (Base64.encode b) := by
  have ch : ∀ n < 64, Printable (Base64.encChar n) ∧ Base64.encChar n ≠ '"' ∧ Base64.encChar n ≠ '\\' := by decide
  have pad : Printable '=' ∧ '=' ≠ '"' ∧ '=' ≠ '\\' := by decide
  intro c hc
  induction b using Base64.encode.induct with
  | case1 => simp [Base64.encode] at hc
  | case2 a =>
    have := a.toNat_lt
    simp only [Base64.encode, List.mem_cons, List.not_mem_nil, or_false] at hc
    rcases hc with rfl | rfl | rfl | rfl
    · exact ch _ (by omega)
    · exact ch _ (by omega)
    · exact pad
    · exact pad
  | case3 a b =>
    have := a.toNat_lt
    have := b.toNat_lt
    simp only [Base64.encode, List.mem_cons, List.not_mem_nil, or_false] at hc
    rcases hc with rfl | rfl | rfl | rfl
    · exact ch _ (by omega)
    · exact ch _ (by omega)
    · exact ch _ (by omega)
    · exact pad
  | case4 a b d t ih =>
    have := a.toNat_lt
    have := b.toNat_lt
    have := d.toNat_lt
    simp only [Base64.encode, List.mem_cons] at hc
    rcases hc with rfl | rfl | rfl | rfl | hc
    · exact ch _ (by omega)
    · exact ch _ (by omega)
    · exact ch _ (by omega)
    · exact ch _ (by omega)
    · exact ih hc

theorem alg_safe (a : Alg) : SafeText a.toStr := by cases a <;> decide

/-- One call of a setter. -/
inductive Setter where
  | created (t : UInt64)
  | expires (t : UInt64)
  | nonce (s : Str)
  | alg (a : Alg)
  | keyid (s : Str)
  | tag (s : Str)
  | keyInfo (k : SigningKey)
  | randomNonce (rnd : Bytes)
  | expiresIn (d : Option UInt64)

/-- The call on the model; `checked` is the overflow setting of the build. -/
def Setter.run (checked : Bool) : Setter → SigParams → Res SigErr SigParams
  | .created t, p => .ok (p.setCreated t)
  | .expires t, p => .ok (p.setExpires t)
  | .nonce s, p => .ok (p.setNonce s)
  | .alg a, p => .ok (p.setAlg a)
  | .keyid s, p => .ok (p.setKeyid s)
  | .tag s, p => .ok (p.setTag s)
  | .keyInfo k, p => .ok (p.setKeyInfo k)
  | .randomNonce r, p => .ok (p.setRandomNonce r)
  | .expiresIn d, p => p.setExpiresWithDuration checked d

/-- Arguments a careful caller gives: safe texts, timestamps below 10^15, durations that keep the sum below 10^15 as long as
`created` is below 5 * 10^14; a key of the library has a base64 key id. -/
def Setter.Careful : Setter → Prop
  | .created t => t.toNat < 5 * 10 ^ 14
  | .expires t => t.toNat < 10 ^ 15
  | .nonce s | .keyid s | .tag s => SafeText s
  | .alg _ => True
  | .keyInfo k => ∃ b, k.keyId = Base64.encode b
  | .randomNonce _ => True
  | .expiresIn d => ∀ x, d = some x → x.toNat < 5 * 10 ^ 14

/-- A sequence of setter calls. -/
def runSetters (checked : Bool) : List Setter → SigParams → Res SigErr SigParams
  | [], p => .ok p
  | s :: t, p => s.run checked p >>= runSetters checked t

/-- C46: parameters made by `try_new` on safe ids (the clock before the year 15 million) and any sequence of careful setter calls
are safe, and no call panics or fails. -/
theorem C46_api_params_safe (checked : Bool) (now : UInt64) (ids : List CId) (hnow : now.toNat < 5 * 10 ^ 14)
    (hids : ∀ i ∈ ids, SafeId i) (p0 : SigParams) (h0 : SigParams.tryNew now ids = .ok p0) (l : List Setter)
    (hl : ∀ s ∈ l, s.Careful) : ∃ p, runSetters checked l p0 = .ok p ∧ SafeParams p ∧ p.covered = ids := by
  have start : SafeParams p0 ∧ p0.covered = ids ∧ ∃ t, p0.created = some t ∧ t.toNat < 5 * 10 ^ 14 := by
    unfold SigParams.tryNew at h0
    split at h0
    · cases h0
    rename_i hu
    injection h0 with h0; subst h0
    refine ⟨?_, rfl, now, rfl, hnow⟩
    exact { created := by rintro t ⟨⟩; omega, expires := by simp, nonce := by simp, alg := by simp, keyid := by simp, tag := by simp,
            ids := hids,
            distinct := (hasUnique_iff (fun i hi => labels_nodup (hids i hi).distinct)).1 (by simpa using hu) }
  clear h0 hnow hids
  induction l generalizing p0 with
  | nil => exact ⟨p0, rfl, start.1, start.2.1⟩
  | cons s t ih =>
    obtain ⟨hs, hc, ct, hct, hlt⟩ := start
    have hcar := hl s (by simp)
    have step : ∃ p1, s.run checked p0 = .ok p1 ∧ SafeParams p1 ∧ p1.covered = ids ∧ ∃ t, p1.created = some t ∧ t.toNat < 5 * 10 ^ 14 := by
      cases s with
      | created x => exact ⟨_, rfl, { hs with created := by rintro y ⟨⟩; have : x.toNat < 5 * 10 ^ 14 := hcar; omega }, hc, x, rfl, hcar⟩
      | expires x => exact ⟨_, rfl, { hs with expires := by rintro y ⟨⟩; exact hcar }, hc, ct, hct, hlt⟩
      | nonce x => exact ⟨_, rfl, { hs with nonce := by rintro y ⟨⟩; exact hcar }, hc, ct, hct, hlt⟩
      | alg x => exact ⟨_, rfl, { hs with alg := by rintro y ⟨⟩; exact alg_safe x }, hc, ct, hct, hlt⟩
      | keyid x => exact ⟨_, rfl, { hs with keyid := by rintro y ⟨⟩; exact hcar }, hc, ct, hct, hlt⟩
      | tag x => exact ⟨_, rfl, { hs with tag := by rintro y ⟨⟩; exact hcar }, hc, ct, hct, hlt⟩
      | keyInfo k =>
        obtain ⟨b, hb⟩ := hcar
        exact ⟨_, rfl, { hs with alg := by rintro y ⟨⟩; exact alg_safe k.alg, keyid := by rintro y ⟨⟩; rw [hb]; exact base64_safe b },
          hc, ct, hct, hlt⟩
      | randomNonce r => exact ⟨_, rfl, { hs with nonce := by rintro y ⟨⟩; exact base64_safe r }, hc, ct, hct, hlt⟩
      | expiresIn d =>
        have hd : (d.getD 300).toNat < 5 * 10 ^ 14 := by
          cases d with
          | none => decide
          | some x => exact hcar x rfl
        have hsum : (ct + d.getD 300).toNat < 10 ^ 15 := by
          rw [UInt64.toNat_add, Nat.mod_eq_of_lt (by omega)]; omega
        refine ⟨{ p0 with expires := some (ct + d.getD 300) }, ?_, { hs with expires := by rintro y ⟨⟩; exact hsum }, hc, ct, hct, hlt⟩
        simp only [Setter.run, SigParams.setExpiresWithDuration, hct]
        rw [if_neg (by omega)]
    obtain ⟨p1, h1, h2⟩ := step
    obtain ⟨p, h3, h4⟩ := ih p1 (fun x hx => hl x (by simp [hx])) h2
    exact ⟨p, by rw [runSetters, h1]; exact h3, h4⟩

example : ∃ p, runSetters true [.nonce (c! "abc"), .keyInfo ⟨fun _ => .ok [], Base64.encode [1, 2, 3], .ed25519⟩, .expiresIn (some 60)]
    { created := some 1000, covered := [⟨.derived .path, []⟩] } = .ok p ∧ p.expires = some 1060 ∧ p.keyid = some (c! "AQID") :=
  ⟨{ created := some 1000, expires := some 1060, nonce := some (c! "abc"), alg := some (c! "ed25519"), keyid := some (c! "AQID"),
     covered := [⟨.derived .path, []⟩] },
   by
    have : Base64.encode [1, 2, 3] = c! "AQID" := by decide
    simp [runSetters, Setter.run, SigParams.setNonce, SigParams.setKeyInfo,
      SigParams.setExpiresWithDuration, Alg.toStr, this], rfl, rfl⟩

/-- What a call writes to each text parameter, from the documentation of the setters. -/
def Setter.writesNonce : Setter → Option Str
  | .nonce s => some s | .randomNonce r => some (Base64.encode r) | _ => none
def Setter.writesAlg : Setter → Option Str
  | .alg a => some a.toStr | .keyInfo k => some k.alg.toStr | _ => none
def Setter.writesKeyid : Setter → Option Str
  | .keyid s => some s | .keyInfo k => some k.keyId | _ => none
def Setter.writesTag : Setter → Option Str
  | .tag s => some s | _ => none
def Setter.writesCreated : Setter → Option UInt64
  | .created t => some t | _ => none
def Setter.setsExpires : Setter → Bool
  | .expires _ | .expiresIn _ => true | _ => false

/-- The last value written by a list of calls, or the value before. -/
def lastWrite {α : Type} (w : Setter → Option α) (l : List Setter) (old : Option α) : Option α :=
  ((l.filterMap w).getLast?).or old

theorem lastWrite_cons {α : Type} (w : Setter → Option α) (s : Setter) (l : List Setter) (old : Option α) :
    lastWrite w (s :: l) old = lastWrite w l ((w s).or old) := by
  unfold lastWrite
  cases h : w s with
  | none => simp [h]
  | some a =>
    simp only [List.filterMap_cons, h]
    cases hl : l.filterMap w with
    | nil => simp
    | cons x t => simp [List.getLast?_cons]

theorem run_expiresIn {checked : Bool} {d : Option UInt64} {p q : SigParams} (h : p.setExpiresWithDuration checked d = .ok q) :
    ∃ c, p.created = some c ∧ q = { p with expires := some (c + d.getD 300) } := by
  unfold SigParams.setExpiresWithDuration at h
  cases hc : p.created with
  | none => rw [hc] at h; cases h
  | some c =>
    rw [hc] at h
    simp only at h
    split at h
    · cases h
    · injection h with h; exact ⟨c, rfl, h.symm⟩

/-- C46: after any sequence of calls that does not panic every parameter has the last value written to it, `set_key_info` writing
both `alg` and `keyid`; the covered ids are untouched. -/
theorem C46_last_write (checked : Bool) (l : List Setter) (p q : SigParams) (h : runSetters checked l p = .ok q) :
    q.created = lastWrite Setter.writesCreated l p.created ∧ q.nonce = lastWrite Setter.writesNonce l p.nonce ∧
    q.alg = lastWrite Setter.writesAlg l p.alg ∧ q.keyid = lastWrite Setter.writesKeyid l p.keyid ∧
    q.tag = lastWrite Setter.writesTag l p.tag ∧ q.covered = p.covered ∧
    ((∀ s ∈ l, s.setsExpires = false) → q.expires = p.expires) := by
  induction l generalizing p with
  | nil => injection h with h; subst h; simp [lastWrite]
  | cons s t ih =>
    obtain ⟨p1, h1, h2⟩ := Res.bind_eq_ok.1 h
    obtain ⟨a1, a2, a3, a4, a5, a6, a7⟩ := ih p1 h2
    simp only [lastWrite_cons]
    rw [a1, a2, a3, a4, a5, a6]
    cases s with
    | expiresIn d =>
      obtain ⟨c, hc, rfl⟩ := run_expiresIn h1
      exact ⟨rfl, rfl, rfl, rfl, rfl, rfl, fun hh => by cases hh _ List.mem_cons_self⟩
    | expires x =>
      injection h1 with h1; subst h1
      exact ⟨rfl, rfl, rfl, rfl, rfl, rfl, fun hh => by cases hh _ List.mem_cons_self⟩
    | _ =>
      injection h1 with h1; subst h1
      exact ⟨rfl, rfl, rfl, rfl, rfl, rfl, fun hh => by rw [a7 (fun x hx => hh x (by simp [hx]))]; rfl⟩

/-- C46: `expires` is what the last call that sets it says: the given time, or `created` as it was then plus the duration. -/
theorem C46_last_expires (checked : Bool) (l1 l2 : List Setter) (p q : SigParams) (h2 : ∀ s ∈ l2, s.setsExpires = false) :
    (∀ t, runSetters checked (l1 ++ .expires t :: l2) p = .ok q → q.expires = some t) ∧
    (∀ d, runSetters checked (l1 ++ .expiresIn d :: l2) p = .ok q →
      ∃ c, lastWrite Setter.writesCreated l1 p.created = some c ∧ q.expires = some (c + d.getD 300)) := by
  have app : ∀ (a b : List Setter) (p : SigParams), runSetters checked (a ++ b) p = runSetters checked a p >>= runSetters checked b := by
    intro a b
    induction a with
    | nil => intro p; rfl
    | cons s t ih =>
      intro p
      show s.run checked p >>= runSetters checked (t ++ b) = (s.run checked p >>= runSetters checked t) >>= runSetters checked b
      cases s.run checked p with
      | ok a => exact ih a
      | err e => rfl
      | panic => rfl
  constructor
  · intro t h
    rw [app] at h
    obtain ⟨p1, _, h⟩ := Res.bind_eq_ok.1 h
    obtain ⟨p2, h3, h⟩ := Res.bind_eq_ok.1 h
    injection h3 with h3; subst h3
    exact (C46_last_write checked l2 _ q h).2.2.2.2.2.2 h2
  · intro d h
    rw [app] at h
    obtain ⟨p1, h1, h⟩ := Res.bind_eq_ok.1 h
    obtain ⟨p2, h3, h⟩ := Res.bind_eq_ok.1 h
    obtain ⟨c, hc, rfl⟩ := run_expiresIn h3
    refine ⟨c, ?_, (C46_last_write checked l2 _ q h).2.2.2.2.2.2 h2⟩
    rw [← (C46_last_write checked l1 p p1 h1).1, hc]

-- `created` is changed after the duration was added; `set_key_info` overrides an earlier algorithm
example : lastWrite Setter.writesAlg [.alg .hmacSha256, .keyInfo ⟨fun _ => .ok [], c! "k", .ed25519⟩, .tag (c! "t")] none =
    some (c! "ed25519") := by decide
example : ∃ q, runSetters true [.expiresIn (some 60), .created 5, .alg .hmacSha256, .keyInfo ⟨fun _ => .ok [], c! "k", .ed25519⟩]
    { created := some 1000, covered := [] } = .ok q ∧ q.expires = some 1060 ∧ q.created = some 5 ∧ q.alg = some (c! "ed25519") :=
  ⟨_, rfl, rfl, rfl, rfl⟩

/-! ### C44 -/

theorem containsStr_append (pat a b : Str) (h : containsStr pat b = true) : containsStr pat (a ++ b) = true := by
  induction a with
  | nil => exact h
  | cons x t ih => simp [containsStr, ih]

/-- C44: a line whose id is safe and has no colon, and whose value has no surrounding white space, is read back. -/
theorem C44_line_round_trip (c : Component) (h : SafeId c.id) (hcol : ':' ∉ c.id.disp) (hv : trim c.value.disp = c.value.disp) :
    Component.ofStr c.disp = .ok ⟨c.id, .plain c.value.disp⟩ := by
  unfold Component.ofStr Component.disp
  rw [splitOnce_append _ hcol]
  simp only
  rw [trim_disp]
  have hq : c.id.disp.head? = some '"' := by obtain ⟨u, hu⟩ := disp_shape c.id; rw [hu]; rfl
  have hend : c.id.disp.getLast? = some '"' ∨ containsStr (c! "\";") c.id.disp.tail = true := by
    obtain ⟨⟨n, ps⟩, v⟩ := c
    have hn : ∃ u, n.disp = '"' :: (u ++ ['"']) := by cases n <;> exact ⟨_, rfl⟩
    obtain ⟨u, hu⟩ := hn
    simp only [CId.disp, hu]
    cases ps with
    | nil => left; rw [show cparamsDisp [] = [] from rfl, List.append_nil, ← List.cons_append, List.getLast?_append]; simp
    | cons p t =>
      right
      rw [cparamsDisp_eq, List.flatMap_cons]
      simp only [List.cons_append, List.tail_cons, List.append_assoc]
      apply containsStr_append
      simp [containsStr]
  rw [if_pos ⟨hq, hend⟩, ofStr_disp h]
  simp only [Res.bind_ok]
  have : trim (' ' :: c.value.disp) = trim c.value.disp := by unfold trim; rw [List.dropWhile_cons, if_pos (by decide)]
  rw [this, hv]

/-- C44: a line without a colon is refused, and so is one whose part before the first colon does not start with a quote. -/
theorem C44_refused (s : Str) :
    (':' ∉ s → Component.ofStr s = .err .invalidComponent) ∧
    (∀ a b, s = a ++ ':' :: b → ':' ∉ a → (trim a).head? ≠ some '"' → Component.ofStr s = .err .invalidComponentId) := by
  constructor
  · intro h
    unfold Component.ofStr
    rw [splitOnce_none.2 h]
  · rintro a b rfl ha hq
    unfold Component.ofStr
    rw [splitOnce_append _ ha]
    simp only
    rw [if_neg (fun h => hq h.1)]

example : Component.ofStr (c! "\"content-type\";req: application/json") =
    .ok ⟨⟨.field (c! "content-type"), [.req]⟩, .plain (c! "application/json")⟩ := by decide
-- the condition on the colon is needed
example : Component.ofStr (Component.disp ⟨⟨.field (c! "a:b"), []⟩, .plain (c! "1")⟩) = .err .invalidComponentId := by decide

end Verif
