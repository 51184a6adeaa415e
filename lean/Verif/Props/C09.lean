import Verif.Spec.Forge
import Verif.Props.C04
import Verif.Props.C08
import Verif.Props.C19
/-!
C09 tampering is detected (and where it is not), C45 body authenticity.
-/
namespace Verif
open Sfv Spec

variable {now : UInt64} {m : Msg} {rf : Option Request}

/-! ### Times are determined by the text -/

/-- Empty, or a parameter whose name starts with one of these letters. -/
def StartsIn (cs : List Char) (s : Str) : Prop := s = [] ∨ ∃ x t, s = ';' :: x :: t ∧ x ∈ cs

theorem startsIn_append {cs : List Char} {a b : Str} (ha : StartsIn cs a) (hb : StartsIn cs b) : StartsIn cs (a ++ b) := by
  rcases ha with rfl | ⟨x, t, rfl, hx⟩
  · exact hb
  · exact Or.inr ⟨x, t ++ b, rfl, hx⟩

theorem startsIn_text {cs : List Char} {n : Char} {ns : Str} (h : n ∈ cs) (o : Option Str) : StartsIn cs (dispText (n :: ns) o) := by
  cases o with
  | none => exact Or.inl rfl
  | some s => exact Or.inr ⟨n, _, rfl, h⟩

theorem startsIn_num {cs : List Char} {n : Char} {ns : Str} (h : n ∈ cs) (o : Option UInt64) : StartsIn cs (dispNum (n :: ns) o) := by
  cases o with
  | none => exact Or.inl rfl
  | some s => exact Or.inr ⟨n, _, rfl, h⟩

theorem digits_split {a b : Nat} {r r' : Str} {cs : List Char} (hr : StartsIn cs r) (hr' : StartsIn cs r') (h : natStr a ++ r = natStr b ++ r') :
    a = b ∧ r = r' := by
  have tw : ∀ (n : Nat) {r : Str}, StartsIn cs r → (natStr n ++ r).takeWhile isDig = natStr n := by
    intro n r hr
    have : ∀ (l : Str), (∀ c ∈ l, isDig c = true) → (l ++ r).takeWhile isDig = l := by
      intro l hl
      induction l with
      | nil =>
        rcases hr with rfl | ⟨x, t, rfl, _⟩
        · rfl
        · rfl
      | cons c l ih => rw [List.cons_append, List.takeWhile_cons, if_pos (hl c (by simp)), ih (fun c hc => hl c (by simp [hc]))]
    exact this _ (natStr_isDig n)
  have e : natStr a = natStr b := by rw [← tw a hr, ← tw b hr', h]
  refine ⟨natStr_inj e, ?_⟩
  rw [e] at h
  exact List.append_cancel_left h

theorem num_split {n : Char} {ns : Str} {cs : List Char} (hn : n ∉ cs) {a b : Option UInt64} {r r' : Str} (hr : StartsIn cs r) (hr' : StartsIn cs r')
    (h : dispNum (n :: ns) a ++ r = dispNum (n :: ns) b ++ r') : a = b ∧ r = r' := by
  have no : ∀ {x : UInt64} {r r' : Str}, StartsIn cs r' → dispNum (n :: ns) (some x) ++ r ≠ r' := by
    intro x r r' hr' e
    rcases hr' with rfl | ⟨y, t, rfl, hy⟩
    · cases e
    · injection e with _ e; injection e with e _; exact hn (e ▸ hy)
  cases a with
  | none =>
    cases b with
    | none => exact ⟨rfl, h⟩
    | some y => exact absurd h.symm (no hr)
  | some x =>
    cases b with
    | none => exact absurd h (no hr')
    | some y =>
      unfold dispNum at h
      have h : (n :: ns) ++ '=' :: (natStr x.toNat ++ r) = (n :: ns) ++ '=' :: (natStr y.toNat ++ r') := by
        injection h with _ h
        simpa using h
      have h := List.append_cancel_left h
      injection h with _ h
      obtain ⟨h1, h2⟩ := digits_split hr hr' h
      exact ⟨congrArg some (UInt64.toNat_inj.1 h1), h2⟩

/-- Parameters with the same identifier texts and the same text have the same times. -/
theorem times_of_text {p q : SigParams} (hi : p.covered.map CId.disp = q.covered.map CId.disp) (h : p.disp = q.disp) :
    p.created = q.created ∧ p.expires = q.expires := by
  unfold SigParams.disp at h
  rw [joinIds_eq, joinIds_eq, hi] at h
  injection h with _ h
  have h := List.append_cancel_left h
  injection h with _ h
  simp only [List.append_assoc] at h
  have t : ∀ q : SigParams, StartsIn ['n', 'a', 'k', 't'] (dispText (c! "nonce") q.nonce ++ (dispText (c! "alg") q.alg ++
      (dispText (c! "keyid") q.keyid ++ dispText (c! "tag") q.tag))) := fun q =>
    startsIn_append (startsIn_text (by decide) _) (startsIn_append (startsIn_text (by decide) _)
      (startsIn_append (startsIn_text (by decide) _) (startsIn_text (by decide) _)))
  have t' : ∀ q : SigParams, StartsIn ['e', 'n', 'a', 'k', 't'] (dispNum (c! "expires") q.expires ++ (dispText (c! "nonce") q.nonce ++
      (dispText (c! "alg") q.alg ++ (dispText (c! "keyid") q.keyid ++ dispText (c! "tag") q.tag)))) := fun q =>
    startsIn_append (startsIn_num (by decide) _) (startsIn_append (startsIn_text (by decide) _) (startsIn_append (startsIn_text (by decide) _)
      (startsIn_append (startsIn_text (by decide) _) (startsIn_text (by decide) _))))
  obtain ⟨h1, h2⟩ := num_split (by decide) (t' p) (t' q) h
  obtain ⟨h3, _⟩ := num_split (by decide) (t p) (t q) h2
  exact ⟨h1, h3⟩

/-! ### C09 -/

/-- Parameters read from a message contain no line break. -/
theorem carried_one_line {h : Headers} {l : List (Str × SigHeaders)} (hc : Carries h l) {kv : Str × SigHeaders} (hkv : kv ∈ l) :
    OneLineParams kv.2.params := by
  obtain ⟨ts, us, a, b, _, _, _, _, _, hb, hA⟩ := hc
  obtain ⟨_, _, e, he, hp⟩ := hA.pairing kv hkv
  exact C08_parsed_one_line e ((parseDict_legal hb).2 _ he).2 _ hp

/-- C09 as far as it is true. If the key accepts only what was signed, success under the label `n` means: there is something signed
whose identifiers have the same texts as those received under `n`, with the same values at each position, the same text of the
parameters, the same `created` and the same `expires`. What is missing: identifiers and string parameters are the same only as
unescaped text (see `C09_false_component` and `C09_false_keyid`); `C09_safe` gives them when what was received needs no escapes. -/
theorem C09_bound_partial {vk : VerifyingKey} {S : Signing → Prop} (hS : OnlySigned vk S) (hwf : ∀ x, S x → x.Wf)
    (hm : WfMsg m) (hf : ∀ r, rf = some r → WfRequest r) {id : Option Str} {n : Str} (h : verifySignature now m vk id rf = .ok n) :
    ∃ l sh, Carries m.headers l ∧ (n, sh) ∈ l ∧ ForKey id sh ∧ InTime now sh ∧ ∃ x, S x ∧
      x.p.covered.map CId.disp = sh.params.covered.map CId.disp ∧ x.p.disp = sh.params.disp ∧
      x.p.created = sh.params.created ∧ x.p.expires = sh.params.expires ∧
      ∃ vs, List.Forall₂ (HasValue m rf) sh.params.covered vs ∧ List.Forall₂ (HasValue x.m x.rf) x.p.covered vs := by
  have hw := WfMsg.wfHeaders hm
  have hf' : ∀ r, rf = some r → WfHeaders r.headers := fun r hr => (hf r hr).headers
  obtain ⟨l, h1, _, hn⟩ := (C10_ok_iff hw hf' n).1 h
  obtain ⟨sh, h2, t, a1, a2, a3, a4⟩ := firstWith_mem hn
  obtain ⟨x, hx, t', b1, b2⟩ := hS _ _ a4
  have wx := hwf x hx
  obtain ⟨b, e1, e2⟩ := (buildBase_spec hw hf' t).2 a1
  obtain ⟨b', e1', e2'⟩ := (buildBase_spec (WfMsg.wfHeaders wx.msg) (fun r hr => (wx.req r hr).headers) t').2 b1
  obtain ⟨_, c2, c3, vs, c4, c5⟩ := C08_unambiguous hm wx.msg hf wx.req (carried_one_line h1 h2) wx.params e1 e1'
    (by unfold SigBase.bytes; rw [e2, e2', b2])
  obtain ⟨d1, d2⟩ := times_of_text c2 c3
  exact ⟨l, sh, h1, h2, a2, a3, x, hx, c2.symm, c3.symm, d1.symm, d2.symm, vs, c4, c5⟩

/-- C09 in full when neither the signed nor the received parameters need escapes: the holder signed exactly these parameters for a
message in which every covered component has the received value. -/
theorem C09_safe {vk : VerifyingKey} {S : Signing → Prop} (hS : OnlySigned vk S) (hwf : ∀ x, S x → x.Wf ∧ SafeParams x.p)
    (hm : WfMsg m) (hf : ∀ r, rf = some r → WfRequest r) (hsafe : ∀ l, Carries m.headers l → ∀ kv ∈ l, SafeParams kv.2.params)
    {id : Option Str} {n : Str} (h : verifySignature now m vk id rf = .ok n) :
    ∃ l sh, Carries m.headers l ∧ (n, sh) ∈ l ∧ ∃ x, S x ∧ x.p = sh.params ∧
      ∀ i ∈ sh.params.covered, ∃ v, HasValue m rf i v ∧ HasValue x.m x.rf i v := by
  obtain ⟨l, sh, h1, h2, _, _, x, hx, _, h4, _, _, vs, h5, h6⟩ := C09_bound_partial hS (fun x hx => (hwf x hx).1) hm hf h
  have e := C05_params_text_injective _ _ (hwf x hx).2 (hsafe l h1 _ h2) h4
  refine ⟨l, sh, h1, h2, x, hx, e, ?_⟩
  rw [e] at h6
  clear h1 h2 h4 e hx
  generalize sh.params.covered = ids at h5 h6
  induction h5 with
  | nil => intro i hi; cases hi
  | @cons i v ids vs a _ ih =>
    cases h6 with
    | cons b h6 =>
      intro j hj
      rcases List.mem_cons.1 hj with rfl | hj
      · exact ⟨v, a, b⟩
      · exact ih h6 j hj

/-! ### Where C09 fails -/

/-- A signing that covers a dictionary member that the message does not have. -/
def dSigning : Signing where
  m := .req { exReq with headers := [(c! "x-dict", utf8 (c! "b=1"))] }
  rf := none
  p := exParams [⟨.field (c! "x-dict"), [.key (c! "a")]⟩]

/-- The key accepts the base of one signing and nothing else. -/
def onlyKey (t : Str) : VerifyingKey := ⟨fun d _ => if d = utf8 t then .ok () else .err .invalidSignature, c! "k", .ed25519⟩

theorem onlyKey_spec {x : Signing} {t : Str} (h : BaseOf x.m x.rf x.p t) : OnlySigned (onlyKey t) (· = x) := by
  intro d s hv
  unfold onlyKey at hv
  simp only at hv
  split at hv
  · rename_i e; exact ⟨x, rfl, t, h, e⟩
  · cases hv

theorem exUri_oneLine : OneLineUri exUri := ⟨by decide, by decide, by decide, by decide⟩

theorem exWf (h : Headers) (hw : WfHeaders h) : WfMsg (.req { exReq with headers := h }) := ⟨hw, (by decide : OneLine exReq.method), exUri_oneLine⟩

theorem safe_one_line {p : SigParams} (hq : SafeParams p) : OneLineParams p := by
  have t : ∀ {s : Str}, SafeText s → OneLine s := fun hs => printable_oneLine (safe_printable hs)
  exact ⟨fun s hs => t (hq.nonce s hs), fun s hs => t (hq.alg s hs), fun s hs => t (hq.keyid s hs), fun s hs => t (hq.tag s hs),
    fun i hi => ⟨fun f hx => t ((hq.ids i hi).nameText f hx), fun f hx => t ((hq.ids i hi).keyText f hx),
      fun f hx => t ((hq.ids i hi).nameParam f hx)⟩⟩

/-- The received message: the member was added, and the identifier is written as one string with escaped quotes. -/
def dHeaders : Headers := [(c! "x-dict", utf8 (c! "a=1, b=1")), (c! "signature-input", utf8 (c! "sig=(\"x-dict\\\";key=\\\"a\")")),
  (c! "signature", utf8 (c! "sig=:AQ==:"))]

theorem dHeaders_wf : WfHeaders dHeaders := by
  intro kv hkv
  simp only [dHeaders, List.mem_cons, List.not_mem_nil, or_false] at hkv
  rcases hkv with rfl | rfl | rfl <;> exact ⟨by decide, by decide, by decide⟩

theorem dSigning_safe : SafeParams dSigning.p where
  created := by intro t h; cases h
  expires := by intro t h; cases h
  nonce := by intro t h; cases h
  alg := by intro t h; cases h
  keyid := by intro t h; cases h
  tag := by intro t h; cases h
  ids := by
    intro i hi
    rw [List.mem_singleton.1 hi]
    exact ⟨⟨by decide, by simp, by simp, by intro f h; injection h with h; subst h; decide⟩,
      (by intro f h; injection h with h; subst h; decide), (by intro k h; simp only [List.mem_singleton, CParam.key.injEq] at h; subst h; decide), by simp⟩
  distinct := by simp [dSigning, exParams]

theorem dSigning_wf : WfHeaders dSigning.m.headers := by
  intro kv hkv
  have hkv : kv ∈ [(c! "x-dict", utf8 (c! "b=1"))] := hkv
  rw [List.mem_singleton.1 hkv]; exact ⟨by decide, by decide, by decide⟩

/-- The base text of the signing. -/
def dText : Str := c! "\"x-dict\";key=\"a\": \n\"@signature-params\": (\"x-dict\";key=\"a\")"

theorem dSigning_base : BaseOf dSigning.m none dSigning.p dText :=
  (buildBase_spec dSigning_wf (by simp) dText).1 ⟨⟨[⟨⟨.field (c! "x-dict"), [.key (c! "a")]⟩, .plain []⟩], dSigning.p⟩, rfl, by decide⟩

/-- C09 is false as stated: the holder signed that member `a` of `x-dict` is absent (the value is empty); a message where it is `1`
verifies, although the key accepts nothing but the signed base. The attacker writes the identifier as a string with escaped quotes;
its display text, without escapes, is that of the signed identifier. -/
theorem C09_false_component : ∃ (vk : VerifyingKey) (x : Signing) (r : Request) (i : CId), OnlySigned vk (· = x) ∧ x.Wf ∧ SafeParams x.p ∧
    WfMsg (.req r) ∧ r.verifySignature 0 vk none = .ok (c! "sig") ∧ i ∈ x.p.covered ∧ HasValue x.m x.rf i [] ∧ HasValue (.req r) none i (c! "1") := by
  refine ⟨onlyKey dText, dSigning, { exReq with headers := dHeaders }, ⟨.field (c! "x-dict"), [.key (c! "a")]⟩, onlyKey_spec dSigning_base,
    ⟨exWf _ dSigning_wf, (by intro r h; cases h), safe_one_line dSigning_safe⟩, dSigning_safe, exWf _ dHeaders_wf, by decide, by decide, ?_, ?_⟩
  · exact (extracts_iff (m := dSigning.m) (rf := none) dSigning_wf (by simp) _ _).1 ⟨_, rfl, by decide⟩
  · exact (extracts_iff (m := .req { exReq with headers := dHeaders }) (rf := none) dHeaders_wf (by simp) _ _).1 ⟨_, rfl, by decide⟩


/-- A signing with a nonce and a key id. -/
def nSigning : Signing where
  m := .req exReq
  rf := none
  p := { covered := [⟨.field (c! "date"), []⟩], nonce := some (c! "n"), keyid := some (c! "k") }

theorem nSigning_safe : SafeParams nSigning.p where
  created := by intro t h; cases h
  expires := by intro t h; cases h
  nonce := by intro t h; injection h with h; subst h; decide
  alg := by intro t h; cases h
  keyid := by intro t h; injection h with h; subst h; decide
  tag := by intro t h; cases h
  ids := by
    intro i hi
    rw [List.mem_singleton.1 hi]
    exact ⟨⟨by simp, by simp, by simp, by intro f h; injection h with h; subst h; decide⟩,
      (by intro f h; injection h with h; subst h; decide), by simp, by simp⟩
  distinct := by simp [nSigning]

def nText : Str := c! "\"date\": Tue\n\"@signature-params\": (\"date\");nonce=\"n\";keyid=\"k\""

theorem nSigning_base : BaseOf nSigning.m none nSigning.p nText :=
  (buildBase_spec (m := nSigning.m) exReq_wf (by simp) nText).1 ⟨⟨[⟨⟨.field (c! "date"), []⟩, .plain (c! "Tue")⟩], nSigning.p⟩, rfl, by decide⟩

def nHeaders : Headers := [(c! "date", utf8 (c! "Tue")), (c! "signature-input", utf8 (c! "sig=(\"date\");nonce=\"n\\\";keyid=\\\"k\"")),
  (c! "signature", utf8 (c! "sig=:AQ==:"))]

theorem nHeaders_wf : WfHeaders nHeaders := by
  intro kv hkv
  simp only [nHeaders, List.mem_cons, List.not_mem_nil, or_false] at hkv
  rcases hkv with rfl | rfl | rfl <;> exact ⟨by decide, by decide, by decide⟩

/-- C09 is false for the string parameters too: the holder signed nonce `n` with key id `k`; a message verifies whose signature, as the
library reads it, has another nonce and no key id. -/
theorem C09_false_keyid : ∃ (vk : VerifyingKey) (x : Signing) (r : Request), OnlySigned vk (· = x) ∧ x.Wf ∧ SafeParams x.p ∧
    WfMsg (.req r) ∧ r.verifySignature 0 vk none = .ok (c! "sig") ∧ x.p.nonce = some (c! "n") ∧ x.p.keyid = some (c! "k") ∧
    ∃ sh, Carries r.headers [(c! "sig", sh)] ∧ sh.params.nonce = some (c! "n\";keyid=\"k") ∧ sh.params.keyid = none := by
  refine ⟨onlyKey nText, nSigning, { exReq with headers := nHeaders }, onlyKey_spec nSigning_base,
    ⟨⟨exReq_wf, by decide, exUri_oneLine⟩, (by intro r h; cases h), safe_one_line nSigning_safe⟩, nSigning_safe, exWf _ nHeaders_wf,
    by decide, rfl, rfl, ?_⟩
  exact ⟨⟨c! "sig", [1], { covered := [⟨.field (c! "date"), []⟩], nonce := some (c! "n\";keyid=\"k") }⟩,
    (extractSignatureHeaders_ok (m := .req { exReq with headers := nHeaders }) nHeaders_wf _).1 (by decide), rfl, rfl⟩

/-! ### C45 -/

theorem quote_cancel {a r f : Str} (hf : '"' ∉ f) (h : a ++ '"' :: r = f ++ ['"']) : r = [] ∧ a = f := by
  rcases r.eq_nil_or_concat with rfl | ⟨r', c, rfl⟩
  · exact ⟨rfl, List.append_cancel_right h⟩
  · exfalso
    have : (a ++ '"' :: r') ++ [c] = f ++ ['"'] := by simpa using h
    have := (List.append_inj' this rfl).1
    exact hf (this ▸ by simp)

/-- Only the plain field identifier has its text, if the name has neither a quote nor `@` at the start. -/
theorem plain_disp {i : CId} {f : Str} (hf : '"' ∉ f) (ha : f.head? ≠ some '@') (h : i.disp = CId.disp ⟨.field f, []⟩) : i = ⟨.field f, []⟩ := by
  obtain ⟨n, ps⟩ := i
  have e : CId.disp ⟨.field f, []⟩ = '"' :: (f ++ ['"']) := by simp [CId.disp, CName.disp, cparamsDisp]
  have fin : ∀ {s : Str}, '"' :: (s ++ ['"']) ++ cparamsDisp ps = '"' :: (f ++ ['"']) → ps = [] ∧ s = f := by
    intro s h
    rw [List.cons_append, List.append_assoc] at h
    injection h with _ h
    obtain ⟨h1, h2⟩ := quote_cancel hf h
    refine ⟨?_, h2⟩
    unfold cparamsDisp at h1
    split at h1
    · rename_i hp; exact hp
    · cases h1
  rw [e] at h
  cases n with
  | field g => obtain ⟨rfl, rfl⟩ := fin h; rfl
  | derived d =>
    obtain ⟨rfl, rfl⟩ := fin h
    exact absurd (by cases d <;> rfl) ha

theorem lower_digest {f : Str} (h : lower f = c! "content-digest") : '"' ∉ f ∧ f.head? ≠ some '@' := by
  unfold lower at h
  constructor
  · intro hm
    have := List.mem_map_of_mem (f := Char.toLower) hm
    rw [h] at this
    exact absurd this (by decide)
  · intro hh
    cases f with
    | nil => cases hh
    | cons c t =>
      injection hh with hh; subst hh
      injection h with h _
      exact absurd h (by decide)

theorem at_position {ids ids0 : List CId} {vs : List Str} {A B : CId → Str → Prop} (ha : List.Forall₂ A ids vs) (hb : List.Forall₂ B ids0 vs)
    (he : ids0.map CId.disp = ids.map CId.disp) {i : CId} (hi : i ∈ ids) : ∃ i0 ∈ ids0, i0.disp = i.disp ∧ ∃ v, A i v ∧ B i0 v := by
  induction ha generalizing ids0 with
  | nil => cases hi
  | @cons j v ids vs h _ ih =>
    cases hb with
    | @cons j0 _ _ _ g hb =>
      injection he with e1 e2
      rcases List.mem_cons.1 hi with rfl | hi
      · exact ⟨j0, by simp, e1, v, h, g⟩
      · obtain ⟨i0, h1, h2⟩ := ih hb e2 hi
        exact ⟨i0, by simp [h1], h2⟩

/-- The general form, on the parts of either kind of message. -/
theorem signed_body {vk : VerifyingKey} {S : Signing → Prop} (hS : OnlySigned vk S) (hwf : ∀ x, S x → x.Wf)
    (hm : WfMsg m) (hf : ∀ r, rf = some r → WfRequest r) {id : Option Str} {n : Str} (h : verifySignature now m vk id rf = .ok n)
    (hcov : ∀ l, Carries m.headers l → ∀ sh, (n, sh) ∈ l → ∃ f, lower f = c! "content-digest" ∧ ⟨.field f, []⟩ ∈ sh.params.covered)
    {line : Bytes} (hone : fieldLines m.headers (c! "content-digest") = [line]) {t : DigestType} {d : Bytes} (hst : States line t d) :
    ∃ x, S x ∧ ∃ f, lower f = c! "content-digest" ∧ ⟨.field f, []⟩ ∈ x.p.covered ∧
      ∃ v, HasValue x.m x.rf ⟨.field f, []⟩ v ∧ States (utf8 v) t d := by
  obtain ⟨l, sh, h1, h2, _, _, x, hx, h3, _, _, _, vs, h5, h6⟩ := C09_bound_partial hS hwf hm hf h
  obtain ⟨f, hlf, hfc⟩ := hcov l h1 sh h2
  obtain ⟨i0, hi0, hd, v, ha, hb⟩ := at_position h5 h6 h3 hfc
  obtain ⟨q1, q2⟩ := lower_digest hlf
  have := plain_disp q1 q2 hd
  subst this
  refine ⟨x, hx, f, hlf, hi0, v, hb, ?_⟩
  unfold HasValue at ha
  rw [if_neg (by simp)] at ha
  obtain ⟨ts, out, a1, a2, a3⟩ := ha
  cases a2
  have e : fieldLines m.headers f = [line] := by
    rw [← hone]; unfold fieldLines; rw [hlf]; rfl
  rw [e] at a1
  cases a1 with
  | @cons _ s _ _ b1 b2 =>
    cases b2
    have hv : v = s := a3
    subst hv
    rw [(hvToStr_some b1).1]; exact hst

theorem lines_fieldLines {h : Headers} (hw : WfHeaders h) : lines h (c! "content-digest") = fieldLines h (c! "content-digest") := by
  rw [← getAll_digest, getAll_fieldLines hw]; rfl

/-- C45, requests: if a request verifies under an unforgeable key with content-digest covered, has a single Content-Digest line, and
its content digest verifies, then the holder signed a base in which `content-digest` states the hash of the received body. -/
theorem C45_request {vk : VerifyingKey} {S : Signing → Prop} (hS : OnlySigned vk S) (hwf : ∀ x, S x → x.Wf)
    (r : Request) (hr : WfRequest r) {id : Option Str} {n : Str} (h : r.verifySignature now vk id = .ok n)
    (hcov : ∀ l, Carries r.headers l → ∀ sh, (n, sh) ∈ l → ∃ f, lower f = c! "content-digest" ∧ ⟨.field f, []⟩ ∈ sh.params.covered)
    (hone : (fieldLines r.headers (c! "content-digest")).length = 1) {r' : Request} (hd : r.verifyContentDigest = .ok r') :
    ∃ b, r.body = .data b ∧ ∃ x, S x ∧ ∃ f, lower f = c! "content-digest" ∧ ⟨.field f, []⟩ ∈ x.p.covered ∧
      ∃ v t, HasValue x.m x.rf ⟨.field f, []⟩ v ∧ States (utf8 v) t (hashOf t b) := by
  obtain ⟨_, b, t, line, h1, h2, h3⟩ := (C20_request_verify_exact r r').1 hd
  obtain ⟨line', hl⟩ := List.length_eq_one_iff.1 hone
  rw [lines_fieldLines hr.headers, hl] at h2
  injection h2 with h2; subst h2
  obtain ⟨x, hx, f, g1, g2, v, g3, g4⟩ := signed_body (m := .req r) hS hwf hr (by simp) h hcov hl h3
  exact ⟨b, h1, x, hx, f, g1, g2, v, t, g3, g4⟩

/-- C45, responses. -/
theorem C45_response {vk : VerifyingKey} {S : Signing → Prop} (hS : OnlySigned vk S) (hwf : ∀ x, S x → x.Wf)
    (s : Response) (hs : WfHeaders s.headers) (hf : ∀ r, rf = some r → WfRequest r) {id : Option Str} {n : Str}
    (h : s.verifySignature now vk id rf = .ok n)
    (hcov : ∀ l, Carries s.headers l → ∀ sh, (n, sh) ∈ l → ∃ f, lower f = c! "content-digest" ∧ ⟨.field f, []⟩ ∈ sh.params.covered)
    (hone : (fieldLines s.headers (c! "content-digest")).length = 1) {s' : Response} (hd : s.verifyContentDigest = .ok s') :
    ∃ b, s.body = .data b ∧ ∃ x, S x ∧ ∃ f, lower f = c! "content-digest" ∧ ⟨.field f, []⟩ ∈ x.p.covered ∧
      ∃ v t, HasValue x.m x.rf ⟨.field f, []⟩ v ∧ States (utf8 v) t (hashOf t b) := by
  obtain ⟨_, b, t, line, h1, h2, h3⟩ := (C20_response_verify_exact s s').1 hd
  obtain ⟨line', hl⟩ := List.length_eq_one_iff.1 hone
  rw [lines_fieldLines hs, hl] at h2
  injection h2 with h2; subst h2
  obtain ⟨x, hx, f, g1, g2, v, g3, g4⟩ := signed_body (m := .res s) hS hwf hs hf h hcov hl h3
  exact ⟨b, h1, x, hx, f, g1, g2, v, t, g3, g4⟩

/-! ### The hypotheses hold together -/

/-- The ideal key pair of a set of signings: it signs and accepts their bases and nothing else. -/
noncomputable def idealSign (S : Signing → Prop) : SigningKey :=
  ⟨fun d => open Classical in if ∃ x, S x ∧ ∃ t, BaseOf x.m x.rf x.p t ∧ d = utf8 t then .ok [1] else .err .invalidSignature, c! "k", .ed25519⟩
noncomputable def idealVerify (S : Signing → Prop) : VerifyingKey :=
  ⟨fun d s => open Classical in if s = [1] ∧ ∃ x, S x ∧ ∃ t, BaseOf x.m x.rf x.p t ∧ d = utf8 t then .ok () else .err .invalidSignature, c! "k", .ed25519⟩

theorem ideal_only (S : Signing → Prop) : OnlySigned (idealVerify S) S := by
  intro d s h
  unfold idealVerify at h
  simp only at h
  split at h
  · rename_i hx; exact hx.2
  · cases h

theorem ideal_pair (S : Signing → Prop) : KeyPair (idealSign S) (idealVerify S) := by
  intro d s h
  unfold idealSign at h
  simp only at h
  split at h
  · rename_i hx; injection h with h; subst h; unfold idealVerify; simp only; rw [if_pos ⟨rfl, hx⟩]
  · cases h

/-- Parameters that cover the content digest. -/
def cParams : SigParams := { covered := [⟨.field (c! "content-digest"), []⟩], keyid := some (c! "k") }

theorem cParams_safe : SafeParams cParams where
  created := by intro t h; cases h
  expires := by intro t h; cases h
  nonce := by intro t h; cases h
  alg := by intro t h; cases h
  keyid := by intro t h; injection h with h; subst h; decide
  tag := by intro t h; cases h
  ids := by
    intro i hi
    rw [List.mem_singleton.1 hi]
    exact ⟨⟨by simp, by simp, by simp, by intro f h; injection h with h; subst h; decide⟩,
      (by intro f h; injection h with h; subst h; decide), by simp, by simp⟩
  distinct := by simp [cParams]

/-- A request whose digest was set and that was then signed by an ideal key satisfies every hypothesis of `C45_request`. -/
example (b : Bytes) : ∃ (S : Signing → Prop) (vk : VerifyingKey) (r : Request), OnlySigned vk S ∧ (∀ x, S x → x.Wf) ∧ (∃ x, S x) ∧ WfRequest r ∧
    r.verifySignature 0 vk (some (c! "k")) = .ok (c! "sig") ∧
    (∀ l, Carries r.headers l → ∀ sh, (c! "sig", sh) ∈ l → ∃ f, lower f = c! "content-digest" ∧ ⟨.field f, []⟩ ∈ sh.params.covered) ∧
    (fieldLines r.headers (c! "content-digest")).length = 1 ∧ r.verifyContentDigest = .ok r ∧ r.body = .data b := by
  obtain ⟨r, h1, hm, hu, hb, ho, v, hl, hst, htxt⟩ := C21_request_set { exReq with body := .data b, headers := [(c! "date", utf8 (c! "Tue"))] } .sha256 b rfl
  have hw : WfHeaders r.headers := by
    intro kv hkv
    by_cases hk : kv.1 = c! "content-digest"
    · rw [hk]; exact ⟨by decide, by decide, by decide⟩
    · have : kv ∈ otherLines r.headers (c! "content-digest") := List.mem_filter.2 ⟨hkv, by simpa using hk⟩
      rw [ho] at this
      have := (List.mem_filter.1 this).1
      rw [List.mem_singleton.1 this]; exact ⟨by decide, by decide, by decide⟩
  have nosig : ∀ f, lower f = f → f ≠ c! "content-digest" → f ≠ c! "date" → fieldLines r.headers f = [] := by
    intro f hf h1 h2
    unfold fieldLines
    rw [List.map_eq_nil_iff, List.filter_eq_nil_iff]
    intro kv hkv
    simp only [decide_eq_true_eq]
    rw [hf]
    intro e
    by_cases hk : kv.1 = c! "content-digest"
    · rw [hk] at e; exact h1 (e.symm.trans (by decide))
    · have : kv ∈ otherLines r.headers (c! "content-digest") := List.mem_filter.2 ⟨hkv, by simpa using hk⟩
      rw [ho] at this
      have := (List.mem_filter.1 this).1
      rw [List.mem_singleton.1 this] at e
      exact h2 (e.symm.trans (by decide))
  have hone : fieldLines r.headers (c! "content-digest") = [v] := by rw [← lines_fieldLines hw, hl]
  have hval : ∃ t, BaseOf (.req r) none cParams t := by
    refine ⟨_, [digestLabel .sha256 ++ c! "=:" ++ Base64.encode (hashOf .sha256 b) ++ c! ":"], .cons ?_ .nil, rfl⟩
    · unfold HasValue
      rw [if_neg (by simp)]
      refine ⟨[_], _, ?_, .done _, rfl⟩
      show LineTexts (fieldLines r.headers (c! "content-digest")) _
      rw [hone]
      exact .cons htxt .nil
  obtain ⟨t, ht⟩ := hval
  have wr : WfRequest r := ⟨hw, by rw [hm]; exact (by decide : OneLine exReq.method), by rw [hu]; exact exUri_oneLine⟩
  let S : Signing → Prop := (· = ⟨.req r, none, cParams⟩)
  have hsb : SignedBy (.req r) none (cParams, idealSign S, none) ⟨c! "sig", [1], cParams⟩ := by
    refine ⟨rfl, rfl, t, ht, ?_⟩
    unfold idealSign
    simp only
    rw [if_pos ⟨_, rfl, t, ht, rfl⟩]
  have hset := (setSignatures_ok (m := .req r) (rf := none) hw (by simp) [(cParams, idealSign S, none)] _).2
    ⟨[⟨c! "sig", [1], cParams⟩], .cons hsb .nil, by decide, rfl⟩
  have hns : NotSelf cParams := by
    intro i hi _
    rw [List.mem_singleton.1 hi]
    exact ⟨by simp, by intro f h; injection h with h; subst h; decide⟩
  have hver := sign_then_verify (now := 0) (m := .req r) (rf := none) hw (by simp) (nosig _ (by decide) (by decide) (by decide))
    (nosig _ (by decide) (by decide) (by decide)) cParams_safe hns (name := none) (by decide) (ideal_pair S) hset (by intro e h; cases h)
    (id := some (c! "k")) (Or.inr rfl)
  obtain ⟨hs, g1, g2, g3, _⟩ := signed_state (m := .req r) (rf := none) hw (by simp) (nosig _ (by decide) (by decide) (by decide))
    (nosig _ (by decide) (by decide) (by decide)) (l := [(cParams, idealSign S, none)]) (by simp)
    (by intro x hx; rw [List.mem_singleton.1 hx]; exact ⟨cParams_safe, (by decide : LegalKey (c! "sig")), hns⟩) (by simp) hset
  have hcd : fieldLines (r.headers ++ [(⟨c! "sig", [1], cParams⟩ : SigHeaders)].flatMap sigLines) (c! "content-digest") = [v] := by
    rw [fieldLines_append, hone, fieldLines_sigLines_other _ (by decide) (by decide)]; rfl
  refine ⟨S, idealVerify S, { r with headers := r.headers ++ [(⟨c! "sig", [1], cParams⟩ : SigHeaders)].flatMap sigLines }, ideal_only S, ?_, ⟨_, rfl⟩,
    ⟨g2, wr.method, wr.uri⟩, hver, ?_, ?_, ?_, hb⟩
  · rintro x rfl; exact ⟨wr, (by intro r h; cases h), safe_one_line cParams_safe⟩
  · intro l hl sh hsh
    rw [carries_unique g2 hl g3] at hsh
    obtain ⟨sh', hm', e⟩ := List.mem_map.1 hsh
    injection e with _ e; subst e
    obtain ⟨x, hx, hb'⟩ := forall₂_mem_right g1 _ hm'
    rw [List.mem_singleton.1 hx] at hb'
    exact ⟨c! "content-digest", by decide, by rw [hb'.params]; exact List.mem_singleton.2 rfl⟩
  · show (fieldLines (r.headers ++ _) _).length = 1
    rw [hcd]; rfl
  · refine (C20_request_verify_exact _ _).2 ⟨rfl, b, .sha256, v, hb, ?_, hst⟩
    exact (congrArg List.head? ((lines_fieldLines g2).trans hcd)).trans rfl

end Verif
