import Verif.Spec.Store
import Verif.Props.C90
/-!
C91: a receiver that asks `get_alg_key_ids` for the signatures, finds keys with the answers, and verifies with the keys and ids it has found.
README.md 64-67: "infer it from the request. Find your public key from IndexMap with alg and key_id pairs".
-/
namespace Verif
open Spec Sfv

/-- The keys found with the answers of `get_alg_key_ids`, each with the key id it was found with. -/
def keysFor (find : Wire.Finder) (ids : List (Str × (Option Alg × Option Str))) : List (VerifyingKey × Option Str) :=
  ids.filterMap fun e => (find e.2.1 e.2.2).map fun k => (k, e.2.2)

/-- The receiver: `get_alg_key_ids` (hyper_http.rs 607-628), then `verify_message_signatures` (660-701). -/
def receive (rsa : Bool) (now : UInt64) (m : Msg) (rf : Option Request) (find : Wire.Finder) : Res HyperErr (List (Except HyperErr Str)) := do
  let ids ← getAlgKeyIds rsa m
  verifySignatures now m (keysFor find ids) rf

section
variable {rsa : Bool} {now : UInt64} {m : Msg} {rf : Option Request} {find : Wire.Finder} {l : List (Str × SigHeaders)}

/-- The algorithm reported for a signature. -/
theorem reported_unique {p : SigParams} {a b : Option Alg} (ha : ∀ x, a = some x ↔ p.alg = some x.toStr ∧ x.available rsa = true)
    (hb : ∀ x, b = some x ↔ p.alg = some x.toStr ∧ x.available rsa = true) : a = b := Option.ext fun x => (ha x).trans (hb x).symm

/-- The keys that are asked for, with the signatures they are found for. -/
theorem keysFor_spec (hw : WfHeaders m.headers) (hl : Carries m.headers l) :
    ∃ fs : List ((Str × SigHeaders) × VerifyingKey), (fs.map Prod.fst).Sublist l ∧ (∀ kv k, (kv, k) ∈ fs ↔ kv ∈ l ∧ Wire.Found rsa find kv.2 k) ∧
      receive rsa now m rf find = verifySignatures now m (fs.map fun x => (x.2, x.1.2.params.keyid)) rf := by
  have e : ∃ ids, getAlgKeyIds rsa m = .ok ids := by
    unfold getAlgKeyIds
    rw [(extractSignatureHeaders_ok hw l).2 hl]; exact ⟨_, rfl⟩
  obtain ⟨ids, hi⟩ := e
  obtain ⟨l', h1, h2⟩ := (C31_reported rsa hw ids).1 hi
  cases carries_unique hw hl h1
  unfold receive
  rw [hi, Res.bind_ok]
  clear hi hl h1
  suffices ∃ fs : List ((Str × SigHeaders) × VerifyingKey), (fs.map Prod.fst).Sublist l ∧
      (∀ kv k, (kv, k) ∈ fs ↔ kv ∈ l ∧ Wire.Found rsa find kv.2 k) ∧ keysFor find ids = fs.map fun x => (x.2, x.1.2.params.keyid) by
    obtain ⟨fs, a, b, c⟩ := this
    exact ⟨fs, a, b, by rw [c]⟩
  induction h2 with
  | nil => exact ⟨[], by simp, by simp, rfl⟩
  | @cons kv x l ids hx _ ih =>
    obtain ⟨fs, a, b, c⟩ := ih
    obtain ⟨x1, x2, x3⟩ := hx
    have hfd : ∀ k, Wire.Found rsa find kv.2 k ↔ find x.2.1 x.2.2 = some k := by
      intro k
      rw [x2]
      constructor
      · rintro ⟨a, ha, hk⟩
        rwa [reported_unique x3 ha]
      · intro hk; exact ⟨_, x3, hk⟩
    cases hk : find x.2.1 x.2.2 with
    | none =>
      refine ⟨fs, a.trans (List.sublist_cons_self ..), ?_, ?_⟩
      · intro kv' k
        rw [b, List.mem_cons]
        constructor
        · rintro ⟨h, h'⟩; exact ⟨Or.inr h, h'⟩
        · rintro ⟨rfl | h, h'⟩
          · rw [hfd, hk] at h'; cases h'
          · exact ⟨h, h'⟩
      · rw [← c]; simp [keysFor, hk]
    | some k0 =>
      refine ⟨(kv, k0) :: fs, a.cons_cons _, ?_, ?_⟩
      · intro kv' k
        rw [List.mem_cons, b, List.mem_cons]
        constructor
        · rintro (h | ⟨h, h'⟩)
          · injection h with h h'; subst h; subst h'
            exact ⟨Or.inl rfl, (hfd _).2 hk⟩
          · exact ⟨Or.inr h, h'⟩
        · rintro ⟨rfl | h, h'⟩
          · rw [hfd, hk] at h'; injection h' with h'; exact Or.inl (by rw [h'])
          · exact Or.inr ⟨h, h'⟩
      · rw [List.map_cons, ← c]
        unfold keysFor
        rw [List.filterMap_cons, hk, ← x2]
        rfl

/-- What the verification with found keys gives. -/
theorem verifySignatures_cases (hw : WfHeaders m.headers) (hf : ∀ r, rf = some r → WfHeaders r.headers) (hl : Carries m.headers l)
    (keys : List (VerifyingKey × Option Str)) :
    (verifySignatures now m keys rf = .panic ↔ ∃ ki ∈ keys, ∃ kv ∈ l, Crashes now m rf ki.1 ki.2 kv.2) ∧
    ((∀ ki ∈ keys, ∀ kv ∈ l, ¬ Crashes now m rf ki.1 ki.2 kv.2) → ∃ rs, verifySignatures now m keys rf = .ok rs ∧
      List.Forall₂ (fun ki r => (∀ n, r = .ok n ↔ FirstWith (Accepts now m rf ki.1 ki.2) l n)) keys rs) := by
  rw [verifySignatures_eq, (extractSignatureHeaders_ok hw l).2 hl]
  simp only [Res.bind_ok, verifyInner]
  have key : ∀ ki : VerifyingKey × Option Str, _ := fun ki => verifyOne_cases (now := now) (k := ki.1) (id := ki.2) hw hf l
  constructor
  · rw [gather_panic, List.mem_map]
    exact ⟨fun ⟨ki, h1, h2⟩ => ⟨ki, h1, (key ki).1.1 h2⟩, fun ⟨ki, h1, h2⟩ => ⟨ki, h1, (key ki).1.2 h2⟩⟩
  · intro hn
    induction keys with
    | nil => exact ⟨[], rfl, .nil⟩
    | cons ki keys ih =>
      obtain ⟨rs, h1, h2⟩ := ih fun ki' h => hn ki' (List.mem_cons_of_mem _ h)
      obtain ⟨k1, k2, _, _, k5⟩ := key ki
      have hn := hn ki (List.mem_cons_self ..)
      have h1 := (gather_ok _ _).1 h1
      cases hr : verifyOne now (l.filterMap (entryOf m rf)) ki.1 ki.2 with
      | panic => obtain ⟨kv, a, b⟩ := k1.1 hr; exact absurd b (hn kv a)
      | ok n =>
        refine ⟨.ok n :: rs, (gather_ok _ _).2 (by rw [List.map_cons, List.map_cons, h1, hr]; rfl), .cons ?_ h2⟩
        intro n'
        have k2 := k2 n'
        rw [hr] at k2
        constructor
        · intro e; injection e with e; exact (k2.1 (by rw [e])).2
        · intro e; have := k2.2 ⟨hn, e⟩; injection this with this; rw [this]
      | err e =>
        refine ⟨.error e :: rs, (gather_ok _ _).2 (by rw [List.map_cons, List.map_cons, h1, hr]; rfl), .cons ?_ h2⟩
        intro n'
        have k2 := k2 n'
        rw [hr] at k2
        constructor
        · intro e; cases e
        · intro e; have := k2.2 ⟨hn, e⟩; cases this

/-- The receiver panics exactly if a key that is found for one signature panics on one with the same key id (on any, if there is no key id). -/
theorem C91_panic (hw : WfHeaders m.headers) (hf : ∀ r, rf = some r → WfHeaders r.headers) (hl : Wire.Carries m.headers l) :
    (∀ e, receive rsa now m rf find ≠ .err e) ∧
    (receive rsa now m rf find = .panic ↔ ∃ x ∈ l, ∃ k, Wire.Found rsa find x.2 k ∧ ∃ y ∈ l, Wire.Checked now m rf k x.2.params.keyid y.2 .panic) := by
  have hl := wireCarries_iff.1 hl
  obtain ⟨fs, _, h2, h3⟩ := keysFor_spec (rsa := rsa) (now := now) (rf := rf) (find := find) hw hl
  rw [h3]
  obtain ⟨a, b⟩ := verifySignatures_cases (now := now) hw hf hl (fs.map fun x => (x.2, x.1.2.params.keyid))
  constructor
  · intro e he
    rw [verifySignatures_eq, (extractSignatureHeaders_ok hw l).2 hl] at he
    exact gather_ne_err _ _ he
  · rw [a]
    constructor
    · rintro ⟨ki, h4, kv, h5, h6⟩
      obtain ⟨x, hx, rfl⟩ := List.mem_map.1 h4
      obtain ⟨h7, h8⟩ := (h2 x.1 x.2).1 hx
      exact ⟨x.1, h7, x.2, h8, kv, h5, wireCrashes_iff.2 h6⟩
    · rintro ⟨x, hx, k, hk, y, hy, h⟩
      exact ⟨_, List.mem_map.2 ⟨(x, k), (h2 x k).2 ⟨hx, hk⟩, rfl⟩, y, hy, wireCrashes_iff.1 h⟩

/-- C91: the results are those of the signatures for which a key is found, in their order. A result names the first signature with the same key
id (the first of all, if there is no key id) that the key accepts. -/
theorem C91_results (hw : WfHeaders m.headers) (hf : ∀ r, rf = some r → WfHeaders r.headers) (hl : Wire.Carries m.headers l)
    {rs : List (Except HyperErr Str)} (h : receive rsa now m rf find = .ok rs) :
    ∃ fs : List ((Str × SigHeaders) × VerifyingKey), (fs.map Prod.fst).Sublist l ∧ (∀ kv k, (kv, k) ∈ fs ↔ kv ∈ l ∧ Wire.Found rsa find kv.2 k) ∧
      List.Forall₂ (fun x r => ∀ n, r = .ok n ↔ FirstWith (fun h => Wire.Checked now m rf x.2 x.1.2.params.keyid h (.ok ())) l n) fs rs := by
  have hl := wireCarries_iff.1 hl
  obtain ⟨fs, h1, h2, h3⟩ := keysFor_spec (rsa := rsa) (now := now) (rf := rf) (find := find) hw hl
  obtain ⟨a, b⟩ := verifySignatures_cases (now := now) hw hf hl (fs.map fun x => (x.2, x.1.2.params.keyid))
  rw [h3] at h
  obtain ⟨rs', c, d⟩ := b (by
    intro ki h4 kv h5 h6
    rw [a.2 ⟨ki, h4, kv, h5, h6⟩] at h; cases h)
  rw [c] at h; injection h with h; subst h
  refine ⟨fs, h1, h2, ?_⟩
  rw [List.forall₂_map_left_iff] at d
  simpa only [wireAccepts_iff] using d

/-- C91: the receiver accepts something exactly if a key that is found for one signature accepts one with the same key id. -/
theorem C91_accepted (hw : WfHeaders m.headers) (hf : ∀ r, rf = some r → WfHeaders r.headers) (hl : Wire.Carries m.headers l)
    {rs : List (Except HyperErr Str)} (h : receive rsa now m rf find = .ok rs) :
    ((∃ n, .ok n ∈ rs) ↔ ∃ x ∈ l, ∃ k, Wire.Found rsa find x.2 k ∧ ∃ y ∈ l, Wire.Checked now m rf k x.2.params.keyid y.2 (.ok ())) ∧
    ∀ n, .ok n ∈ rs → ∃ x ∈ l, ∃ k, Wire.Found rsa find x.2 k ∧ ∃ sh, (n, sh) ∈ l ∧ Wire.Checked now m rf k x.2.params.keyid sh (.ok ()) := by
  obtain ⟨fs, _, h2, h3⟩ := C91_results hw hf hl h
  have sound : ∀ n, .ok n ∈ rs → ∃ x ∈ l, ∃ k, Wire.Found rsa find x.2 k ∧ ∃ sh, (n, sh) ∈ l ∧ Wire.Checked now m rf k x.2.params.keyid sh (.ok ()) := by
    intro n hn
    obtain ⟨x, hx, e⟩ := forall₂_mem_right h3 _ hn
    obtain ⟨h4, h5⟩ := (h2 x.1 x.2).1 hx
    obtain ⟨sh, h6, h7⟩ := firstWith_mem ((e n).1 rfl)
    exact ⟨x.1, h4, x.2, h5, sh, h6, h7⟩
  refine ⟨⟨fun ⟨n, hn⟩ => ?_, ?_⟩, sound⟩
  · obtain ⟨x, hx, k, hk, sh, h4, h5⟩ := sound n hn
    exact ⟨x, hx, k, hk, _, h4, h5⟩
  · rintro ⟨x, hx, k, hk, y, hy, h4⟩
    obtain ⟨r, hr, e⟩ := forall₂_mem_left h3 _ ((h2 x k).2 ⟨hx, hk⟩)
    obtain ⟨n, hn⟩ := (firstWith_exists (q := fun h => Wire.Checked now m rf k x.2.params.keyid h (.ok ()))).2 ⟨y, hy, h4⟩
    exact ⟨n, (e n).2 hn ▸ hr⟩

/-- C91: if keys are found by the key id alone, nothing is lost: some result is a success exactly if verification with some key of the store
and its id succeeds. -/
theorem C91_store (hw : WfHeaders m.headers) (hf : ∀ r, rf = some r → WfHeaders r.headers) (hl : Wire.Carries m.headers l)
    (store : Str → Option VerifyingKey) {rs : List (Except HyperErr Str)} (h : receive rsa now m rf (Wire.byId store) = .ok rs) :
    (∃ n, .ok n ∈ rs) ↔ ∃ i k, store i = some k ∧ ∃ n, verifySignature now m k (some i) rf = .ok n := by
  rw [(C91_accepted hw hf hl h).1]
  have hc := wireCarries_iff.1 hl
  constructor
  · rintro ⟨x, hx, k, ⟨a, ha, hk⟩, y, hy, h4⟩
    have hp : ∀ kv ∈ l, ¬ Wire.Checked now m rf k x.2.params.keyid kv.2 .panic := by
      intro kv hkv hp
      rw [(C91_panic hw hf hl).2.2 ⟨x, hx, k, ⟨a, ha, hk⟩, kv, hkv, hp⟩] at h; cases h
    cases hi : x.2.params.keyid with
    | none => rw [hi] at hk; cases hk
    | some i =>
      rw [hi] at hk h4 hp
      obtain ⟨n, hn⟩ := firstWith_exists.2 ⟨y, hy, wireAccepts_iff.1 h4⟩
      exact ⟨i, k, hk, n, (C10_ok_iff hw hf n).2 ⟨l, hc, fun kv hkv e => hp kv hkv (wireCrashes_iff.2 e), hn⟩⟩
  · rintro ⟨i, k, hk, n, hn⟩
    obtain ⟨l', h1, _, h2⟩ := (C10_ok_iff hw hf n).1 hn
    cases carries_unique hw hc h1
    obtain ⟨sh, h3, h4⟩ := firstWith_mem h2
    have h5 : sh.params.keyid = some i := by
      obtain ⟨_, _, h5, _⟩ := h4
      exact h5 i rfl
    have hex : ∃ a : Option Alg, ∀ x, a = some x ↔ sh.params.alg = some x.toStr ∧ x.available rsa = true := by
      by_cases hx : ∃ x : Alg, sh.params.alg = some x.toStr ∧ x.available rsa = true
      · obtain ⟨x, hx⟩ := hx
        refine ⟨some x, fun y => ⟨?_, ?_⟩⟩
        · rintro ⟨⟩; exact hx
        · rintro ⟨hy, _⟩
          rw [hx.1] at hy
          injection hy with hy
          congr 1
          revert hy; cases x <;> cases y <;> decide
      · exact ⟨none, fun y => ⟨nofun, fun hy => absurd ⟨y, hy⟩ hx⟩⟩
    obtain ⟨a, ha⟩ := hex
    exact ⟨(n, sh), h3, k, ⟨a, ha, by simp [Wire.byId, h5, hk]⟩, (n, sh), h3, by rw [h5]; exact wireAccepts_iff.2 h4⟩

theorem checked_own {k : VerifyingKey} {h : SigHeaders} {o : Res SigErr Unit} :
    Wire.Checked now m rf k h.params.keyid h o ↔ Wire.Checked now m rf k none h o := by
  unfold Wire.Checked Wire.ForKey
  simp

/-- C91: if every signature has its own key id, the results are exact: a signature is named exactly if it is right for the key found for it, and
all results are successes exactly if all signatures with a key are right. -/
theorem C91_own_ids (hw : WfHeaders m.headers) (hf : ∀ r, rf = some r → WfHeaders r.headers) (hl : Wire.Carries m.headers l) (ho : Wire.OwnIds l)
    {rs : List (Except HyperErr Str)} (h : receive rsa now m rf find = .ok rs) :
    (∀ n, .ok n ∈ rs ↔ ∃ sh, (n, sh) ∈ l ∧ Wire.Good rsa now m rf find sh) ∧
    ((∀ r ∈ rs, ∃ n, r = .ok n) ↔ ∀ x ∈ l, ∀ k, Wire.Found rsa find x.2 k → Wire.Good rsa now m rf find x.2) := by
  obtain ⟨fs, _, h2, h3⟩ := C91_results hw hf hl h
  have same : ∀ x ∈ l, ∀ y ∈ l, ∀ k, Wire.Checked now m rf k x.2.params.keyid y.2 (.ok ()) → x = y := by
    rintro x hx y hy k ⟨_, _, h4, _⟩
    rcases h4 with h4 | h4
    · exact absurd h4 (ho.1 x hx)
    · exact ho.2 x hx y hy h4
  have good : ∀ x k, (x, k) ∈ fs → ∀ r : Except HyperErr Str, (∀ n, r = .ok n ↔ FirstWith (fun h => Wire.Checked now m rf k x.2.params.keyid h (.ok ())) l n) →
      ∀ n, r = Except.ok n ↔ n = x.1 ∧ Wire.Good rsa now m rf find x.2 := by
    intro x k hx r hr n
    obtain ⟨h4, h5⟩ := (h2 x k).1 hx
    rw [hr]
    constructor
    · intro e
      obtain ⟨sh, h6, h7⟩ := firstWith_mem e
      have e := same x h4 _ h6 k h7
      subst e
      exact ⟨rfl, k, h5, checked_own.1 h7⟩
    · rintro ⟨rfl, k', h6, h7⟩
      have : k' = k := by
        obtain ⟨a, ha, hk⟩ := h5
        obtain ⟨b, hb, hk'⟩ := h6
        rw [reported_unique ha hb, hk'] at hk
        injection hk
      subst this
      obtain ⟨n, hn⟩ := (firstWith_exists (q := fun h => Wire.Checked now m rf k' x.2.params.keyid h (.ok ()))).2 ⟨x, h4, checked_own.2 h7⟩
      obtain ⟨sh, h8, h9⟩ := firstWith_mem hn
      have e := same x h4 _ h8 k' h9
      subst e
      exact hn
  refine ⟨fun n => ⟨fun hn => ?_, ?_⟩, fun hr x hx k hk => ?_, fun hr r hrs => ?_⟩
  · obtain ⟨x, hx, e⟩ := forall₂_mem_right h3 _ hn
    obtain ⟨rfl, h4⟩ := (good x.1 x.2 hx _ e n).1 rfl
    exact ⟨_, ((h2 x.1 x.2).1 hx).1, h4⟩
  · rintro ⟨sh, h4, k, h5, h6⟩
    have hx := (h2 (n, sh) k).2 ⟨h4, h5⟩
    obtain ⟨r, hr, e⟩ := forall₂_mem_left h3 _ hx
    exact (good _ k hx r e n).2 ⟨rfl, k, h5, h6⟩ ▸ hr
  · have hx' := (h2 x k).2 ⟨hx, hk⟩
    obtain ⟨r, h4, e⟩ := forall₂_mem_left h3 _ hx'
    obtain ⟨n, rfl⟩ := hr r h4
    exact ((good x k hx' _ e n).1 rfl).2
  · obtain ⟨x, hx, e⟩ := forall₂_mem_right h3 _ hrs
    obtain ⟨h4, h5⟩ := (h2 x.1 x.2).1 hx
    exact ⟨x.1.1, (good x.1 x.2 hx r e _).2 ⟨rfl, hr _ h4 _ h5⟩⟩

end

/-! ### Examples -/

/-- One key for one id. -/
def vStore (i : Str) : Option VerifyingKey := if i = c! "k1" then some vKey else none

/-- The keys for `k1` and `k2`. -/
def vStore2 (i : Str) : Option VerifyingKey := if i = c! "k1" ∨ i = c! "k2" then some vKey else none

-- the receiver finds signature `c`, and `b` as long as it is in time
set_option maxRecDepth 10000 in
example : receive true 100 (.req vReq) none (Wire.byId vStore2) = .ok [.ok (c! "c"), .ok (c! "b"), .ok (c! "c")] ∧
    receive true 101 (.req vReq) none (Wire.byId vStore2) = .ok [.ok (c! "c"), .error .invalidSignature, .ok (c! "c")] := by
  decide

-- so a key of the store verifies the request
set_option maxRecDepth 10000 in
example : ∃ i k, vStore i = some k ∧ ∃ n, verifySignature 0 (.req vReq) k (some i) none = .ok n :=
  (C91_store (rsa := true) (m := .req vReq) vReq_wf (by simp) (wireCarries_iff.2 vReq_carries) vStore
    (rs := [.ok (c! "c"), .ok (c! "c")]) (by decide)).1 ⟨_, List.mem_cons_self ..⟩

/-- A message whose signatures have their own key ids. -/
def ownReq : Request where
  method := c! "GET"
  uri := exUri
  headers := [(c! "signature-input", utf8 (c! "a=(\"@method\");keyid=\"k1\", b=(\"@path\");keyid=\"k2\"")),
    (c! "signature", utf8 (c! "a=:Ag==:, b=:AQ==:"))]
  body := .data []

theorem ownReq_wf : WfHeaders ownReq.headers := by
  intro kv hkv
  simp only [ownReq, List.mem_cons, List.not_mem_nil, or_false] at hkv
  rcases hkv with rfl | rfl <;> exact ⟨by decide, by decide, by decide⟩

/-- The signatures of this message. -/
def ownSigs : List (Str × SigHeaders) :=
  [(c! "a", ⟨c! "a", [2], { keyid := some (c! "k1"), covered := [⟨.derived .method, []⟩] }⟩),
   (c! "b", ⟨c! "b", [1], { keyid := some (c! "k2"), covered := [⟨.derived .path, []⟩] }⟩)]

-- here the results say exactly which signatures are right: `b` is, `a` is not
set_option maxRecDepth 10000 in
example : Wire.Good true 0 (.req ownReq) none (Wire.byId vStore2) ownSigs[1].2 ∧ ¬ Wire.Good true 0 (.req ownReq) none (Wire.byId vStore2) ownSigs[0].2 := by
  have hc : Carries ownReq.headers ownSigs := (extractSignatureHeaders_ok (m := .req ownReq) ownReq_wf _).1 (by decide)
  have ho : Wire.OwnIds ownSigs := ⟨by decide, by decide⟩
  obtain ⟨h1, _⟩ := C91_own_ids (rsa := true) (now := 0) (m := .req ownReq) (rf := none) (find := Wire.byId vStore2) ownReq_wf (by simp)
    (wireCarries_iff.2 hc) ho (rs := [.error .invalidSignature, .ok (c! "b")]) (by decide)
  constructor
  · obtain ⟨sh, h2, h3⟩ := (h1 (c! "b")).1 (by simp)
    simp only [ownSigs, List.mem_cons, Prod.mk.injEq, List.not_mem_nil, or_false] at h2
    rcases h2 with ⟨h, _⟩ | ⟨_, rfl⟩
    · exact absurd h (by decide)
    · exact h3
  · intro h
    have := (h1 (c! "a")).2 ⟨_, List.mem_cons_self .., h⟩
    simp only [List.mem_cons, List.not_mem_nil, or_false, reduceCtorEq, false_or, Except.ok.injEq] at this
    revert this; decide

set_option maxRecDepth 10000 in
/-- C91: with a shared key id all results can be successes though a signature for which a key was found is not right. -/
theorem C91_all_false : ∃ l, Wire.Carries vReq.headers l ∧ receive true 0 (.req vReq) none (Wire.byId vStore) = .ok [.ok (c! "c"), .ok (c! "c")] ∧
    ∃ x ∈ l, Wire.Found true (Wire.byId vStore) x.2 vKey ∧ ¬ Wire.Good true 0 (.req vReq) none (Wire.byId vStore) x.2 := by
  refine ⟨vSigs, wireCarries_iff.2 vReq_carries, by decide, _, List.mem_cons_self .., ⟨none, ?_, rfl⟩, ?_⟩
  · intro x; simp
  · rintro ⟨k, _, h⟩
    have h := wireAccepts_iff.1 h
    obtain ⟨t, hb, _⟩ := h
    have := (candidate_iff (m := .req vReq) vReq_wf (by simp) _).1 ⟨⟨t, hb⟩, show ForKey none _ from fun _ h => by cases h⟩
    obtain ⟨b, hb, _⟩ := this
    rw [show buildBase (.req vReq) _ none = .err _ from rfl] at hb
    cases hb

/-- A message with a wrong signature that claims the right algorithm, and a right one that claims another. -/
def mixReq : Request where
  method := c! "GET"
  uri := exUri
  headers := [(c! "signature-input", utf8 (c! "a=(\"@method\");alg=\"ed25519\";keyid=\"k1\", b=(\"@method\");alg=\"hmac-sha256\";keyid=\"k1\"")),
    (c! "signature", utf8 (c! "a=:Ag==:, b=:AQ==:"))]
  body := .data []

theorem mixReq_wf : WfHeaders mixReq.headers := by
  intro kv hkv
  simp only [mixReq, List.mem_cons, List.not_mem_nil, or_false] at hkv
  rcases hkv with rfl | rfl <;> exact ⟨by decide, by decide, by decide⟩

/-- A receiver that insists on the algorithm of the key. -/
def strictFind : Wire.Finder := fun a i => if a = some .ed25519 ∧ i = some (c! "k1") then some vKey else none

set_option maxRecDepth 10000 in
/-- C91: a receiver that finds no key for a claim of another algorithm still accepts such a signature, with the key that it found for another
signature with the same key id. -/
theorem C91_alg_false : ∃ sh, Wire.Carries mixReq.headers [(c! "a", ⟨c! "a", [2], sh⟩), (c! "b", ⟨c! "b", [1], { sh with alg := some (c! "hmac-sha256") }⟩)] ∧
    receive true 0 (.req mixReq) none strictFind = .ok [.ok (c! "b")] ∧
    ∀ k, ¬ Wire.Found true strictFind ⟨c! "b", [1], { sh with alg := some (c! "hmac-sha256") }⟩ k := by
  refine ⟨{ keyid := some (c! "k1"), alg := some (c! "ed25519"), covered := [⟨.derived .method, []⟩] }, ?_, by decide, ?_⟩
  · exact wireCarries_iff.2 ((extractSignatureHeaders_ok (m := .req mixReq) mixReq_wf _).1 (by decide))
  · rintro k ⟨a, ha, hk⟩
    have : a = some .hmacSha256 := (ha .hmacSha256).2 (by decide)
    subst this
    cases hk

end Verif
