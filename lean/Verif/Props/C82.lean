import Verif.Props.C81
import Verif.Props.C10
/-!
C82: the parameters `alg` and `keyid`. They are signed, so they cannot be changed, but verification compares neither with the key.
RFC 9421 section 3.2, step 6, asks for the comparison of `alg`.
-/
namespace Verif
open Spec Sfv

/-- RFC 9421 section 3.2: a given `alg` is the algorithm of the key. -/
def AlgAgrees (vk : VerifyingKey) (p : SigParams) : Prop := ∀ a, p.alg = some a → a = vk.alg.toStr

section
variable {m : Msg} {rf : Option Request} {now : UInt64}

theorem verifyOne_key {map : List (Str × (SigBase × SigHeaders))} {k k' : VerifyingKey} (h : k'.verify = k.verify) (i : Option Str) :
    verifyOne now map k' i = verifyOne now map k i := by
  simp only [verifyOne, SigBase.verify, h]

/-- C82: the outcome of verification does not depend on the algorithm and the key id that the key reports. -/
theorem C82_not_compared {keys keys' : List (VerifyingKey × Option Str)}
    (h : List.Forall₂ (fun k k' => k'.1.verify = k.1.verify ∧ k'.2 = k.2) keys keys') :
    verifySignatures now m keys' rf = verifySignatures now m keys rf ∧
    ∀ k k' : VerifyingKey, k'.verify = k.verify → ∀ id, verifySignature now m k' id rf = verifySignature now m k id rf := by
  have key : ∀ {keys keys' : List (VerifyingKey × Option Str)}, List.Forall₂ (fun k k' => k'.1.verify = k.1.verify ∧ k'.2 = k.2) keys keys' →
      verifySignatures now m keys' rf = verifySignatures now m keys rf := by
    intro keys keys' h
    have : ∀ map, verifyInner now map keys' = verifyInner now map keys := by
      intro map
      unfold verifyInner
      congr 1
      induction h with
      | nil => rfl
      | cons hx _ ih => rw [List.map_cons, List.map_cons, ih, hx.2, verifyOne_key hx.1]
    simp only [verifySignatures, this]
  refine ⟨key h, fun k k' hk id => ?_⟩
  unfold verifySignature
  rw [key (keys := [(k, id)]) (keys' := [(k', id)]) (.cons ⟨hk, rfl⟩ .nil)]

/-- C82: so what is signed verifies whatever algorithm and key id the parameters claim, when no key id is asked for. -/
theorem C82_any_claim (r : Request) (hw : WfHeaders r.headers)
    (h0 : fieldLines r.headers (c! "signature-input") = []) (h0' : fieldLines r.headers (c! "signature") = [])
    {p : SigParams} (hp : SafeParams p) (hs : NotSelf p) {name : Option Str} (hn : LegalKey (name.getD (c! "sig")))
    {a k : Str} (ha : SafeText a) (hk : SafeText k) (alg : Alg) (keyId : Str) {sk : SigningKey} {vk : VerifyingKey} (hkp : KeyPair sk vk)
    {r' : Request} (h : r.setSignature { p with alg := some a, keyid := some k } sk name = (r', .ok ()))
    (ht : ∀ e, p.expires = some e → now ≤ e) :
    r'.verifySignature now ⟨vk.verify, keyId, alg⟩ none = .ok (name.getD (c! "sig")) := by
  refine C01_request r hw h0 h0' (p := { p with alg := some a, keyid := some k }) ?_ hs hn hkp h ht (Or.inl rfl)
  exact ⟨hp.created, hp.expires, hp.nonce, by rintro _ ⟨⟩; exact ha, by rintro _ ⟨⟩; exact hk, hp.tag, hp.ids, hp.distinct⟩

/-- C82: the claims are bound by the signature: if the key accepts only what its holder signed, and the holder signed with these
parameters only, an accepted signature carries them. -/
theorem C82_bound {vk : VerifyingKey} {S : Signing → Prop} (hS : OnlySigned vk S) (hwf : ∀ x, S x → x.Wf ∧ SafeParams x.p)
    (hm : WfMsg m) (hf : ∀ r, rf = some r → WfRequest r) (hsafe : ∀ l, Carries m.headers l → ∀ kv ∈ l, SafeParams kv.2.params)
    {id : Option Str} {n : Str} (h : verifySignature now m vk id rf = .ok n)
    {a k : Option Str} (hx : ∀ x, S x → x.p.alg = a ∧ x.p.keyid = k) :
    ∃ l sh, Wire.Carries m.headers l ∧ (n, sh) ∈ l ∧ sh.params.alg = a ∧ sh.params.keyid = k := by
  obtain ⟨l, sh, h1, h2, x, h3, h4, _⟩ := C09_safe hS hwf hm hf hsafe h
  exact ⟨l, sh, wireCarries_iff.2 h1, h2, h4 ▸ hx x h3⟩

/-- C82: in particular, if the holder uses `set_key_info` with the key that signs, `alg` agrees with the key and `keyid` is its id. -/
theorem C82_key_info {sk : SigningKey} {vk : VerifyingKey} (hk : sk.alg = vk.alg ∧ sk.keyId = vk.keyId) {S : Signing → Prop} (hS : OnlySigned vk S)
    (hwf : ∀ x, S x → x.Wf ∧ SafeParams x.p) (hx : ∀ x, S x → ∃ p : SigParams, x.p = p.setKeyInfo sk)
    (hm : WfMsg m) (hf : ∀ r, rf = some r → WfRequest r) (hsafe : ∀ l, Carries m.headers l → ∀ kv ∈ l, SafeParams kv.2.params)
    {id : Option Str} {n : Str} (h : verifySignature now m vk id rf = .ok n) :
    ∃ l sh, Wire.Carries m.headers l ∧ (n, sh) ∈ l ∧ sh.params.alg = some vk.alg.toStr ∧ AlgAgrees vk sh.params ∧
      sh.params.keyid = some vk.keyId := by
  obtain ⟨l, sh, h1, h2, h3, h4⟩ := C82_bound (a := some vk.alg.toStr) (k := some vk.keyId) hS hwf hm hf hsafe h (by
    intro x hS
    obtain ⟨p, e⟩ := hx x hS
    rw [e, ← hk.1, ← hk.2]
    exact ⟨rfl, rfl⟩)
  exact ⟨l, sh, h1, h2, h3, (fun a e => by rw [h3] at e; injection e with e; exact e.symm), h4⟩

/-- C82: an application that asks `get_alg_key_ids` for the algorithm of the accepted label and compares it with the key makes up for it. -/
theorem C82_checked (rsa : Bool) (hw : WfHeaders m.headers) {vk : VerifyingKey} {r : List (Str × (Option Alg × Option Str))}
    (hr : getAlgKeyIds rsa m = .ok r) {n : Str} {i : Option Str} (hn : (n, (some vk.alg, i)) ∈ r) :
    ∀ l, Wire.Carries m.headers l → ∀ sh, (n, sh) ∈ l → sh.params.alg = some vk.alg.toStr ∧ AlgAgrees vk sh.params := by
  intro l hl sh hsh
  have hl := wireCarries_iff.1 hl
  obtain ⟨l', h1, h2⟩ := (C31_reported rsa hw r).1 hr
  have e1 := (extractSignatureHeaders_ok hw l).2 hl
  have e2 := (extractSignatureHeaders_ok hw l').2 h1
  rw [e1] at e2
  injection e2 with e2; subst e2
  obtain ⟨kv, h3, h4, _, h5⟩ := forall₂_mem_right h2 _ hn
  have h6 := ((h5 vk.alg).1 rfl).1
  have : kv = (n, sh) := by
    have nd := extractSignatureHeaders_nodup e1
    obtain ⟨n', sh'⟩ := kv
    simp only at h4
    subst h4
    exact List.inj_on_of_nodup_map nd h3 hsh rfl
  subst this
  exact ⟨h6, fun a e => by rw [h6] at e; injection e with e; exact e.symm⟩

end

/-! ### Examples -/

/-- Parameters that claim the algorithm `a` and the key id `other`. -/
def c82Params (a : Str) : SigParams := { alg := some a, keyid := some (c! "other"), covered := [⟨.derived .method, []⟩] }

/-- The request signed by the toy key. -/
def c82Req (a : Str) : Request := (exReq.setSignature (c82Params a) (toySign 1) none).1

/-- C82: the step of RFC 9421 is missing: an Ed25519 key accepts a signature that says it was made with `hmac-sha256`, or with an algorithm
that the library does not know, by a key with another id. -/
theorem C82_alg_false (a : Str) (ha : a ∈ [c! "hmac-sha256", c! "hmac-sha512"]) :
    ∃ (r r' : Request) (p : SigParams) (sk : SigningKey) (vk : VerifyingKey), KeyPair sk vk ∧ vk.alg = .ed25519 ∧ p.alg = some a ∧
      r.setSignature p sk none = (r', .ok ()) ∧ r'.verifySignature 0 vk none = .ok (c! "sig") ∧ ¬ AlgAgrees vk p ∧ p.keyid ≠ some vk.keyId := by
  refine ⟨exReq, c82Req a, c82Params a, toySign 1, toyVerify 1, toy_pair 1, rfl, rfl, Prod.ext rfl ?_, ?_, ?_, by simp [c82Params, toyVerify]⟩
  · simp only [List.mem_cons, List.not_mem_nil, or_false] at ha
    rcases ha with rfl | rfl <;> decide +kernel
  · simp only [List.mem_cons, List.not_mem_nil, or_false] at ha
    rcases ha with rfl | rfl <;> decide +kernel
  · simp only [List.mem_cons, List.not_mem_nil, or_false] at ha
    intro h
    rcases ha with rfl | rfl <;> exact absurd (h _ rfl) (by decide)

/-- C82: the accessor reports an unknown algorithm like an absent one, so the comparison must insist on an algorithm. -/
theorem C82_unknown_hidden (rsa : Bool) :
    getAlgKeyIds rsa (.req (c82Req (c! "hmac-sha512"))) = .ok [(c! "sig", (none, some (c! "other")))] ∧
    getAlgKeyIds rsa (.req (c82Req (c! "hmac-sha256"))) = .ok [(c! "sig", (some .hmacSha256, some (c! "other")))] := by
  cases rsa <;> exact ⟨by decide +kernel, by decide +kernel⟩

/-- A signing key with the id and the algorithm of `onlyKey`. -/
def c82Key : SigningKey := ⟨fun _ => .ok [1], c! "k", .ed25519⟩

/-- Parameters with the key information. -/
def c82Info : SigParams := (exParams [⟨.derived .method, []⟩]).setKeyInfo c82Key

theorem c82_safe : SafeParams c82Info where
  created := by intro t h; cases h
  expires := by intro t h; cases h
  nonce := by intro t h; cases h
  alg := by rintro t ⟨⟩; decide
  keyid := by rintro t ⟨⟩; decide
  tag := by intro t h; cases h
  ids := by
    intro i hi
    simp only [c82Info, SigParams.setKeyInfo, exParams, List.mem_singleton] at hi
    subst hi
    exact ⟨⟨by decide, by simp, by simp, by intro f h; cases h⟩, (by intro f h; cases h), (by simp), by simp⟩
  distinct := by simp [c82Info, SigParams.setKeyInfo, exParams]

/-- The signed text. -/
def c82Text : Str := c! "\"@method\": POST\n\"@signature-params\": (\"@method\");alg=\"ed25519\";keyid=\"k\""

/-- The signed request. -/
def c82Signed : Request := { exReq with headers := exReq.headers ++ sigLines ⟨c! "sig", [1], c82Info⟩ }

theorem c82_only : OnlySigned (onlyKey c82Text) (· = ⟨.req exReq, none, c82Info⟩) := by
  refine onlyKey_spec (x := ⟨.req exReq, none, c82Info⟩) ?_
  refine (buildBase_spec (m := .req exReq) (rf := none) exReq_wf (by simp) c82Text).1 ?_
  exact ⟨⟨[⟨⟨.derived .method, []⟩, .plain (c! "POST")⟩], c82Info⟩, by decide +kernel, by decide +kernel⟩

theorem c82Signed_wf : WfRequest c82Signed where
  headers := by
    intro kv hkv
    rcases List.mem_append.1 hkv with h | h
    · exact exReq_wf kv h
    · have : ∀ kv ∈ sigLines ⟨c! "sig", [1], c82Info⟩, kv.1 ∈ [c! "signature", c! "signature-input"] := by decide +kernel
      have := this kv h
      simp only [List.mem_cons, List.not_mem_nil, or_false] at this
      rcases this with e | e <;> rw [e] <;> exact ⟨by decide, by decide, by decide⟩
  method := exReq_wfReq.method
  uri := exReq_wfReq.uri

-- the hypotheses of `C82_key_info` and of `C82_checked` hold for it
example : ∃ l sh, Wire.Carries c82Signed.headers l ∧ (c! "sig", sh) ∈ l ∧ sh.params.alg = some (c! "ed25519") ∧
    AlgAgrees (onlyKey c82Text) sh.params ∧ sh.params.keyid = some (c! "k") :=
  C82_key_info (m := .req c82Signed) (rf := none) (now := 0) (sk := c82Key) (vk := onlyKey c82Text) (id := none) ⟨rfl, rfl⟩ c82_only
    (by rintro x rfl; exact ⟨⟨exReq_wfReq, (by simp), safe_one_line c82_safe⟩, c82_safe⟩)
    (by rintro x rfl; exact ⟨exParams [⟨.derived .method, []⟩], rfl⟩)
    c82Signed_wf (by simp)
    (by
      intro l hl kv hkv
      have h1 := (extractSignatureHeaders_ok (m := .req c82Signed) c82Signed_wf.headers l).2 hl
      have h2 : extractSignatureHeaders (.req c82Signed) = .ok [(c! "sig", ⟨c! "sig", [1], c82Info⟩)] := by decide +kernel
      rw [h2] at h1
      injection h1 with h1
      rw [← h1, List.mem_singleton] at hkv
      subst hkv
      exact c82_safe)
    (by decide +kernel)
example : ∀ l, Wire.Carries c82Signed.headers l → ∀ sh, (c! "sig", sh) ∈ l → sh.params.alg = some (c! "ed25519") := fun l hl sh h =>
  (C82_checked (m := .req c82Signed) false c82Signed_wf.headers (vk := onlyKey c82Text) (i := some (c! "k")) (r := [(c! "sig", (some .ed25519, some (c! "k")))])
    (by decide +kernel) (by simp [onlyKey]) l hl sh h).1

end Verif
