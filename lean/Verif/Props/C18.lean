import Verif.Props.C10
import Verif.Props.C16
import Verif.Props.C19
import Verif.Props.C40
import Verif.Proofs.Sign
/-!
C18 The internal `unreachable!`, `unwrap` and indexing sites do not fire. In the model each such site is a `panic` value; the
theorems say that the surrounding function does not panic, or that its panics all come from a call that can panic for a reason of
its own (treated in C16 and C17).
-/
namespace Verif
open Sfv Spec

/-- C18, signature_base.rs 85: when the two dictionaries pass the tests at 42-73, every label of Signature-Input has a byte sequence
in the Signature dictionary, so the `unreachable!` arm is not taken. -/
theorem C18_label_found {a b : Dict} {s : Str} (ha : parseDict s = some a)
    (hlen : a.length = b.length) (hin : ∀ kv ∈ a, ∃ e, (kv.1, e) ∈ b) (hby : ∀ kv ∈ a, ∃ x ps, kv.2 = .item ⟨.bytes x, ps⟩) :
    ∀ kv ∈ b, ∃ x ps, (kv.1, Entry.item ⟨.bytes x, ps⟩) ∈ a := by
  have na := (parseDict_legal ha).1
  have hsub : ∀ k ∈ a.map Prod.fst, k ∈ b.map Prod.fst := by
    intro k hk
    obtain ⟨kv, hkv, rfl⟩ := List.mem_map.1 hk
    obtain ⟨e, he⟩ := hin kv hkv
    exact List.mem_map.2 ⟨_, he, rfl⟩
  have hp : (a.map Prod.fst).Perm (b.map Prod.fst) :=
    (List.subperm_of_subset na hsub).perm_of_length_le (by simp [hlen])
  intro kv hkv
  have : kv.1 ∈ a.map Prod.fst := hp.mem_iff.2 (List.mem_map_of_mem hkv)
  obtain ⟨kv', h1, h2⟩ := List.mem_map.1 this
  obtain ⟨x, ps, hx⟩ := hby kv' h1
  refine ⟨x, ps, ?_⟩
  rw [← h2, ← hx]; exact h1

/-- C18, signature_base.rs 85: a panic while parsing the headers is a panic of `HttpSignatureParams::try_from` on one of the members
of Signature-Input. -/
theorem C18_try_parse (s t : Str) (h : SigHeaders.tryParse s t = .panic) :
    ∃ b, parseDict t = some b ∧ ∃ kv ∈ b, SigParams.ofEntry kv.2 = .panic := by
  obtain ⟨_, b, _, hb, _, _, _, b1, kv, b2, e, _, hp⟩ := (C16_headers_panic_iff s t).1 h
  exact ⟨b, hb, kv, by rw [e]; simp, hp⟩

/-- C18, component.rs 97-133: building a component from any identifier and any values does not panic. -/
theorem C18_component (i : CId) (vs : List Str) : Component.build i vs ≠ .panic := build_ne_panic i vs

/-- C18, hyper_http.rs 795 and all of component extraction: building the signature base does not panic for any message, parameters and
corresponding request. -/
theorem C18_base (m : Msg) (p : SigParams) (rf : Option Request) : buildBase m p rf ≠ .panic := buildBase_ne_panic m p rf

/-- C18, hyper_http.rs 327 and 457: a batch verification that returns gives one result per key, so the popped list of a single key
is not empty. -/
theorem C18_one_each (now : UInt64) (m : Msg) (keys : List (VerifyingKey × Option Str)) (rf : Option Request)
    (rs : List (Except HyperErr Str)) (h : verifySignatures now m keys rf = .ok rs) : rs.length = keys.length := by
  rw [verifySignatures_eq] at h
  obtain ⟨l, _, h⟩ := Res.bind_eq_ok.1 h
  unfold verifyInner at h
  have := congrArg List.length ((gather_ok _ _).1 h)
  simpa using this.symm

/-- C18, hyper_http.rs 327 and 457: `verify_message_signature` panics only when the batch call inside it panics. -/
theorem C18_pop (now : UInt64) (m : Msg) (k : VerifyingKey) (i : Option Str) (rf : Option Request)
    (h : verifySignature now m k i rf = .panic) : verifySignatures now m [(k, i)] rf = .panic := by
  rcases Res.bind_eq_panic.1 h with h | ⟨rs, h1, h2⟩
  · exact h
  · exfalso
    have hl := C18_one_each now m _ rf rs h1
    match rs, hl with
    | [r], _ => cases r <;> cases h2

/-- C18, hyper_http.rs 691: the verification of one key panics only when a candidate's own verification panics. -/
theorem C18_first (now : UInt64) (map : List (Str × (SigBase × SigHeaders))) (k : VerifyingKey) (i : Option Str)
    (h : verifyOne now map k i = .panic) : ∃ x ∈ map, k.verify x.2.1.bytes x.2.2.signature = .panic := by
  unfold verifyOne at h
  simp only at h
  split at h
  · cases h
  split at h
  · split at h <;> cases h
  · cases h
  · rename_i hp
    obtain ⟨x, hx, hxp⟩ := Res.filterOk_panic.1 hp
    have hm : x ∈ map := by
      unfold filterKeyId at hx
      split at hx
      · exact (List.mem_filter.1 hx).1
      · exact hx
    have hv := tryOne_panic.1 hxp
    unfold SigBase.verify at hv
    split at hv
    · cases hv
    · exact ⟨x, hm, hv⟩

/-- C18, hyper_content_digest.rs 124 and 179: the digest header value is always accepted. -/
theorem C18_set_digest (t : DigestType) (h : Headers) (body : Body) : setDigest t h body ≠ .panic := by
  cases body with
  | fail => simp [setDigest]
  | data b => rw [setDigest_data]; simp

/-- C18, hyper_content_digest.rs 233 and 253: reading the digest header does not panic. -/
theorem C18_extract_digest (h : Headers) : extractDigest h ≠ .panic := by
  intro hp
  apply C20_never_panics h .fail
  unfold verifyDigest
  rw [hp]; rfl

/-- C18, signing: `set_message_signatures` panics exactly when all bases can be built and one of the keys panics on its base. -/
theorem C18_signing (m : Msg) (l : List (SigParams × SigningKey × Option Str)) (rf : Option Request) :
    (setSignatures m l rf).2 = .panic ↔
      (∀ x ∈ l, ∃ b, buildBase m x.1 rf = .ok b) ∧ ∃ x ∈ l, ∃ b, buildBase m x.1 rf = .ok b ∧ x.2.1.sign b.bytes = .panic := by
  have hs : ∀ bs, signBases m l rf = .ok bs → (signAll bs = .panic ↔ ∃ b ∈ bs, b.2.1.sign b.1.bytes = .panic) := by
    intro bs _
    unfold signAll
    rw [Res.bind_eq_panic, gather_panic]
    constructor
    · rintro (h | ⟨rs, _, h⟩)
      · obtain ⟨b, hb, h⟩ := List.mem_map.1 h
        refine ⟨b, hb, ?_⟩
        rcases Res.bind_eq_panic.1 h with h | ⟨_, _, h⟩
        · exact h
        · cases h
      · exact absurd h (collect_ne_panic (by intro r; cases r <;> simp) _)
    · rintro ⟨b, hb, h⟩
      left
      refine List.mem_map.2 ⟨b, hb, ?_⟩
      unfold SigBase.headers SigBase.rawSignature
      rw [h]; rfl
  have hnp : signBases m l rf ≠ .panic := by
    refine collect_ne_panic (fun x hx => ?_) _
    rcases Res.bind_eq_panic.1 hx with h | ⟨_, _, h⟩
    · exact buildBase_ne_panic _ _ _ h
    · cases h
  have hiff : (setSignatures m l rf).2 = .panic ↔ ∃ bs, signBases m l rf = .ok bs ∧ signAll bs = .panic := by
    unfold setSignatures
    cases hb : signBases m l rf with
    | panic => exact absurd hb hnp
    | err e => simp
    | ok bs =>
      simp only [Res.bind_ok, Res.ok.injEq, exists_eq_left']
      cases hg : signAll bs with
      | panic => simp
      | err e => simp
      | ok hh =>
        simp only
        rcases appendAll_eq m.headers hh with ⟨_, h⟩ | ⟨_, _, _, _, _, _, h⟩ <;> rw [h] <;> simp
  rw [hiff]
  constructor
  · rintro ⟨bs, h1, h2⟩
    have hf := signBases_ok.1 h1
    obtain ⟨b, hb, hp⟩ := (hs bs h1).1 h2
    obtain ⟨x, hx, e1, e2⟩ := forall₂_mem_right hf b hb
    refine ⟨?_, x, hx, b.1, e1, by rw [← e2]; exact hp⟩
    intro y hy
    obtain ⟨c, _, hc, _⟩ := forall₂_mem_left hf y hy
    exact ⟨_, hc⟩
  · rintro ⟨hall, x, hx, b, hb, hp⟩
    have : ∃ bs, signBases m l rf = .ok bs := by
      suffices h : ∃ bs : List (SigBase × SigningKey × Option Str),
          List.Forall₂ (fun x b => buildBase m x.1 rf = .ok b.1 ∧ b.2 = x.2) l bs by
        obtain ⟨bs, h⟩ := h
        exact ⟨bs, signBases_ok.2 h⟩
      clear hx hs hnp hiff
      induction l with
      | nil => exact ⟨[], .nil⟩
      | cons y t ih =>
        obtain ⟨c, hc⟩ := hall y (by simp)
        obtain ⟨cs, hcs⟩ := ih (fun z hz => hall z (by simp [hz]))
        exact ⟨(c, y.2) :: cs, .cons ⟨hc, rfl⟩ hcs⟩
    obtain ⟨bs, h1⟩ := this
    obtain ⟨c, hc, e1, e2⟩ := forall₂_mem_left (signBases_ok.1 h1) x hx
    refine ⟨bs, h1, (hs bs h1).2 ⟨c, hc, ?_⟩⟩
    rw [hb] at e1; injection e1 with e1
    rw [e2, ← e1]; exact hp

/-- C18, signing: with a shared key signing does not panic. -/
theorem C18_signing_shared (m : Msg) (l : List (SigParams × SharedKey × Option Str)) (rf : Option Request) :
    (setSignatures m (l.map (fun x => (x.1, x.2.1.signing, x.2.2))) rf).2 ≠ .panic := by
  rw [Ne, C18_signing]
  rintro ⟨_, x, hx, b, _, h⟩
  obtain ⟨y, _, rfl⟩ := List.mem_map.1 hx
  obtain ⟨p, k, n⟩ := y
  cases k; cases h

-- the sites are reached with data that is close to the edge and they do not fire
example : SigHeaders.tryParse (c! "a=:AQ==:, b=:AQ==:") (c! "b=(), a=()") ≠ .panic := by decide
example : SigHeaders.tryParse (c! "a=:AQ==:, b=:AQ==:") (c! "a=(), a=(), c=()") ≠ .panic := by decide
example : Component.build ⟨.derived .method, []⟩ [] = .err .invalidComponent := by decide
example : extractDigest [(c! "content-digest", utf8 (c! "sha-256=1"))] = .err .invalidHeaderValue := by decide
example : ∃ a b, parseDict (c! "a=:AQ==:, b=:Ag==:") = some a ∧ parseDict (c! "b=(), a=()") = some b ∧ a.length = b.length ∧
    ∀ kv ∈ a, ∃ e, (kv.1, e) ∈ b :=
  ⟨[(c! "a", .item ⟨.bytes [1], []⟩), (c! "b", .item ⟨.bytes [2], []⟩)], [(c! "b", .inner ⟨[], []⟩), (c! "a", .inner ⟨[], []⟩)],
    by decide, by decide, rfl, by simp⟩

end Verif
