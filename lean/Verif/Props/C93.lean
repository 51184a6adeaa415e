import Verif.Model.Blocking
import Verif.Props.C36
import Verif.Props.C65
/-!
C93: the blocking wrappers.
-/
namespace Verif
open Spec

section
variable {α : Type} {run : Bool → α → Prop} {bad : α}

/-- C93: a blocking call leaves the thread as it was, whatever its outcome. -/
theorem C93_flag {e e' : Bool} {a : α} (h : BlockOn run bad e a e') : e' = e := by cases h <;> rfl

/-- C93: a blocking call panics inside a `block_on` of crate futures, wherever that is; else it is the asynchronous call. -/
theorem C93_nested {fs : List Runtime} {a : α} :
    Within (fun e a => ∃ e', BlockOn run bad e a e') bad fs false a ↔ if Runtime.futures ∈ fs then a = bad else run true a := by
  have inside : ∀ (fs : List Runtime) (a : α), Within (fun e a => ∃ e', BlockOn run bad e a e') bad fs true a ↔ a = bad := by
    intro fs
    induction fs with
    | nil =>
      intro a
      constructor
      · rintro ⟨e', h⟩; cases h; rfl
      · rintro rfl; exact ⟨true, .refused⟩
    | cons f fs ih =>
      intro a
      cases f with
      | other => exact ih a
      | futures =>
        constructor
        · rintro ⟨e', h⟩; cases h; rfl
        · rintro rfl; exact ⟨true, .refused⟩
  induction fs with
  | nil =>
    rw [if_neg (by simp)]
    constructor
    · rintro ⟨e', h⟩; cases h; assumption
    · intro h; exact ⟨false, .ran h⟩
  | cons f fs ih =>
    cases f with
    | other =>
      have : (Runtime.futures ∈ Runtime.other :: fs) ↔ Runtime.futures ∈ fs := by simp
      simp only [this]; exact ih
    | futures =>
      rw [if_pos (by simp)]
      constructor
      · rintro ⟨e', h⟩; cases h; rename_i h; exact (inside fs a).1 h
      · rintro rfl; exact ⟨false, .ran ((inside fs _).2 rfl)⟩
end

variable {m : Msg} {rf : Option Request}

/-- C93, signing: outside of crate futures the blocking call does what the asynchronous one does, inside it panics and the message stays as it was. -/
theorem C93_set {l : Signers} {fs : List Runtime} {h : Headers} {r : Res HyperErr Unit} :
    Within (SetSync m l rf) (m.headers, .panic) fs false (h, r) ↔
      (h, r) = if Runtime.futures ∈ fs then (m.headers, .panic) else setSignatures m (l true) rf := by
  refine C93_nested.trans ?_
  split
  · rfl
  · exact (C36_set m (l true) rf h r).trans eq_comm

/-- C93, verification with several keys. -/
theorem C93_verify {now : UInt64} {keys : Verifiers} {fs : List Runtime} {o : Res HyperErr (List (Except HyperErr Str))} :
    Within (VerifySync now m keys rf) .panic fs false o ↔ o = if Runtime.futures ∈ fs then .panic else verifySignatures now m (keys true) rf := by
  refine C93_nested.trans ?_
  split
  · rfl
  · exact C36_verify now m (keys true) rf o

/-- C93, verification with one key. -/
theorem C93_verify_one {now : UInt64} {k : Bool → VerifyingKey} {id : Option Str} {fs : List Runtime} {o : Res HyperErr Str} :
    Within (VerifyOneSync now m k id rf) .panic fs false o ↔ o = if Runtime.futures ∈ fs then .panic else verifySignature now m (k true) id rf := by
  refine C93_nested.trans ?_
  split
  · rfl
  · unfold VerifyOneAsync
    simp only [C36_verify, exists_eq_left]
    rfl

/-- C93: a signing key that waits with `block_on` never signs in a blocking call, though it signs in an asynchronous one (on a thread that is not inside
crate futures). -/
theorem C93_waiting_signer {p : SigParams} {k : SigningKey} {n : Option Str} {h : Headers} (hs : setSignature m p k n rf = (h, .ok ())) :
    SetAsync m (fun e => [(p, waitingSigner k e, n)]) rf false (h, .ok ()) ∧
    ∀ a, SetSync m (fun e => [(p, waitingSigner k e, n)]) rf false a ↔ a = (m.headers, .panic) := by
  refine ⟨(C36_set _ _ _ _ _).2 hs, ?_⟩
  rintro ⟨h', r'⟩
  have := C93_set (m := m) (rf := rf) (l := fun e => [(p, waitingSigner k e, n)]) (fs := []) (h := h') (r := r')
  rw [show SetSync m (fun e => [(p, waitingSigner k e, n)]) rf false (h', r') ↔ _ from this, if_neg (by simp)]
  suffices setSignatures m [(p, waitingSigner k true, n)] rf = (m.headers, .panic) by rw [this]
  unfold setSignature setSignatures at hs
  unfold setSignatures
  cases hb : buildBase m p rf with
  | err e => simp [signBases, Res.collect, hb] at hs
  | panic => simp [signBases, Res.collect, hb] at hs
  | ok b => simp [signBases, Res.collect, hb, signAll, gather, SigBase.headers, SigBase.rawSignature, waitingSigner]

/-- C93: a verifying key that waits with `block_on`: a blocking call panics exactly if there is a signature to ask the key about. -/
theorem C93_waiting_verifier {now : UInt64} {k : VerifyingKey} {id : Option Str} {l : List (Str × SigHeaders)} (hw : WfHeaders m.headers)
    (hf : ∀ r, rf = some r → WfHeaders r.headers) (hl : Wire.Carries m.headers l) :
    VerifyOneSync now m (waitingVerifier k) id rf false .panic ↔ ∃ kv ∈ l, Wire.Candidate m rf id kv.2 ∧ Wire.InTime now kv.2 := by
  have := C93_verify_one (now := now) (m := m) (rf := rf) (k := waitingVerifier k) (id := id) (fs := []) (o := .panic)
  rw [show VerifyOneSync now m (waitingVerifier k) id rf false .panic ↔ _ from this, if_neg (by simp), eq_comm, verifySignature_eq,
    (extractSignatureHeaders_ok hw l).2 (wireCarries_iff.1 hl), Res.bind_ok, (verifyOne_cases hw hf l).1]
  constructor
  · rintro ⟨kv, hkv, t, h1, h2, h3, _⟩
    exact ⟨kv, hkv, wireCandidate_iff.2 ⟨⟨t, h1⟩, h2⟩, wireInTime_iff.2 h3⟩
  · rintro ⟨kv, hkv, h1, h2⟩
    obtain ⟨⟨t, h1⟩, h3⟩ := wireCandidate_iff.1 h1
    exact ⟨kv, hkv, t, h1, h3, wireInTime_iff.1 h2, rfl⟩

/-! ### Cases -/

/-- C93: the comments on the blocking traits (hyper_http.rs 142-145, 184-187) say that all methods panic within an async runtime. In a task of another
runtime the call on this message succeeds. -/
theorem C93_comment_false : ∃ (now : UInt64) (m : Msg) (k : VerifyingKey) (n : Str), ∀ o,
    Within (VerifyOneSync now m (fun _ => k) none none) .panic [.other] false o ↔ o = .ok n := by
  refine ⟨101, .req vReq, vKey, c! "c", fun o => ?_⟩
  rw [C93_verify_one, if_neg (by decide), vReq_outcomes.2.1]

-- inside crate futures, also with another runtime in between
example : Within (VerifyOneSync 101 (.req vReq) (fun _ => vKey) none none) .panic [.other, .futures, .other] false .panic := by
  rw [C93_verify_one]; rfl
example : Within (SetSync (.req exReq) (fun _ => [(wParams (c! "k") wIds, toySign 7, none)]) none) (exReq.headers, .panic) [.futures] false (exReq.headers, .panic) :=
  (C93_set (m := .req exReq)).2 rfl
-- on a plain thread
example : ∃ h, h ≠ exReq.headers ∧
    Within (SetSync (.req exReq) (fun _ => [(wParams (c! "k") wIds, toySign 7, none)]) none) (exReq.headers, .panic) [] false (h, .ok ()) := by
  refine ⟨_, ?_, (C93_set (m := .req exReq)).2 rfl⟩
  decide +kernel
-- keys that wait
example : SetSync (.req exReq) (fun e => [(wParams (c! "k") wIds, waitingSigner (toySign 7) e, none)]) none false (exReq.headers, .panic) :=
  ((C93_waiting_signer (m := .req exReq) (k := toySign 7) rfl).2 _).2 rfl
example : VerifyOneSync 101 (.req vReq) (waitingVerifier vKey) none none false .panic := by
  refine (C93_waiting_verifier (m := .req vReq) vReq_wf (by simp) (wireCarries_iff.2 vReq_carries)).2 ?_
  obtain ⟨l, h1, _, l1, h, l2, rfl, ⟨t, h2, h3, h4, _⟩, _⟩ := (C10_ok_iff (m := .req vReq) vReq_wf (by simp) _).1 vReq_outcomes.2.1
  exact ⟨(c! "c", h), (by rw [← carries_unique vReq_wf h1 vReq_carries]; simp), wireCandidate_iff.2 ⟨⟨t, h2⟩, h3⟩, wireInTime_iff.2 h4⟩

end Verif
