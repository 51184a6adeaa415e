import Verif.Spec.Frames
import Verif.Props.C19
/-!
C60: content digests of bodies that arrive in frames.
-/
namespace Verif
open Spec

theorem push_toBytes (c : Collected) (f : Frame) : (c.push f).toBytes = c.toBytes ++ dataOf (.frame f) := by
  unfold Collected.push Collected.toBytes dataOf
  cases f with
  | data b => simp only; split <;> simp_all
  | trailers h => simp

/-- Enough polls end the collection, with what the stream says. -/
theorem collectN_spec (s : Stream) : ∀ (n : Nat) (c : Collected), BodyPoll.error ∉ s → waits s < n →
    ∃ c', collectN n c s = some (.ok c') ∧ c'.toBytes = c.toBytes ++ content s := by
  induction s with
  | nil =>
    intro n c _ hn
    obtain ⟨n, rfl⟩ : ∃ k, n = k + 1 := ⟨n - 1, by omega⟩
    exact ⟨c, rfl, by simp [content]⟩
  | cons a t ih =>
    intro n c he hn
    obtain ⟨n, rfl⟩ : ∃ k, n = k + 1 := ⟨n - 1, by omega⟩
    have ht : BodyPoll.error ∉ t := fun h => he (List.mem_cons_of_mem _ h)
    cases a with
    | error => exact absurd (by simp) he
    | pending =>
      obtain ⟨c', h1, h2⟩ := ih n c ht (by simp [waits] at hn ⊢; omega)
      exact ⟨c', h1, by simpa [content, dataOf] using h2⟩
    | frame f =>
      obtain ⟨c', h1, h2⟩ := ih (n + 1) (c.push f) ht (by simpa [waits] using hn)
      exact ⟨c', h1, by rw [h2, push_toBytes]; simp [content]⟩

theorem collectN_fail (s : Stream) : ∀ (n : Nat) (c : Collected), BodyPoll.error ∈ s → waits s < n →
    collectN n c s = some (.error ()) := by
  induction s with
  | nil => intro n c he; simp at he
  | cons a t ih =>
    intro n c he hn
    obtain ⟨n, rfl⟩ : ∃ k, n = k + 1 := ⟨n - 1, by omega⟩
    cases a with
    | error => rfl
    | pending =>
      exact ih n c (by simpa using he) (by simp [waits] at hn ⊢; omega)
    | frame f =>
      exact ih (n + 1) (c.push f) (by simpa using he) (by simpa [waits] using hn)

/-- However few polls there were, a finished collection has the result of a complete one. -/
theorem collectN_mono (s : Stream) (r : Except Unit Collected) : ∀ (n m : Nat) (c : Collected), n ≤ m → collectN n c s = some r →
    collectN m c s = some r := by
  suffices H : ∀ (n m : Nat) (c : Collected) (s : Stream), n ≤ m → collectN n c s = some r → collectN m c s = some r from
    fun n m c => H n m c s
  intro n
  induction n with
  | zero => intro m c s _ h; cases h
  | succ n ih =>
    intro m c s hm h
    obtain ⟨m, rfl⟩ : ∃ k, m = k + 1 := ⟨m - 1, by omega⟩
    unfold collectN at h ⊢
    split at h
    · exact h
    · exact h
    · exact ih m _ _ (by omega) h

/-- C60: collecting a body ends after one poll more than the body makes its reader wait, and gives the data in order or the failure. -/
theorem C60_into_bytes (s : Stream) (n : Nat) (hn : waits s < n) :
    intoBytes n s = some (if BodyPoll.error ∈ s then .error () else .ok (content s)) := by
  unfold intoBytes
  by_cases he : BodyPoll.error ∈ s
  · rw [collectN_fail s n _ he hn, if_pos he]
  · obtain ⟨c', h1, h2⟩ := collectN_spec s n {} he hn
    rw [h1, if_neg he]
    simp only [Option.some.injEq, Except.ok.injEq]
    rw [h2]; rfl

/-- C60: with fewer polls it is pending or has already that result. -/
theorem C60_early (s : Stream) (n : Nat) (r : Except Unit Bytes) (h : intoBytes n s = some r) :
    r = if BodyPoll.error ∈ s then .error () else .ok (content s) := by
  have hm : intoBytes (max n (waits s + 1)) s = some r := by
    unfold intoBytes at h ⊢
    cases hc : collectN n {} s with
    | none => rw [hc] at h; cases h
    | some x =>
      rw [hc] at h
      rw [collectN_mono s x n _ {} (Nat.le_max_left _ _) hc]
      exact h
  rw [C60_into_bytes s _ (by omega)] at hm
  exact (Option.some.inj hm).symm

/-- C60: bytes and digest text of a body. -/
theorem C60_bytes_with_digest (s : Stream) (n : Nat) (hn : waits s < n) (t : DigestType) (he : BodyPoll.error ∉ s) :
    intoBytesWithDigest n t s = some (.ok (content s, Base64.encode (hashOf t (content s)))) := by
  unfold intoBytesWithDigest
  rw [C60_into_bytes s n hn, if_neg he]
  simp only [deriveDigest_hashOf]

theorem fullStream_content (b : Bytes) : content (fullStream b) = b := by
  unfold fullStream
  split <;> simp_all [content, dataOf]

theorem fullStream_plain (b : Bytes) : NoTrailers (fullStream b) ∧ BodyPoll.error ∉ fullStream b ∧ waits (fullStream b) = 0 := by
  unfold fullStream NoTrailers waits
  split <;> simp

/-- The result of the frame-free model, with the body as the stream that `Full` gives. -/
def framed : Res DigestErr (Headers × Body) → Res DigestErr (Headers × Stream)
  | .ok (h, .data b) => .ok (h, fullStream b)
  | .ok (h, .fail) => .ok (h, [.error])
  | .err e => .err e
  | .panic => .panic

/-- C60: on frames, `set_content_digest` does what the model of C19-C21 does on the collected body. -/
theorem C60_set (t : DigestType) (h : Headers) (s : Stream) (n : Nat) (hn : waits s < n) :
    setDigestF n t h s = some (framed (setDigest t h (asBody s))) := by
  unfold setDigestF asBody
  by_cases he : BodyPoll.error ∈ s
  · unfold intoBytesWithDigest
    rw [C60_into_bytes s n hn, if_pos he, if_pos he]
    rfl
  · rw [C60_bytes_with_digest s n hn t he, if_neg he]
    have : t.toStr ++ c! "=:" ++ Base64.encode (hashOf t (content s)) ++ c! ":" = digestText t (content s) := by
      unfold digestText
      rw [deriveDigest_hashOf]
      simp
    simp only [this]
    rw [setDigest_data, hvOfStr_printable (digestText_printable t _)]
    rfl

/-- C60: and so does `verify_content_digest`. -/
theorem C60_verify (h : Headers) (s : Stream) (n : Nat) (hn : waits s < n) :
    verifyDigestF n h s = some (framed (verifyDigest h (asBody s))) := by
  unfold verifyDigestF verifyDigest asBody
  cases extractDigest h with
  | err e => simp only [if_neg (show ¬ n = 0 by omega)]; rfl
  | panic => simp only [if_neg (show ¬ n = 0 by omega)]; rfl
  | ok te =>
    simp only [Res.bind_ok]
    rw [C60_into_bytes s n hn]
    by_cases he : BodyPoll.error ∈ s
    · simp only [if_pos he]; rfl
    · simp only [if_neg he]
      split <;> rfl

/-- C60: how the body is cut into frames, where it waits and which trailers it has does not matter. -/
theorem C60_framing_irrelevant (h : Headers) (s s' : Stream) (n n' : Nat) (hn : waits s < n) (hn' : waits s' < n')
    (he : BodyPoll.error ∈ s ↔ BodyPoll.error ∈ s') (hc : content s = content s') (t : DigestType) :
    setDigestF n t h s = setDigestF n' t h s' ∧ verifyDigestF n h s = verifyDigestF n' h s' := by
  have : asBody s = asBody s' := by unfold asBody; simp only [he, hc]
  rw [C60_set t h s n hn, C60_set t h s' n' hn', C60_verify h s n hn, C60_verify h s' n' hn', this]
  exact ⟨rfl, rfl⟩

theorem framed_ok {r : Res DigestErr (Headers × Body)} {h : Headers} {s : Stream} (hr : framed r = .ok (h, s)) :
    (∃ b, r = .ok (h, .data b) ∧ s = fullStream b) ∨ (r = .ok (h, .fail) ∧ s = [.error]) := by
  unfold framed at hr
  split at hr <;> simp_all

/-- C60: a successful verification means that the first Content-Digest line states the hash of all data, and gives back the same headers
and the same data, in at most one frame and without the trailers. -/
theorem C60_verify_exact (h h' : Headers) (s s' : Stream) (n : Nat) (hn : waits s < n) :
    verifyDigestF n h s = some (.ok (h', s')) ↔
      BodyPoll.error ∉ s ∧ h' = h ∧ s' = (if content s = [] then [] else [.frame (.data (content s))]) ∧
        ∃ t v, (lines h (c! "content-digest")).head? = some v ∧ States v t (hashOf t (content s)) := by
  rw [C60_verify h s n hn, Option.some.injEq]
  constructor
  · intro hr
    rcases framed_ok hr with ⟨b, hb, rfl⟩ | ⟨hb, _⟩
    · obtain ⟨rfl, hbody, b', t, v, hb', hv, hs⟩ := (verifyDigest_ok _ _ _ _).1 hb
      unfold asBody at hb' hbody
      split at hb'
      · cases hb'
      · rename_i he
        rw [if_neg he] at hbody
        injection hb' with hb'
        injection hbody with hbody
        subst hb' hbody
        exact ⟨he, rfl, rfl, t, v, hv, hs⟩
    · obtain ⟨_, hf, b', _, _, hb', _⟩ := (verifyDigest_ok _ _ _ _).1 hb
      rw [hb'] at hf; cases hf
  · rintro ⟨he, rfl, rfl, t, v, hv, hs⟩
    rw [(verifyDigest_ok h' h' (asBody s) (.data (content s))).2
      ⟨rfl, by unfold asBody; rw [if_neg he], content s, t, v, by unfold asBody; rw [if_neg he], hv, hs⟩]
    rfl

/-- C60: after setting a digest the result verifies, however the original body was framed; its data are the original data. -/
theorem C60_round_trip (t : DigestType) (h h' : Headers) (s s' : Stream) (n m : Nat) (hn : waits s < n) (hm : 0 < m)
    (hs : setDigestF n t h s = some (.ok (h', s'))) :
    verifyDigestF m h' s' = some (.ok (h', s')) ∧ content s' = content s := by
  rw [C60_set t h s n hn, Option.some.injEq] at hs
  unfold asBody at hs
  split at hs
  · cases hs
  · rw [setDigest_data] at hs
    simp only [framed, Res.ok.injEq, Prod.mk.injEq] at hs
    obtain ⟨rfl, rfl⟩ := hs
    refine ⟨?_, fullStream_content _⟩
    rw [C60_verify_exact _ _ _ _ m (by rw [(fullStream_plain _).2.2]; exact hm)]
    refine ⟨(fullStream_plain _).2.1, rfl, by rw [fullStream_content]; rfl, t, utf8 (digestText t (content s)), ?_, ?_⟩
    · rw [lines_insert]; rfl
    · rw [fullStream_content]
      exact ⟨_, [], hvToStr_utf8 (digestText_printable t _), digestText_parse t _⟩

/-- C60: trailers never come back, neither from setting nor from verifying a digest. -/
theorem C60_trailers_lost (h h' : Headers) (s s' : Stream) (n : Nat) (hn : waits s < n) (t : DigestType)
    (hr : setDigestF n t h s = some (.ok (h', s')) ∨ verifyDigestF n h s = some (.ok (h', s'))) : NoTrailers s' := by
  have key : ∀ r : Res DigestErr (Headers × Body), framed r = .ok (h', s') → NoTrailers s' := by
    intro r hr
    rcases framed_ok hr with ⟨b, _, rfl⟩ | ⟨_, rfl⟩
    · exact (fullStream_plain b).1
    · unfold NoTrailers; simp
  rcases hr with hr | hr
  · rw [C60_set t h s n hn] at hr; exact key _ (Option.some.inj hr)
  · rw [C60_verify h s n hn] at hr; exact key _ (Option.some.inj hr)

/-! A body in two pieces with a pause and trailers. -/

def framesEx : Stream :=
  [.frame (.data [1, 2]), .pending, .frame (.data []), .frame (.data [3]), .frame (.trailers [(c! "x", [65])])]

example : waits framesEx < 2 ∧ content framesEx = [1, 2, 3] ∧ BodyPoll.error ∉ framesEx := by decide
example : intoBytes 1 framesEx = none ∧ intoBytes 2 framesEx = some (.ok [1, 2, 3]) := ⟨rfl, rfl⟩
example : ∃ h', setDigestF 2 .sha256 [] framesEx = some (.ok (h', [.frame (.data [1, 2, 3])])) ∧
    verifyDigestF 1 h' [.frame (.data [1, 2, 3])] = some (.ok (h', [.frame (.data [1, 2, 3])])) := by
  have h := C60_set .sha256 [] framesEx 2 (by decide)
  rw [show asBody framesEx = .data [1, 2, 3] by decide, setDigest_data] at h
  exact ⟨_, h, (C60_round_trip .sha256 [] _ framesEx _ 2 1 (by decide) (by decide) h).1⟩
-- the failure comes first or last
example : intoBytes 1 [.error] = some (.error ()) ∧ intoBytes 1 [.frame (.data [1]), .error, .pending] = some (.error ()) := ⟨rfl, rfl⟩

end Verif
