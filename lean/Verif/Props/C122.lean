import Verif.Spec.Calm
import Verif.Props.C120
import Verif.Props.C113
import Verif.Props.C57
import Verif.Props.C40
/-!
C122: whole programs. Behind checks that a caller can make, a program over the interface panics only in a signing call whose key panics; with Ed25519 and shared
keys it never does. Where the plain program does not panic, the checks change nothing.
-/
namespace Verif
open Sfv Spec Calm

variable {L : Libs} {rsa : Bool}

theorem badBytes_iff (a : Alg) (b : Bytes) : BadKeyBytes L.prims a b ↔ bytesFine a b = false := by
  unfold BadKeyBytes
  cases a <;> simp [bytesFine]
  have : (L.prims.ed25519.skOf b = none) ↔ ¬ (b.length = 32 ∧ b ≠ List.replicate 32 0) := by
    show (if h : b.length = 32 ∧ b ≠ List.replicate 32 0 then some _ else none) = none ↔ _
    split
    · rename_i h; exact ⟨fun e => (by cases e), fun e => absurd h e⟩
    · rename_i h; exact ⟨fun _ => h, fun _ => rfl⟩
  rw [this]
  by_cases hl : b.length = 32
  · simp only [hl, not_true, false_or, true_and, not_not, forall_true_left]
    constructor
    · rintro rfl; simp
    · intro h
      exact List.eq_replicate_iff.2 ⟨hl, h⟩
  · simp [hl]

theorem derFine_ok {a : Alg} {der : Bytes} (h : derFine L a der = false) (k : SecretKey L.prims) : SecretKey.fromDer rsa a der ≠ .ok k := by
  intro hk
  unfold SecretKey.fromDer at hk
  obtain ⟨i, hi, hk⟩ := Res.bind_eq_ok.1 hk
  obtain ⟨b, hb, hk⟩ := Res.bind_eq_ok.1 hk
  have hi := Res.ofOption_eq_ok.1 hi
  have hn : bytesFine a b = true := by
    rw [← Bool.not_eq_false]
    intro e
    rw [(C57_from_bytes rsa a b).2 ((badBytes_iff a b).2 e)] at hk
    cases hk
  unfold derFine at h
  rw [hi] at h
  simp only at h
  split at h
  · rename_i e
    subst e
    obtain ⟨_, h2, rfl⟩ := skBytes_ed.1 hb
    have := hn
    simp only [bytesFine, Bool.and_eq_true, beq_iff_eq, List.length_drop] at this
    rw [hn, Bool.and_true, beq_eq_false_iff_ne] at h
    omega
  · split at h
    · rename_i b' hs
      by_cases ha : a = .ecdsaP256Sha256 ∨ a = .ecdsaP384Sha384
      · obtain ⟨_, h2⟩ := (skBytes_ec ha).1 hb
        rw [hs] at h2
        injection h2 with h2
        rw [h2, hn] at h
        cases h
      · rename_i hne
        rw [not_or] at ha
        cases a <;> simp_all [bytesFine]
    · cases h

theorem derFine_panic {a : Alg} {der : Bytes} (h : derFine L a der = true) : (SecretKey.fromDer rsa a der : Res SigErr (SecretKey L.prims)) ≠ .panic := by
  rw [Ne, C57_from_der]
  rintro ⟨i, hi, _, hc⟩
  unfold derFine at h
  rw [hi] at h
  rcases hc with ⟨rfl, hl⟩ | ⟨rfl, b, hs, hl⟩ | ⟨rfl, b, hs, hl⟩
  · simp only [if_true, Bool.and_eq_true, beq_iff_eq] at h
    have := (badBytes_iff (L := L) .ed25519 (i.privateKey.drop 2)).1 (Or.inr (Or.inr ⟨rfl, Or.inr (hl.resolve_left (by simp [h.1]))⟩))
    rw [h.2] at this
    cases this
  · simp [hs, bytesFine, hl] at h
  · simp [hs, bytesFine, hl] at h

theorem pemFine_ok {a : Alg} {t : Str} (h : pemFine L a t = false) (k : SecretKey L.prims) : SecretKey.fromPem rsa a t ≠ .ok k := by
  intro hk
  unfold SecretKey.fromPem at hk
  obtain ⟨⟨l, der⟩, hp, hk⟩ := Res.bind_eq_ok.1 hk
  unfold pemFine at h
  rw [Res.ofOption_eq_ok.1 hp] at h
  split at hk
  · cases hk
  · exact derFine_ok h k hk

theorem pemFine_panic {a : Alg} {t : Str} (h : pemFine L a t = true) : (SecretKey.fromPem rsa a t : Res SigErr (SecretKey L.prims)) ≠ .panic := by
  unfold SecretKey.fromPem
  rw [Ne, Res.bind_eq_panic]
  rintro (hp | ⟨⟨l, der⟩, hp, hk⟩)
  · cases e : L.prims.pem t <;> rw [e] at hp <;> cases hp
  · unfold pemFine at h
    rw [Res.ofOption_eq_ok.1 hp] at h
    split at hk
    · cases hk
    · exact derFine_panic h hk

theorem publicPem_panic {P : Prims} (a : Alg) (t : Str) : (PublicKey.fromPem rsa a t : Res SigErr (PublicKey P)) ≠ .panic := by
  have ho : ∀ {α : Type} (o : Option α), Res.ofOption SigErr.parsePublicKey o ≠ .panic := by intro α o; cases o <;> simp [Res.ofOption]
  unfold PublicKey.fromPem
  rw [Ne, Res.bind_eq_panic]
  rintro (h | ⟨td, _, h⟩)
  · exact ho _ h
  split at h
  · cases h
  rcases Res.bind_eq_panic.1 h with h | ⟨i, _, h⟩
  · exact ho _ h
  rcases Res.bind_eq_panic.1 h with h | ⟨b, _, h⟩
  · unfold pkBytesOfSpki at h
    split at h
    · rcases Res.bind_eq_panic.1 h with h | ⟨o, _, h⟩
      · exact ho _ h
      rcases Res.bind_eq_panic.1 h with h | ⟨a', _, h⟩
      · unfold algOfCurve at h
        split at h
        · cases h
        · split at h <;> cases h
      · split at h
        · cases h
        · exact ho _ h
    · split at h
      · split at h
        · cases h
        · exact ho _ h
      · split at h
        · split at h
          · exact ho _ h
          · cases h
        · cases h
  · exact C57_public_from_bytes rsa a b h

theorem shared_panic (a : Alg) (t : Str) : SharedKey.fromBase64 a t ≠ .panic := by
  unfold SharedKey.fromBase64
  rw [Ne, Res.bind_eq_panic]
  rintro (h | ⟨b, _, h⟩)
  · cases e : Base64.decode true t <;> rw [e] at h <;> cases h
  · cases a <;> cases h

theorem digestMsg_iff {t : DigestType} {m m1 : Msg} : digestMsg t m = .ok m1 ↔ Service.setDigest t m = some m1 := by
  cases m with
  | req r => cases e : r.setContentDigest t <;> simp [digestMsg, Service.setDigest, e, Res.bind]
  | res r => cases e : r.setContentDigest t <;> simp [digestMsg, Service.setDigest, e, Res.bind]

theorem digestMsg_panic (t : DigestType) (m : Msg) : digestMsg t m ≠ .panic := by
  intro h
  have two : ∀ {α β : Type} {x : Res DigestErr α} {f : α → β}, (x.bind fun r => .ok (f r)) = .panic → x = .panic := by
    intro α β x f h; cases x <;> first | rfl | cases h
  cases m with
  | req r => exact C18_set_digest t r.headers r.body (two (two h))
  | res r => exact C18_set_digest t r.headers r.body (two (two h))

theorem checkMsg_panic (m : Msg) : checkMsg m ≠ .panic := by
  intro h
  have two : ∀ {α β : Type} {x : Res DigestErr α} {f : α → β}, (x.bind fun r => .ok (f r)) = .panic → x = .panic := by
    intro α β x f h; cases x <;> first | rfl | cases h
  cases m with
  | req r => exact C20_never_panics r.headers r.body (two (two h))
  | res r => exact C20_never_panics r.headers r.body (two (two h))

theorem checkMsg_ok {m m1 : Msg} (h : checkMsg m = .ok m1) : m1.headers = m.headers := by
  have two : ∀ {α β : Type} {x : Res DigestErr α} {f : α → β} {b : β}, (x.bind fun r => .ok (f r)) = .ok b → ∃ a, x = .ok a ∧ b = f a := by
    intro α β x f b h
    cases x with
    | ok a => injection h with h; exact ⟨a, rfl, h.symm⟩
    | err _ => cases h
    | panic => cases h
  cases m with
  | req r =>
    obtain ⟨r1, h1, rfl⟩ := two h
    obtain ⟨⟨hd, bd⟩, h2, rfl⟩ := two h1
    exact ((verifyDigest_ok _ _ _ _).1 h2).1
  | res r =>
    obtain ⟨r1, h1, rfl⟩ := two h
    obtain ⟨⟨hd, bd⟩, h2, rfl⟩ := two h1
    exact ((verifyDigest_ok _ _ _ _).1 h2).1

variable {P : Prims}

theorem after_none {ε α : Type} {s : State P} {r : Res ε α} {f : α → State P × Answer} : after s r f = none ↔ r = .panic := by
  cases r <;> simp [after]

theorem after_some {ε α : Type} {s : State P} {r : Res ε α} {f : α → State P × Answer} {x : State P × Answer} (h : after s r f = some x) :
    (∃ a, r = .ok a ∧ x = f a) ∨ x = (s, .failed) := by
  cases r with
  | ok a => injection h with h; exact Or.inl ⟨a, rfl, h.symm⟩
  | err e => injection h with h; exact Or.inr h.symm
  | panic => cases h

theorem signers_lib {s : State P} {l : List (SigParams × Calm.Signer × Option Str)} {x : SigParams × SigningKey × Option Str} (h : x ∈ s.signers l) :
    (∃ k ∈ s.secrets, ∃ rnd, x.2.1 = k.signing rnd) ∨ ∃ k ∈ s.shareds, x.2.1 = k.signing := by
  obtain ⟨y, _, hy⟩ := List.mem_filterMap.1 h
  obtain ⟨k, hk, rfl⟩ := Option.map_eq_some_iff.1 hy
  cases e : y.2.1 with
  | secret i rnd =>
    rw [e] at hk
    obtain ⟨k', hk', rfl⟩ := Option.map_eq_some_iff.1 hk
    exact Or.inl ⟨k', List.mem_of_getElem? hk', rnd, rfl⟩
  | shared i =>
    rw [e] at hk
    obtain ⟨k', hk', rfl⟩ := Option.map_eq_some_iff.1 hk
    exact Or.inr ⟨k', List.mem_of_getElem? hk', rfl⟩

theorem verifiers_lib {s : State P} {l : List (Verifier × Option Str)} {ki : VerifyingKey × Option Str} (h : ki ∈ s.verifiers l) : LibraryKey ki.1 := by
  obtain ⟨y, _, hy⟩ := List.mem_filterMap.1 h
  obtain ⟨k, hk, rfl⟩ := Option.map_eq_some_iff.1 hy
  cases e : y.1 with
  | secret i =>
    rw [e] at hk
    obtain ⟨k', _, rfl⟩ := Option.map_eq_some_iff.1 hk
    exact .ofSecret k'
  | pub i =>
    rw [e] at hk
    obtain ⟨k', _, rfl⟩ := Option.map_eq_some_iff.1 hk
    exact .ofPublic k'
  | shared i =>
    rw [e] at hk
    obtain ⟨k', _, rfl⟩ := Option.map_eq_some_iff.1 hk
    exact .ofShared k'

theorem plain_sign (s : State P) (l : List (SigParams × Calm.Signer × Option Str)) (rf : Option Request) : plain rsa s (.sign l rf) =
    match setSignatures s.msg (s.signers l) rf with
    | (_, .panic) => none
    | (h, .err _) => some ({ s with msg := s.msg.withHeaders h }, .failed)
    | (h, .ok _) => some ({ s with msg := s.msg.withHeaders h }, .done) := rfl

theorem guarded_bytes (s : State L.prims) (a : Alg) (b : Bytes) :
    guarded L rsa s (.secretBytes a b) = if bytesFine a b then plain rsa s (.secretBytes a b) else some (s, .failed) := rfl

theorem guarded_der (s : State L.prims) (a : Alg) (b : Bytes) :
    guarded L rsa s (.secretDer a b) = if derFine L a b then plain rsa s (.secretDer a b) else some (s, .failed) := rfl

theorem guarded_pem (s : State L.prims) (a : Alg) (t : Str) :
    guarded L rsa s (.secretPem a t) = if pemFine L a t then plain rsa s (.secretPem a t) else some (s, .failed) := rfl

theorem guarded_ask (s : State L.prims) :
    guarded L rsa s .ask = if Guard.headersFine s.msg.headers then plain rsa s .ask else some (s, .failed) := rfl

theorem plain_wf {s s' : State P} {c : Cmd} {a : Answer} (hw : WfHeaders s.msg.headers) (hc : c.Fine) (h : plain rsa s c = some (s', a)) :
    WfHeaders s'.msg.headers := by
  cases c with
  | take m => injection h with h; injection h with h _; subst h; exact hc
  | setDigest t =>
    rcases after_some h with ⟨m, h1, h2⟩ | h2
    · injection h2 with h2 _; subst h2
      exact (service_digested hw (digestMsg_iff.1 h1)).1
    · injection h2 with h2 _; subst h2; exact hw
  | checkDigest =>
    rcases after_some h with ⟨m, h1, h2⟩ | h2
    · injection h2 with h2 _; subst h2
      show WfHeaders m.headers
      rw [checkMsg_ok h1]; exact hw
    · injection h2 with h2 _; subst h2; exact hw
  | sign l rf =>
    obtain ⟨extra, e, he⟩ := C50_only_appends s.msg rf (s.signers l)
    have g : ∀ hd r, setSignatures s.msg (s.signers l) rf = (hd, r) → WfHeaders (s.msg.withHeaders hd).headers := by
      intro hd r e'
      rw [e'] at e
      rw [headers_withHeaders]
      have e : hd = _ := e
      rw [e]; exact wf_extra hw he
    rw [plain_sign] at h
    split at h
    · cases h
    · rename_i e'; injection h with h; injection h with h _; subst h; exact g _ _ e'
    · rename_i e'; injection h with h; injection h with h _; subst h; exact g _ _ e'
  | ask =>
    rcases after_some h with ⟨_, _, h2⟩ | h2 <;> (injection h2 with h2 _; subst h2; exact hw)
  | verify now l rf =>
    rcases after_some h with ⟨_, _, h2⟩ | h2 <;> (injection h2 with h2 _; subst h2; exact hw)
  | secretBytes _ _ => rcases after_some h with ⟨_, _, h2⟩ | h2 <;> (injection h2 with h2 _; subst h2; exact hw)
  | secretDer _ _ => rcases after_some h with ⟨_, _, h2⟩ | h2 <;> (injection h2 with h2 _; subst h2; exact hw)
  | secretPem _ _ => rcases after_some h with ⟨_, _, h2⟩ | h2 <;> (injection h2 with h2 _; subst h2; exact hw)
  | publicBytes _ _ => rcases after_some h with ⟨_, _, h2⟩ | h2 <;> (injection h2 with h2 _; subst h2; exact hw)
  | publicPem _ _ => rcases after_some h with ⟨_, _, h2⟩ | h2 <;> (injection h2 with h2 _; subst h2; exact hw)
  | sharedText _ _ => rcases after_some h with ⟨_, _, h2⟩ | h2 <;> (injection h2 with h2 _; subst h2; exact hw)

/-- A guarded command that returns is a refusal, a guarded verification, or the plain command. -/
theorem guarded_wf {s s' : State L.prims} {c : Cmd} {a : Answer} (hw : WfHeaders s.msg.headers) (hc : c.Fine) (h : guarded L rsa s c = some (s', a)) :
    WfHeaders s'.msg.headers := by
  have no : ∀ {a}, some (s, Answer.failed) = some (s', a) → WfHeaders s'.msg.headers := by
    intro a h; injection h with h; injection h with h _; subst h; exact hw
  cases c with
  | secretBytes _ _ => rw [guarded_bytes] at h; split at h; exacts [plain_wf hw hc h, no h]
  | secretDer _ _ => rw [guarded_der] at h; split at h; exacts [plain_wf hw hc h, no h]
  | secretPem _ _ => rw [guarded_pem] at h; split at h; exacts [plain_wf hw hc h, no h]
  | ask => rw [guarded_ask] at h; split at h; exacts [plain_wf hw hc h, no h]
  | verify now l rf => rcases after_some h with ⟨_, _, h2⟩ | h2 <;> (injection h2 with h2 _; subst h2; exact hw)
  | publicBytes _ _ => exact plain_wf (rsa := rsa) hw hc h
  | publicPem _ _ => exact plain_wf (rsa := rsa) hw hc h
  | sharedText _ _ => exact plain_wf (rsa := rsa) hw hc h
  | take _ => exact plain_wf (rsa := rsa) hw hc h
  | setDigest _ => exact plain_wf (rsa := rsa) hw hc h
  | checkDigest => exact plain_wf (rsa := rsa) hw hc h
  | sign _ _ => exact plain_wf (rsa := rsa) hw hc h

/-- C122: a guarded command panics exactly if it is a signing command whose bases can all be built and one of whose keys panics on its base. -/
theorem C122_step {s : State L.prims} {c : Cmd} (hw : WfHeaders s.msg.headers) (hc : c.Fine) :
    guarded L rsa s c = none ↔ ∃ l rf, c = .sign l rf ∧ Wire.SigningPanics s.msg rf (s.signers l) := by
  have no : ∀ {c : Cmd} {x : Option (State L.prims × Answer)}, (∀ l rf, c ≠ .sign l rf) → x ≠ none → (x = none ↔ ∃ l rf, c = .sign l rf ∧ Wire.SigningPanics s.msg rf (s.signers l)) := by
    intro c x h1 h2
    exact ⟨fun h => absurd h h2, fun ⟨l, rf, e, _⟩ => absurd e (h1 l rf)⟩
  cases c with
  | secretBytes a b =>
    refine no (by simp) ?_
    rw [guarded_bytes]
    split
    · rename_i h
      rw [Ne]; show ¬ after s _ _ = none
      rw [after_none, C57_from_bytes, badBytes_iff, h]; simp
    · simp
  | secretDer a der =>
    refine no (by simp) ?_
    rw [guarded_der]
    split
    · rename_i h
      rw [Ne]; show ¬ after s _ _ = none
      rw [after_none]; exact derFine_panic h
    · simp
  | secretPem a t =>
    refine no (by simp) ?_
    rw [guarded_pem]
    split
    · rename_i h
      rw [Ne]; show ¬ after s _ _ = none
      rw [after_none]; exact pemFine_panic h
    · simp
  | publicBytes a b => exact no (by simp) (by rw [Ne]; show ¬ after s _ _ = none; rw [after_none]; exact C57_public_from_bytes rsa a b)
  | publicPem a t => exact no (by simp) (by rw [Ne]; show ¬ after s _ _ = none; rw [after_none]; exact publicPem_panic a t)
  | sharedText a t => exact no (by simp) (by rw [Ne]; show ¬ after s _ _ = none; rw [after_none]; exact shared_panic a t)
  | take m => exact no (by simp) (by show some _ ≠ none; simp)
  | setDigest t => exact no (by simp) (by rw [Ne]; show ¬ after s _ _ = none; rw [after_none]; exact digestMsg_panic t _)
  | checkDigest => exact no (by simp) (by rw [Ne]; show ¬ after s _ _ = none; rw [after_none]; exact checkMsg_panic _)
  | ask =>
    refine no (by simp) ?_
    rw [guarded_ask]
    split
    · rename_i h
      rw [Ne]; show ¬ after s _ _ = none
      rw [after_none, ((C113_carries hw).2.2.1), ← (C113_carries hw).1]
      exact C100_passed hw h
    · simp
  | verify now l rf =>
    refine no (by simp) ?_
    rw [Ne]; show ¬ after s _ _ = none
    rw [after_none]
    exact C100_never_panics hw hc _ (fun ki hki => verifiers_lib hki)
  | sign l rf =>
    have e : guarded L rsa s (.sign l rf) = none ↔ (setSignatures s.msg (s.signers l) rf).2 = .panic := by
      show plain rsa s (.sign l rf) = none ↔ _
      rw [plain_sign]
      rcases setSignatures s.msg (s.signers l) rf with ⟨hd, r⟩
      cases r <;> simp
    rw [e, C113_sign hw hc]
    constructor
    · intro h; exact ⟨l, rf, rfl, h⟩
    · rintro ⟨l', rf', e, h⟩
      injection e with e1 e2
      subst e1 e2
      exact h

/-- C122: a guarded program panics exactly if it comes to a signing command, in a state that it reaches without a panic, whose bases can all be built and one of
whose keys panics on its base. -/
theorem C122_only_signing {cs : List Cmd} {s : State L.prims} (hw : WfHeaders s.msg.headers) (hc : ∀ c ∈ cs, c.Fine) :
    run (guarded L rsa) cs s = none ↔ ∃ before l rf rest s' as, cs = before ++ .sign l rf :: rest ∧ run (guarded L rsa) before s = some (s', as) ∧
      Wire.SigningPanics s'.msg rf (s'.signers l) := by
  induction cs generalizing s with
  | nil =>
    constructor
    · intro h; cases h
    · rintro ⟨before, _, _, _, _, _, h, _⟩; cases before <;> cases h
  | cons c cs ih =>
    cases e : guarded L rsa s c with
    | none =>
      have hn : run (guarded L rsa) (c :: cs) s = none := by rw [run, e]
      refine ⟨fun _ => ?_, fun _ => hn⟩
      obtain ⟨l, rf, rfl, h⟩ := (C122_step hw (hc c (by simp))).1 e
      exact ⟨[], l, rf, cs, s, [], rfl, rfl, h⟩
    | some x =>
      obtain ⟨s1, a⟩ := x
      have ih := ih (s := s1) (guarded_wf hw (hc c (by simp)) e) (fun d hd => hc d (by simp [hd]))
      have hn : run (guarded L rsa) (c :: cs) s = none ↔ run (guarded L rsa) cs s1 = none := by
        rw [run, e]
        cases e2 : run (guarded L rsa) cs s1 <;> simp [e2]
      rw [hn, ih]
      constructor
      · rintro ⟨before, l, rf, rest, s', as, rfl, h, hp⟩
        exact ⟨c :: before, l, rf, rest, s', a :: as, rfl, by rw [run, e]; simp only [h], hp⟩
      · rintro ⟨before, l, rf, rest, s', as, hb, h, hp⟩
        cases before with
        | nil =>
          injection hb with hb _
          injection h with h
          injection h with h _
          subst hb h
          rw [(C122_step hw (hc _ (by simp))).2 ⟨l, rf, rfl, hp⟩] at e
          cases e
        | cons d before =>
          injection hb with h1 h2
          subst h1 h2
          rw [run, e] at h
          cases e2 : run (guarded L rsa) before s1 with
          | none => simp [e2] at h
          | some y =>
            simp only [e2, Option.some.injEq, Prod.mk.injEq] at h
            obtain ⟨y1, y2⟩ := y
            exact ⟨before, l, rf, rest, s', y2, rfl, by rw [e2, ← h.1], hp⟩

theorem ed_sign {k : SecretKey L.prims} (h : k.alg = .ed25519) (rnd d : Bytes) : k.sign rnd d ≠ .panic := by
  cases k with
  | ed25519 k => intro h; cases h
  | _ => cases h

theorem ed_der {a : Alg} {der : Bytes} {k : SecretKey L.prims} (h : SecretKey.fromDer rsa a der = .ok k) : k.alg = a := by
  unfold SecretKey.fromDer at h
  obtain ⟨_, _, h⟩ := Res.bind_eq_ok.1 h
  obtain ⟨_, _, h⟩ := Res.bind_eq_ok.1 h
  exact (sk_fromBytes_alg h).1

theorem ed_pem {a : Alg} {t : Str} {k : SecretKey L.prims} (h : SecretKey.fromPem rsa a t = .ok k) : k.alg = a := by
  unfold SecretKey.fromPem at h
  obtain ⟨_, _, h⟩ := Res.bind_eq_ok.1 h
  split at h
  · cases h
  · exact ed_der h

theorem plain_ed {s s' : State L.prims} {c : Cmd} {a : Answer} (hs : ∀ k ∈ s.secrets, k.alg = .ed25519) (hc : c.EdOnly)
    (h : plain rsa s c = some (s', a)) : ∀ k ∈ s'.secrets, k.alg = .ed25519 := by
  have add : ∀ {k : SecretKey L.prims}, k.alg = .ed25519 → ∀ k' ∈ s.secrets ++ [k], k'.alg = .ed25519 := by
    intro k hk k' h'
    rcases List.mem_append.1 h' with h' | h'
    · exact hs k' h'
    · rw [List.mem_singleton.1 h']; exact hk
  cases c with
  | secretBytes a b =>
    rcases after_some h with ⟨k, h1, h2⟩ | h2 <;> (injection h2 with h2 _; subst h2)
    · exact add ((sk_fromBytes_alg h1).1.trans hc)
    · exact hs
  | secretDer a b =>
    rcases after_some h with ⟨k, h1, h2⟩ | h2 <;> (injection h2 with h2 _; subst h2)
    · exact add ((ed_der h1).trans hc)
    · exact hs
  | secretPem a b =>
    rcases after_some h with ⟨k, h1, h2⟩ | h2 <;> (injection h2 with h2 _; subst h2)
    · exact add ((ed_pem h1).trans hc)
    · exact hs
  | sign l rf =>
    rw [plain_sign] at h
    split at h
    · cases h
    · injection h with h; injection h with h _; subst h; exact hs
    · injection h with h; injection h with h _; subst h; exact hs
  | take m => injection h with h; injection h with h _; subst h; exact hs
  | setDigest t => rcases after_some h with ⟨_, _, h2⟩ | h2 <;> (injection h2 with h2 _; subst h2; exact hs)
  | checkDigest => rcases after_some h with ⟨_, _, h2⟩ | h2 <;> (injection h2 with h2 _; subst h2; exact hs)
  | ask => rcases after_some h with ⟨_, _, h2⟩ | h2 <;> (injection h2 with h2 _; subst h2; exact hs)
  | verify now l rf => rcases after_some h with ⟨_, _, h2⟩ | h2 <;> (injection h2 with h2 _; subst h2; exact hs)
  | publicBytes _ _ => rcases after_some h with ⟨_, _, h2⟩ | h2 <;> (injection h2 with h2 _; subst h2; exact hs)
  | publicPem _ _ => rcases after_some h with ⟨_, _, h2⟩ | h2 <;> (injection h2 with h2 _; subst h2; exact hs)
  | sharedText _ _ => rcases after_some h with ⟨_, _, h2⟩ | h2 <;> (injection h2 with h2 _; subst h2; exact hs)

theorem guarded_ed {s s' : State L.prims} {c : Cmd} {a : Answer} (hs : ∀ k ∈ s.secrets, k.alg = .ed25519) (hc : c.EdOnly)
    (h : guarded L rsa s c = some (s', a)) : ∀ k ∈ s'.secrets, k.alg = .ed25519 := by
  have no : ∀ {a}, some (s, Answer.failed) = some (s', a) → ∀ k ∈ s'.secrets, k.alg = .ed25519 := by
    intro a h; injection h with h; injection h with h _; subst h; exact hs
  cases c with
  | secretBytes _ _ => rw [guarded_bytes] at h; split at h; exacts [plain_ed hs hc h, no h]
  | secretDer _ _ => rw [guarded_der] at h; split at h; exacts [plain_ed hs hc h, no h]
  | secretPem _ _ => rw [guarded_pem] at h; split at h; exacts [plain_ed hs hc h, no h]
  | ask => rw [guarded_ask] at h; split at h; exacts [plain_ed hs hc h, no h]
  | verify now l rf => rcases after_some h with ⟨_, _, h2⟩ | h2 <;> (injection h2 with h2 _; subst h2; exact hs)
  | publicBytes _ _ => exact plain_ed (rsa := rsa) hs hc h
  | publicPem _ _ => exact plain_ed (rsa := rsa) hs hc h
  | sharedText _ _ => exact plain_ed (rsa := rsa) hs hc h
  | take _ => exact plain_ed (rsa := rsa) hs hc h
  | setDigest _ => exact plain_ed (rsa := rsa) hs hc h
  | checkDigest => exact plain_ed (rsa := rsa) hs hc h
  | sign _ _ => exact plain_ed (rsa := rsa) hs hc h

/-- C122: a guarded program that uses Ed25519 for its private keys, with any public and shared keys, never panics: for all messages, key files, times,
selections and orders of calls. -/
theorem C122_never {cs : List Cmd} {s : State L.prims} (hw : WfHeaders s.msg.headers) (hc : ∀ c ∈ cs, c.Fine)
    (hs : ∀ k ∈ s.secrets, k.alg = .ed25519) (he : ∀ c ∈ cs, c.EdOnly) : ∃ s' as, run (guarded L rsa) cs s = some (s', as) ∧ as.length = cs.length := by
  induction cs generalizing s with
  | nil => exact ⟨s, [], rfl, rfl⟩
  | cons c cs ih =>
    cases e : guarded L rsa s c with
    | none =>
      obtain ⟨l, rf, rfl, _, x, hx, t, _, hp⟩ := (C122_step hw (hc c (by simp))).1 e
      rcases signers_lib hx with ⟨k, hk, rnd, h⟩ | ⟨k, _, h⟩
      · rw [h] at hp; exact absurd hp (ed_sign (hs k hk) rnd _)
      · rw [h] at hp; cases k; cases hp
    | some x =>
      obtain ⟨s1, a⟩ := x
      obtain ⟨s', as, h, hl⟩ := ih (s := s1) (guarded_wf hw (hc c (by simp)) e) (fun d hd => hc d (by simp [hd]))
        (guarded_ed hs (he c (by simp)) e) (fun d hd => he d (by simp [hd]))
      exact ⟨s', a :: as, by rw [run, e]; simp only [h], by simp [hl]⟩

theorem after_same {P : Prims} {ε ε' α : Type} {s : State P} {r : Res ε α} {r' : Res ε' α} {f : α → State P × Answer} {x : State P × Answer}
    (hok : ∀ a, r = .ok a → r' = .ok a) (herr : ∀ e, r = .err e → ∃ e', r' = .err e') (h : after s r f = some x) : after s r' f = some x := by
  cases e : r with
  | ok a => rw [hok a e]; rw [e] at h; exact h
  | err e1 => obtain ⟨e', h'⟩ := herr e1 e; rw [h']; rw [e] at h; exact h
  | panic => rw [e] at h; cases h

/-- C122: a command that does not panic as a plain call does the same behind the checks. -/
theorem C122_step_same {s : State L.prims} {c : Cmd} {x : State L.prims × Answer} (hw : WfHeaders s.msg.headers)
    (h : plain rsa s c = some x) : guarded L rsa s c = some x := by
  have no : ∀ {ε α : Type} {r : Res ε α} {f : α → State L.prims × Answer} {x}, (∀ a, r ≠ .ok a) → after s r f = some x → some (s, Answer.failed) = some x := by
    intro ε α r f x h1 h2
    cases r with
    | ok a => exact absurd rfl (h1 a)
    | err e => exact h2
    | panic => cases h2
  cases c with
  | secretBytes a b =>
    rw [guarded_bytes]
    split
    · exact h
    · rename_i hn
      have := (C57_from_bytes rsa a b).2 ((badBytes_iff (L := L) a b).2 (by simpa using hn))
      refine no (fun k hk => ?_) h
      rw [this] at hk; cases hk
  | secretDer a b =>
    rw [guarded_der]
    split
    · exact h
    · rename_i hn; exact no (derFine_ok (by simpa using hn)) h
  | secretPem a b =>
    rw [guarded_pem]
    split
    · exact h
    · rename_i hn; exact no (pemFine_ok (by simpa using hn)) h
  | ask =>
    rw [guarded_ask]
    split
    · exact h
    · rename_i hn
      refine no (fun l hl => ?_) h
      have := ((C100_asked (rf := none) rsa hw).2.1.2 l).1 hl
      unfold Guard.call at this
      rw [if_neg hn] at this
      cases this
  | verify now l rf =>
    have hp : verifySignatures now s.msg (s.verifiers l) rf ≠ .panic := by
      intro e
      have : plain rsa s (.verify now l rf) = none := by show after s _ _ = none; rw [e]; rfl
      rw [this] at h; cases h
    refine after_same (r := verifySignatures now s.msg (s.verifiers l) rf) ?_ ?_ h
    · intro a e
      rcases C100_same hw _ (fun ki hki => verifiers_lib hki) hp with h' | ⟨_, e', h'⟩
      · rw [h', e]; rfl
      · rw [e] at h'; cases h'
    · intro e1 e
      rcases C100_same hw _ (fun ki hki => verifiers_lib hki) hp with h' | ⟨h', _⟩
      · exact ⟨_, by rw [h', e]; rfl⟩
      · exact ⟨_, h'⟩
  | publicBytes _ _ => exact h
  | publicPem _ _ => exact h
  | sharedText _ _ => exact h
  | take _ => exact h
  | setDigest _ => exact h
  | checkDigest => exact h
  | sign _ _ => exact h

/-- C122: the checks change nothing of a program that does not panic without them: same state in the end, same answers on the way. -/
theorem C122_same {cs : List Cmd} {s : State L.prims} {x : State L.prims × List Answer} (hw : WfHeaders s.msg.headers) (hc : ∀ c ∈ cs, c.Fine)
    (h : run (plain rsa) cs s = some x) : run (guarded L rsa) cs s = some x := by
  induction cs generalizing s x with
  | nil => exact h
  | cons c cs ih =>
    cases e : plain rsa s c with
    | none => rw [run, e] at h; cases h
    | some y =>
      obtain ⟨s1, a⟩ := y
      rw [run, e] at h
      rw [run, C122_step_same hw e]
      cases e2 : run (plain rsa) cs s1 with
      | none => simp [e2] at h
      | some z =>
        have := ih (plain_wf hw (hc c (by simp)) e) (fun d hd => hc d (by simp [hd])) e2
        simpa only [this, e2] using h

/-- C122: without the checks two commands are enough for a panic, whatever the state: a message that somebody made up and a verification of it, with any
keys or none; or a key of 31 octets. -/
theorem C122_without (L : Libs) (rsa : Bool) (s : State L.prims) (now : UInt64) (l : List (Verifier × Option Str)) :
    (∃ m, Cmd.Fine (.take m) ∧ run (plain rsa) [.take m, .verify now l none] s = none) ∧
    ∃ b, run (plain rsa) [.secretBytes .ed25519 b] s = none := by
  refine ⟨⟨(Msg.req exReq).withHeaders (exReq.headers ++ poison (c! "sig")), wf_poison (m := .req exReq) exReq_wf _, ?_⟩, List.replicate 31 1, ?_⟩
  · have h := C113_poison_verify (m := .req exReq) (rf := none) (n := c! "sig") exReq_wf (by decide) (Or.inl (by decide)) now
    have : ∀ t : State L.prims, t.msg = (Msg.req exReq).withHeaders (exReq.headers ++ poison (c! "sig")) → plain rsa t (.verify now l none) = none := by
      intro t ht
      show after t _ _ = none
      rw [after_none, ht]
      exact h _
    have e1 : ∀ m, plain rsa s (.take m) = some ({ s with msg := m }, .done) := fun _ => rfl
    rw [run, e1]
    simp only [run, this { s with msg := (Msg.req exReq).withHeaders (exReq.headers ++ poison (c! "sig")) } rfl]
  · have : plain rsa s (.secretBytes .ed25519 (List.replicate 31 1)) = none := by
      simp only [plain, after_none]
      rw [C57_from_bytes, badBytes_iff]
      decide
    rw [run, this]

/-! ### Examples -/

/-- A client: it reads a key, sets the digest of the request, signs it, and later takes an answer and verifies it. -/
def c122Client (der : Bytes) (rnd : Bytes) (p : SigParams) (pk : Str) (q : Request) (r : Response) (now : UInt64) : List Cmd :=
  [.secretDer .ed25519 der, .publicPem .ed25519 pk, .take (.req q), .setDigest .sha256, .sign [(p, .secret 0 rnd, none)] none,
    .take (.res r), .ask, .verify now [(.pub 0, none)] (some q), .checkDigest]

-- it never panics: whatever the key files, the parameters, the request, the answer and the time are
example (L : Libs) (rsa : Bool) (der rnd : Bytes) (p : SigParams) (pk : Str) (q : Request) (r : Response) (now : UInt64) (hq : WfHeaders q.headers)
    (hr : WfHeaders r.headers) : run (guarded L rsa) (c122Client der rnd p pk q r now) ⟨[], [], [], .req q⟩ ≠ none := by
  obtain ⟨_, _, h, _⟩ := C122_never (L := L) (rsa := rsa) (cs := c122Client der rnd p pk q r now) (s := ⟨[], [], [], .req q⟩) hq
    (by intro c hc; simp only [c122Client, List.mem_cons, List.not_mem_nil, or_false] at hc
        rcases hc with rfl | rfl | rfl | rfl | rfl | rfl | rfl | rfl | rfl <;> simp [Cmd.Fine, Msg.headers, hq, hr])
    (by simp)
    (by intro c hc; simp only [c122Client, List.mem_cons, List.not_mem_nil, or_false] at hc
        rcases hc with rfl | rfl | rfl | rfl | rfl | rfl | rfl | rfl | rfl <;> simp [Cmd.EdOnly])
  rw [h]; simp
-- a server that shares a secret: the plain program returns, so the guarded one does the same
example (L : Libs) (rsa : Bool) (m : Msg) (t : Str) (hw : WfHeaders m.headers) {x : State L.prims × List Answer}
    (h : run (plain rsa) [.sharedText .hmacSha256 t, .verify 0 [(.shared 0, none)] none] ⟨[], [], [], m⟩ = some x) :
    run (guarded L rsa) [.sharedText .hmacSha256 t, .verify 0 [(.shared 0, none)] none] ⟨[], [], [], m⟩ = some x :=
  C122_same hw (by simp [Cmd.Fine]) h
-- keys that the checks let through and keys that they refuse
example : bytesFine .ed25519 (List.replicate 32 1) = true := by decide
example : bytesFine .ed25519 (List.replicate 32 0) = false := by decide
example : bytesFine .ecdsaP256Sha256 (List.replicate 31 1) = false := by decide
example : bytesFine .rsaV15Sha256 [] = true := by decide

end Verif
