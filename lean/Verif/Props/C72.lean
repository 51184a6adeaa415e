import Verif.Model.Examples
import Verif.Props.C70
import Verif.Props.C71
/-!
C72: programs that build a message, set its digest, sign it several times and check everything, as the example programs of /repo do.
-/
namespace Verif
open Spec Ex

section
variable {m : Msg} {rf : Option Request}

theorem withHeaders_twice (m : Msg) (a b : Headers) : (m.withHeaders a).withHeaders b = m.withHeaders b := by cases m <;> rfl
theorem withHeaders_same (m : Msg) : m.withHeaders m.headers = m := by cases m <;> rfl

/-- C72: signing one after the other is signing at once, for parameters that do not cover the signature fields. -/
theorem C72_one_by_one (hw : WfHeaders m.headers) (hf : ∀ r, rf = some r → WfHeaders r.headers) {l : List Signer}
    (hs : ∀ x ∈ l, NotSelf x.1) (h' : Headers) : signEach m rf l = (h', .ok ()) ↔ setSignatures m l rf = (h', .ok ()) := by
  induction l generalizing m h' with
  | nil => exact Iff.rfl
  | cons x t ih =>
    have step : ∀ h1, setSignature m x.1 x.2.1 x.2.2 rf = (h1, .ok ()) ↔
        ∃ sh, SignedBy m rf x sh ∧ (hvOfStr sh.inputValue).isSome ∧ h1 = m.headers ++ sigLines sh := by
      intro h1
      show setSignatures m [x] rf = _ ↔ _
      rw [setSignatures_ok hw hf]
      constructor
      · rintro ⟨hs, h1, h2, rfl⟩
        cases h1 with
        | cons a b => cases b; exact ⟨_, a, h2 _ (by simp), by simp⟩
      · rintro ⟨sh, h1, h2, rfl⟩
        exact ⟨[sh], .cons h1 .nil, by simpa using h2, by simp⟩
    have same : ∀ sh, ∀ y ∈ t, ∀ z, SignedBy (m.withHeaders (m.headers ++ sigLines sh)) rf y z ↔ SignedBy m rf y z := by
      intro sh y hy z
      have e : ∀ tx, BaseOf (m.withHeaders (m.headers ++ sigLines sh)) rf y.1 tx ↔ BaseOf m rf y.1 tx := by
        intro tx
        have := base_after (hs y (by simp [hy])) hw hf [sh] tx
        simpa using this
      constructor
      · rintro ⟨a, b, tx, c, d⟩; exact ⟨a, b, tx, (e tx).1 c, d⟩
      · rintro ⟨a, b, tx, c, d⟩; exact ⟨a, b, tx, (e tx).2 c, d⟩
    have all : ∀ sh (k : List Signer), (∀ y ∈ k, y ∈ t) → ∀ zs, List.Forall₂ (SignedBy (m.withHeaders (m.headers ++ sigLines sh)) rf) k zs ↔
        List.Forall₂ (SignedBy m rf) k zs := by
      intro sh k
      induction k with
      | nil => intro _ zs; constructor <;> (intro h; cases h; exact .nil)
      | cons y k ih =>
        intro hk zs
        constructor
        · intro h
          cases h with
          | cons a b => exact .cons ((same sh y (hk y (by simp)) _).1 a) ((ih (fun z hz => hk z (by simp [hz])) _).1 b)
        · intro h
          cases h with
          | cons a b => exact .cons ((same sh y (hk y (by simp)) _).2 a) ((ih (fun z hz => hk z (by simp [hz])) _).2 b)
    have rec1 : ∀ sh h', signEach (m.withHeaders (m.headers ++ sigLines sh)) rf t = (h', .ok ()) ↔
        ∃ zs, List.Forall₂ (SignedBy m rf) t zs ∧ (∀ z ∈ zs, (hvOfStr z.inputValue).isSome) ∧
          h' = m.headers ++ sigLines sh ++ zs.flatMap sigLines := by
      intro sh h'
      have hw1 : WfHeaders (m.withHeaders (m.headers ++ sigLines sh)).headers := by
        rw [headers_withHeaders]; simpa using wf_sigLines hw [sh]
      rw [ih hw1 (fun y hy => hs y (by simp [hy])), setSignatures_ok hw1 hf, headers_withHeaders]
      simp only [all sh t (fun _ h => h)]
    rw [setSignatures_ok hw hf]
    constructor
    · intro h
      unfold signEach at h
      split at h
      · rename_i h1 e
        obtain ⟨sh, a, b, rfl⟩ := (step h1).1 e
        obtain ⟨zs, c, d, rfl⟩ := (rec1 sh h').1 h
        refine ⟨sh :: zs, .cons a c, ?_, by simp⟩
        intro z hz
        rcases List.mem_cons.1 hz with rfl | hz
        · exact b
        · exact d z hz
      · rename_i hno
        rw [h] at hno
        exact absurd rfl (hno h')
    · rintro ⟨zs, h1, h2, rfl⟩
      cases h1 with
      | @cons _ sh _ zs a c =>
        have e := (step _).2 ⟨sh, a, h2 sh (by simp), rfl⟩
        unfold signEach
        rw [e]
        exact (rec1 sh _).2 ⟨zs, c, fun z hz => h2 z (by simp [hz]), by simp⟩

/-- A party whose constants fit the message: its texts name these ids, which can be written to a header, are distinct, have values and
leave out the signature fields; the time can be written; and the keys belong together. -/
structure Fits (m : Msg) (rf : Option Request) (c : Party) (ids : List CId) : Prop where
  texts : List.Forall₂ (fun s i => CId.ofStr s = .ok i) c.covered ids
  safe : ∀ i ∈ ids, SafeId i
  distinct : ids.Pairwise (fun a b => ¬ SameId a b)
  notSelf : ∀ i ∈ ids, CParam.req ∉ i.params → i.name ≠ .derived .signatureParams ∧
    ∀ f, i.name = .field f → lower f ≠ c! "signature" ∧ lower f ≠ c! "signature-input"
  values : ∀ i ∈ ids, ∃ v, HasValue m rf i v
  name : LegalKey c.name
  time : c.created.toNat < 10 ^ 15
  pair : KeyPair c.signing c.verifying
  signs : ∀ d, ∃ s, c.signing.sign d = .ok s
  keyId : c.verifying.keyId = c.signing.keyId
  keyText : SafeText c.signing.keyId

/-- The parameters a party makes. -/
def Ex.Party.made (c : Party) (ids : List CId) : SigParams :=
  { created := some c.created, nonce := c.nonce.map Base64.encode, alg := some c.signing.alg.toStr, keyid := some c.signing.keyId, covered := ids }

theorem Fits.params {c : Party} {ids : List CId} (h : Fits m rf c ids) : c.params = .ok (c.made ids) := by
  have h1 : Res.collect CId.ofStr c.covered = .ok ids := Res.collect_ok_iff.2 h.texts
  have h2 : hasUnique ids = true := (hasUnique_iff (fun i hi => labels_nodup (h.safe i hi).distinct)).2 h.distinct
  unfold Party.params
  rw [h1]
  simp only [unwrap, Res.bind_ok, SigParams.tryNew, h2]
  cases e : c.nonce <;> simp [SigParams.setKeyInfo, SigParams.setRandomNonce, Party.made, e]

theorem Fits.safeParams {c : Party} {ids : List CId} (h : Fits m rf c ids) : SafeParams (c.made ids) where
  created := by intro t e; injection e with e; subst e; exact h.time
  expires := by intro t e; cases e
  nonce := by
    intro s e
    simp only [Party.made, Option.map_eq_some_iff] at e
    obtain ⟨b, _, rfl⟩ := e
    exact base64_safe b
  alg := by intro s e; injection e with e; subst e; exact alg_safe _
  keyid := by intro s e; injection e with e; subst e; exact h.keyText
  tag := by intro s e; cases e
  ids := h.safe
  distinct := h.distinct

theorem forall₂_of_all {α β : Type} {R : α → β → Prop} {l : List α} (h : ∀ a ∈ l, ∃ b, R a b) : ∃ bs, List.Forall₂ R l bs := by
  induction l with
  | nil => exact ⟨[], .nil⟩
  | cons a t ih =>
    obtain ⟨b, hb⟩ := h a (by simp)
    obtain ⟨bs, hbs⟩ := ih (fun x hx => h x (by simp [hx]))
    exact ⟨b :: bs, .cons hb hbs⟩

theorem Fits.base {c : Party} {ids : List CId} (h : Fits m rf c ids) : ∃ text, BaseOf m rf (c.made ids) text := by
  obtain ⟨vs, hvs⟩ := forall₂_of_all h.values
  exact ⟨_, vs, hvs, rfl⟩

/-- What a party asks for. -/
def Ex.Party.signer (c : Party) (ids : List CId) : Signer := (c.made ids, c.signing, some c.name)

theorem sendAll_of_signEach {l : List Party} {ids : Party → List CId} (hp : ∀ c ∈ l, c.params = .ok (c.made (ids c))) {h' : Headers}
    (h : signEach m rf (l.map fun c => c.signer (ids c)) = (h', .ok ())) : sendAll rf l m = .ok (m.withHeaders h') := by
  induction l generalizing m with
  | nil => injection h with h _; subst h; rw [withHeaders_same]; rfl
  | cons c t ih =>
    rw [List.map_cons] at h
    unfold signEach at h
    split at h
    · rename_i h1 e
      have : c.send rf m = .ok (m.withHeaders h1) := by
        unfold Party.send
        rw [hp c (by simp)]
        have e : setSignature m (c.made (ids c)) c.signing (some c.name) rf = (h1, .ok ()) := e
        simp only [Res.bind_ok, e]
      unfold sendAll
      rw [this, Res.bind_ok, ih (fun x hx => hp x (by simp [hx])) h, withHeaders_twice]
    · rename_i hno
      rw [h] at hno
      exact absurd rfl (hno h')

theorem receiveAll_ok {l : List Party} (h : ∀ c ∈ l, ∃ n, c.receive rf m = .ok n) : receiveAll rf m l = .ok () := by
  induction l with
  | nil => rfl
  | cons c t ih =>
    obtain ⟨n, hn⟩ := h c (by simp)
    unfold receiveAll
    rw [hn]
    exact ih (fun x hx => h x (by simp [hx]))

end

/-- C72: the whole program. A message with a digest that is right and without signature fields is signed by all parties; no step fails;
the message then carries exactly their signatures, in order; every receiver accepts its own; and the digest is still right. -/
theorem C72_scenario {m : Msg} {rf : Option Request} (hw : WfHeaders m.headers) (hf : ∀ r, rf = some r → WfHeaders r.headers)
    (h0 : fieldLines m.headers (c! "signature-input") = []) (h0' : fieldLines m.headers (c! "signature") = [])
    {l : List Party} (hl : l ≠ []) {ids : Party → List CId} (hfit : ∀ c ∈ l, Fits m rf c (ids c))
    (hn : (l.map Party.name).Nodup) (hk : (l.map fun c => c.verifying.keyId).Nodup)
    (hd : ∃ x, digest m = .ok x) :
    ∃ m', scenario rf l m = .ok m' ∧ SameButHeaders m m' ∧
      (∃ hs, List.Forall₂ (fun c sh => SignedBy m rf (c.signer (ids c)) sh) l hs ∧ Carries m'.headers (hs.map fun sh => (sh.name, sh)) ∧
        m'.headers = m.headers ++ hs.flatMap sigLines) ∧
      (∀ c ∈ l, c.receive rf m' = .ok c.name) ∧ ∃ x, digest m' = .ok x := by
  have hsafe : ∀ x ∈ l.map (fun c => c.signer (ids c)), SafeParams x.1 ∧ LegalKey x.label ∧ NotSelf x.1 := by
    intro x hx
    obtain ⟨c, hc, rfl⟩ := List.mem_map.1 hx
    exact ⟨(hfit c hc).safeParams, (hfit c hc).name, (hfit c hc).notSelf⟩
  obtain ⟨hs, hsig⟩ : ∃ hs, List.Forall₂ (fun c sh => SignedBy m rf (c.signer (ids c)) sh) l hs := by
    refine forall₂_of_all fun c hc => ?_
    obtain ⟨tx, htx⟩ := (hfit c hc).base
    obtain ⟨s, hs⟩ := (hfit c hc).signs (utf8 tx)
    exact ⟨⟨c.name, s, c.made (ids c)⟩, rfl, rfl, tx, htx, hs⟩
  have hsig' : List.Forall₂ (SignedBy m rf) (l.map fun c => c.signer (ids c)) hs := List.forall₂_map_left_iff.2 hsig
  have hlab : (l.map (fun c => c.signer (ids c))).map Signer.label = l.map Party.name := by
    rw [List.map_map]; rfl
  have hsh : ∀ sh ∈ hs, SafeHeaders sh := signed_safe hsig' (fun x hx => ⟨(hsafe x hx).1, (hsafe x hx).2.1⟩)
  have hset : setSignatures m (l.map fun c => c.signer (ids c)) rf = (m.headers ++ hs.flatMap sigLines, .ok ()) :=
    (setSignatures_ok hw hf _ _).2 ⟨hs, hsig', fun sh h => by rw [hvOfStr_printable (safe_input_printable (hsh sh h))]; rfl, rfl⟩
  have hsend := sendAll_of_signEach (m := m) (rf := rf) (fun c hc => (hfit c hc).params)
    ((C72_one_by_one hw hf (fun x hx => (hsafe x hx).2.2) _).2 hset)
  obtain ⟨hs2, hsig2, hw', hcar, hbase⟩ := signed_state hw hf h0 h0' (by simpa using hl) hsafe (by rw [hlab]; exact hn) hset
  have ehs : hs2 = hs := by
    -- the base is a function of the message, and signing is a function
    have u : ∀ (k : List Signer) (a b : List SigHeaders), List.Forall₂ (SignedBy m rf) k a → List.Forall₂ (SignedBy m rf) k b → a = b := by
      intro k a b h1
      induction h1 generalizing b with
      | nil => intro h2; cases h2; rfl
      | @cons x sh k a h1 _ ih =>
        intro h2
        cases h2 with
        | @cons _ sh' _ b' h2 h3 =>
          rw [ih b' h3]
          congr 1
          obtain ⟨a1, a2, t1, a3, a4⟩ := h1
          obtain ⟨b1, b2, t2, b3, b4⟩ := h2
          have : t1 = t2 := by
            obtain ⟨q, e1, e2⟩ := (buildBase_spec hw hf t1).2 a3
            obtain ⟨q', e1', e2'⟩ := (buildBase_spec hw hf t2).2 b3
            rw [e1] at e1'; injection e1' with e1'; subst e1'; rw [← e2, ← e2']
          subst this
          rw [a4] at b4; injection b4 with b4
          cases sh; cases sh'
          simp only at a1 a2 b1 b2 b4
          subst a1 a2 b4
          rw [b1, b2]
    exact u _ _ _ hsig2 hsig'
  subst ehs
  have hrec : ∀ c ∈ l, c.receive rf (m.withHeaders (m.headers ++ hs2.flatMap sigLines)) = .ok c.name := by
    intro c hc
    have only : ∀ y ∈ l.map (fun c => c.signer (ids c)), y.1.keyid = some c.verifying.keyId → y = c.signer (ids c) := by
      intro y hy e
      obtain ⟨c', hc', rfl⟩ := List.mem_map.1 hy
      have e : some c'.signing.keyId = some c.verifying.keyId := e
      injection e with e
      rw [← (hfit c' hc').keyId] at e
      rw [inj_of_nodup_map hk hc' hc e]
    obtain ⟨y, hy, e1, e2, _⟩ := C03_one_of_many (now := c.received) (id := some c.verifying.keyId) hw hf h0 h0' hsafe (by rw [hlab]; exact hn) hset
      (x := c.signer (ids c)) (List.mem_map_of_mem (f := fun c : Party => c.signer (ids c)) hc) (hfit c hc).pair (by intro e h; cases h)
      (Or.inr (by rw [(hfit c hc).keyId]; rfl)) (by
        intro y hy hi d s hds
        rw [only y hy (hi _ rfl)] at hds
        rw [(hfit c hc).pair d s hds]; simp)
    have := only y hy (e2 _ rfl)
    subst this
    exact e1
  have hdig : ∃ x, digest (m.withHeaders (m.headers ++ hs2.flatMap sigLines)) = .ok x := by
    obtain ⟨x, hx⟩ := hd
    have eb : body (m.withHeaders (m.headers ++ hs2.flatMap sigLines)) = body m := by cases m <;> rfl
    unfold digest at hx ⊢
    rw [eb]
    refine (C20_first_line_only _ _ _ ?_).1 ⟨x, hx⟩
    rw [headers_withHeaders, lines_fieldLines hw, lines_fieldLines (wf_sigLines hw _), fieldLines_append,
      fieldLines_sigLines_other _ (by decide) (by decide), List.append_nil]
  refine ⟨m.withHeaders (m.headers ++ hs2.flatMap sigLines), ?_, ?_, ⟨hs2, hsig, by rw [headers_withHeaders]; exact hcar, by rw [headers_withHeaders]⟩,
    hrec, hdig⟩
  · have t1 : headerTexts (m.headers ++ hs2.flatMap sigLines) hSignatureInput = .ok (hs2.map SigHeaders.inputValue) := by
      rw [headerTexts_ok hw', show hSignatureInput = c! "signature-input" from rfl, fieldLines_append, h0, fieldLines_sigLines_input]
      unfold LineTexts
      rw [List.nil_append, List.forall₂_map_left_iff, List.forall₂_map_right_iff, List.forall₂_same]
      exact fun sh h => hvToStr_utf8 (safe_input_printable (hsh sh h))
    have t2 : headerTexts (m.headers ++ hs2.flatMap sigLines) hSignature = .ok (hs2.map SigHeaders.signatureValue) := by
      rw [headerTexts_ok hw', show hSignature = c! "signature" from rfl, fieldLines_append, h0', fieldLines_sigLines_sig]
      unfold LineTexts
      rw [List.nil_append, List.forall₂_map_left_iff, List.forall₂_map_right_iff, List.forall₂_same]
      exact fun sh h => hvToStr_utf8 (safe_signature_printable (hsh sh h).name)
    have a1 : (l.all fun c => (hs2.map SigHeaders.inputValue).any fun v => (c.name ++ c! "=(").isPrefixOf v) = true := by
      rw [List.all_eq_true]
      intro c hc
      obtain ⟨sh, hsh2, hb⟩ := forall₂_mem_left hsig _ hc
      rw [List.any_eq_true]
      refine ⟨_, List.mem_map_of_mem hsh2, ?_⟩
      rw [List.isPrefixOf_iff_prefix]
      unfold SigHeaders.inputValue SigParams.disp
      rw [hb.name]
      exact ⟨_, by simp [Signer.label, Party.signer]; rfl⟩
    have a2 : (l.all fun c => (hs2.map SigHeaders.signatureValue).any fun v => (c.name ++ c! "=:").isPrefixOf v) = true := by
      rw [List.all_eq_true]
      intro c hc
      obtain ⟨sh, hsh2, hb⟩ := forall₂_mem_left hsig _ hc
      rw [List.any_eq_true]
      refine ⟨_, List.mem_map_of_mem hsh2, ?_⟩
      rw [List.isPrefixOf_iff_prefix]
      unfold SigHeaders.signatureValue
      rw [hb.name]
      exact ⟨_, by simp [Signer.label, Party.signer]; rfl⟩
    obtain ⟨x, hx⟩ := hdig
    unfold scenario
    rw [hsend]
    simp only [Res.bind_ok, headers_withHeaders, t1, t2, unwrap, a1, a2, assert, if_true, receiveAll_ok (fun c hc => ⟨_, hrec c hc⟩), hx, Res.isOk]
  · cases m <;> simp [SameButHeaders, Msg.withHeaders]

theorem assert_ok {b : Bool} : assert b = .ok () ↔ b = true := by unfold assert; cases b <;> simp

theorem unwrap_ok {ε α : Type} {r : Res ε α} {a : α} : unwrap r = .ok a ↔ r = .ok a := by cases r <;> simp [unwrap]

/-- C72: what a run that ends well has shown, whatever the message, the parties and their keys: every receiver accepted the message at the
end, every label begins a line of either field, the digest is right, and only header fields were changed. -/
theorem C72_checks {m m' : Msg} {rf : Option Request} {l : List Party} (h : scenario rf l m = .ok m') :
    SameButHeaders m m' ∧ (∀ c ∈ l, ∃ n, c.receive rf m' = .ok n) ∧ (∃ x, digest m' = .ok x) ∧
      ∀ c ∈ l, (∃ v t, v ∈ m'.headers.getAll hSignatureInput ∧ hvToStr v = some (c.name ++ c! "=(" ++ t)) ∧
        ∃ v t, v ∈ m'.headers.getAll hSignature ∧ hvToStr v = some (c.name ++ c! "=:" ++ t) := by
  have same : ∀ (l : List Party) (m m' : Msg), sendAll rf l m = .ok m' → SameButHeaders m m' := by
    intro l
    induction l with
    | nil => intro m m' h; injection h with h; subst h; cases m <;> simp [SameButHeaders]
    | cons c t ih =>
      intro m m' h
      unfold sendAll at h
      obtain ⟨m1, h1, h2⟩ := Res.bind_eq_ok.1 h
      have := ih _ _ h2
      unfold Party.send at h1
      obtain ⟨p, _, h1⟩ := Res.bind_eq_ok.1 h1
      split at h1
      · injection h1 with h1
        subst h1
        cases m <;> cases m' <;> exact this
      · cases h1
  have recv : ∀ (l : List Party), receiveAll rf m' l = .ok () → ∀ c ∈ l, ∃ n, c.receive rf m' = .ok n := by
    intro l
    induction l with
    | nil => intro _ c hc; cases hc
    | cons d t ih =>
      intro h c hc
      unfold receiveAll at h
      obtain ⟨_, h1, h2⟩ := Res.bind_eq_ok.1 h
      rcases List.mem_cons.1 hc with rfl | hc
      · have := assert_ok.1 h1
        cases e : c.receive rf m' with
        | ok n => exact ⟨n, rfl⟩
        | err _ => rw [e] at this; cases this
        | panic => rw [e] at this; cases this
      · exact ih h2 c hc
  have text : ∀ {n : Str} {ls : List Str}, headerTexts m'.headers n = .ok ls → ∀ s ∈ ls, ∃ v ∈ m'.headers.getAll n, hvToStr v = some s := by
    intro n ls h s hs
    obtain ⟨v, hv, e⟩ := forall₂_mem_right (Res.collect_ok_iff.1 h) s hs
    exact ⟨v, hv, Res.ofOption_eq_ok.1 e⟩
  unfold scenario at h
  simp only [Res.bind_eq_ok, unwrap_ok] at h
  obtain ⟨m1, h1, ins, h2, sgs, h3, _, h4, _, h5, _, h6, _, h7, h8⟩ := h
  injection h8 with h8
  subst h8
  refine ⟨same _ _ _ h1, recv _ h6, ?_, ?_⟩
  · cases e : digest m1 with
    | ok x => exact ⟨x, rfl⟩
    | err _ => rw [e] at h7; cases h7
    | panic => rw [e] at h7; cases h7
  · intro c hc
    constructor
    · obtain ⟨s, hs, hp⟩ := List.any_eq_true.1 (List.all_eq_true.1 (assert_ok.1 h4) c hc)
      obtain ⟨t, rfl⟩ := List.isPrefixOf_iff_prefix.1 hp
      obtain ⟨v, hv, e⟩ := text h2 _ hs
      exact ⟨v, t, hv, e⟩
    · obtain ⟨s, hs, hp⟩ := List.any_eq_true.1 (List.all_eq_true.1 (assert_ok.1 h5) c hc)
      obtain ⟨t, rfl⟩ := List.isPrefixOf_iff_prefix.1 hp
      obtain ⟨v, hv, e⟩ := text h3 _ hs
      exact ⟨v, t, hv, e⟩

/-- C72: with a wrong digest no program ends well. -/
theorem C72_wrong_digest {m : Msg} {rf : Option Request} (hw : WfHeaders m.headers) (hf : ∀ r, rf = some r → WfHeaders r.headers)
    {l : List Party} {ids : Party → List CId} (hfit : ∀ c ∈ l, Fits m rf c (ids c)) (hd : ∀ x, digest m ≠ .ok x) (m' : Msg) :
    scenario rf l m ≠ .ok m' := by
  intro h
  obtain ⟨_, _, ⟨x, hx⟩, _⟩ := C72_checks h
  have hsafe : ∀ y ∈ l.map (fun c => c.signer (ids c)), NotSelf y.1 := by
    intro y hy
    obtain ⟨c, hc, rfl⟩ := List.mem_map.1 hy
    exact (hfit c hc).notSelf
  obtain ⟨hs, hsig⟩ : ∃ hs, List.Forall₂ (fun c sh => SignedBy m rf (c.signer (ids c)) sh) l hs := by
    refine forall₂_of_all fun c hc => ?_
    obtain ⟨tx, htx⟩ := (hfit c hc).base
    obtain ⟨s, hs⟩ := (hfit c hc).signs (utf8 tx)
    exact ⟨⟨c.name, s, c.made (ids c)⟩, rfl, rfl, tx, htx, hs⟩
  have hsig' : List.Forall₂ (SignedBy m rf) (l.map fun c => c.signer (ids c)) hs := List.forall₂_map_left_iff.2 hsig
  have hsh : ∀ sh ∈ hs, SafeHeaders sh := signed_safe hsig' (fun y hy => by
    obtain ⟨c, hc, rfl⟩ := List.mem_map.1 hy
    exact ⟨(hfit c hc).safeParams, (hfit c hc).name⟩)
  have hset : setSignatures m (l.map fun c => c.signer (ids c)) rf = (m.headers ++ hs.flatMap sigLines, .ok ()) :=
    (setSignatures_ok hw hf _ _).2 ⟨hs, hsig', fun sh h => by rw [hvOfStr_printable (safe_input_printable (hsh sh h))]; rfl, rfl⟩
  have hsend := sendAll_of_signEach (m := m) (rf := rf) (fun c hc => (hfit c hc).params) ((C72_one_by_one hw hf hsafe _).2 hset)
  have e : m' = m.withHeaders (m.headers ++ hs.flatMap sigLines) := by
    unfold scenario at h
    rw [hsend] at h
    simp only [Res.bind_eq_ok, Res.bind_ok, unwrap_ok] at h
    obtain ⟨_, _, _, _, _, _, _, _, _, _, _, _, h8⟩ := h
    injection h8 with h8
    exact h8.symm
  subst e
  have eb : body (m.withHeaders (m.headers ++ hs.flatMap sigLines)) = body m := by cases m <;> rfl
  unfold digest at hx hd
  rw [eb] at hx
  obtain ⟨y, hy⟩ := (C20_first_line_only _ m.headers _ (by
    rw [headers_withHeaders, lines_fieldLines hw, lines_fieldLines (wf_sigLines hw _), fieldLines_append,
      fieldLines_sigLines_other _ (by decide) (by decide), List.append_nil])).1 ⟨x, hx⟩
  exact hd y hy

/-! ### Messages from text -/

theorem fieldLines_insert_digest {h : Headers} (hw : WfHeaders h) (v : Bytes) :
    WfHeaders (h.insert hContentDigest v) ∧ fieldLines (h.insert hContentDigest v) (c! "content-digest") = [v] ∧
      ∀ f, lower f ≠ c! "content-digest" → fieldLines (h.insert hContentDigest v) f = fieldLines h f := by
  have w : WfHeaders (h.insert hContentDigest v) := by
    intro kv hkv
    rcases List.mem_append.1 hkv with hkv | hkv
    · exact hw kv (List.mem_of_mem_filter hkv)
    · rw [List.mem_singleton.1 hkv]; show WfName (c! "content-digest"); exact ⟨by decide, by decide, by decide⟩
  refine ⟨w, ?_, ?_⟩
  · rw [← getAll_fieldLines w, getAll_insert_same (by decide)]
  · intro f hf
    rw [← getAll_fieldLines w, ← getAll_fieldLines hw, getAll_insert_other]
    intro e
    unfold hdrKey at e
    split at e
    · injection e with e; exact hf e
    · cases e

/-- C72: what the digest check of a signed message says when its body is replaced and its header is not. -/
theorem C72_digest_binds {h : Headers} (hw : WfHeaders h) {t : DigestType} {b : Bytes}
    (hd : fieldLines h (c! "content-digest") = [utf8 (digestText t b)]) (hs : List SigHeaders) (b2 : Bytes) :
    (∃ x, verifyDigest (h ++ hs.flatMap sigLines) (.data b2) = .ok x) ↔ hashOf t b2 = hashOf t b := by
  have hl : (Spec.lines (h ++ hs.flatMap sigLines) (c! "content-digest")).head? = some (utf8 (digestText t b)) := by
    rw [lines_fieldLines (wf_sigLines hw _), fieldLines_append, fieldLines_sigLines_other _ (by decide) (by decide), hd]; rfl
  have st : States (utf8 (digestText t b)) t (hashOf t b) := ⟨_, [], hvToStr_utf8 (digestText_printable t b), digestText_parse t b⟩
  constructor
  · rintro ⟨x, hx⟩
    by_contra hne
    rw [(((C20_errors _ (.data b2)).2 _ hl).2.2 t _ st).2 b2 rfl (fun e => hne e.symm)] at hx
    cases hx
  · intro e
    exact ⟨(_, _), (verifyDigest_ok _ _ _ _).2 ⟨rfl, rfl, b2, t, _, rfl, hl, e ▸ st⟩⟩

/-- C72: nobody signs the body of a response when its own Content-Digest field is not covered: with any other body and the digest of
that body, all receivers accept and so does the digest check. -/
theorem C72_response_unprotected {s s' : Response} {rf : Option Request} (hw : WfHeaders s.headers) (hf : ∀ r, rf = some r → WfHeaders r.headers)
    {l : List Party} {ids : Party → List CId} {hs : List SigHeaders}
    (hsig : List.Forall₂ (fun c sh => SignedBy (.res s) rf (c.signer (ids c)) sh) l hs)
    (hcar : Carries s'.headers (hs.map fun sh => (sh.name, sh))) (he : s'.headers = s.headers ++ hs.flatMap sigLines)
    (hrec : ∀ c ∈ l, c.receive rf (.res s') = .ok c.name)
    (hcov : ∀ c ∈ l, ∀ i ∈ ids c, .req ∉ i.params → ∀ f, i.name = .field f → lower f ≠ c! "content-digest") (t : DigestType) (b2 : Bytes) :
    ∃ s2, ({ s' with body := .data b2 } : Response).setContentDigest t = .ok s2 ∧ s2.status = s'.status ∧ s2.body = .data b2 ∧
      (∀ c ∈ l, c.receive rf (.res s2) = .ok c.name) ∧ ∃ x, digest (.res s2) = .ok x := by
  have hw' : WfHeaders s'.headers := he ▸ wf_sigLines hw _
  obtain ⟨w1, w2, w3⟩ := fieldLines_insert_digest hw' (utf8 (digestText t b2))
  refine ⟨{ s' with headers := s'.headers.insert hContentDigest (utf8 (digestText t b2)), body := .data b2 }, ?_, rfl, rfl, ?_, ?_⟩
  · unfold Response.setContentDigest
    simp only [setDigest_data, Res.bind_ok]
  · intro c hc
    rw [← hrec c hc]
    refine ((C24_verify (m := .res s') (m' := .res { s' with headers := s'.headers.insert hContentDigest (utf8 (digestText t b2)), body := .data b2 })
      hw' w1 rfl rfl hf hf (w3 _ (by decide)).symm (w3 _ (by decide)).symm ?_ ?_ []).2 _ _).symm
    · intro k hk kv hkv i hi hr
      rw [carries_unique hw' hk hcar] at hkv
      obtain ⟨sh, hsh, rfl⟩ := List.mem_map.1 hkv
      obtain ⟨c', hc', hb⟩ := forall₂_mem_right hsig _ hsh
      have hi : i ∈ ids c' := by
        have e : sh.params = c'.made (ids c') := hb.params
        simp only [e] at hi
        exact hi
      cases hn : i.name with
      | field f => exact (w3 f (hcov c' hc' i hi hr f hn)).symm
      | derived d => cases d <;> first | rfl | exact ⟨rfl, rfl⟩ | exact (w3 _ (by decide)).symm
    · intro k hk kv hkv i hi hr r r' e e'
      rw [e] at e'; injection e' with e'; subst e'
      cases i.name with
      | field f => rfl
      | derived d => cases d <;> first | rfl | exact ⟨rfl, rfl⟩
  · have := (C72_digest_binds (h := s'.headers.insert hContentDigest (utf8 (digestText t b2))) w1 w2 [] b2).2 rfl
    rw [List.flatMap_nil, List.append_nil] at this
    exact this

/-- C72: a request built from text with a digest. -/
theorem C72_build_request (U : UriLib) {method target : Str} {lines : List (Str × Bytes)} {b : Bytes} {r0 : Request}
    (h : Request.ofText U method target lines (.data b) = some r0) (t : DigestType) :
    ∃ r, buildRequest U method target lines (.data b) t = .ok r ∧ r.method = method ∧ r.uri = r0.uri ∧ r.body = .data b ∧ WfHeaders r.headers ∧
      fieldLines r.headers (c! "content-digest") = [utf8 (digestLabel t ++ c! "=:" ++ Base64.encode (hashOf t b) ++ c! ":")] ∧
      (∀ f, lower f ≠ c! "content-digest" → fieldLines r.headers f = (lines.filter fun kv => lower kv.1 = lower f).map Prod.snd) ∧
      ∃ x, digest (.req r) = .ok x := by
  obtain ⟨w, hm, _, hb⟩ := C71_request_wf U h
  obtain ⟨w1, w2, w3⟩ := fieldLines_insert_digest w.headers (utf8 (digestText t b))
  refine ⟨{ r0 with headers := r0.headers.insert hContentDigest (utf8 (digestText t b)) }, ?_, hm, rfl, hb, w1, ?_, ?_, ?_⟩
  · unfold buildRequest Request.setContentDigest
    rw [h, Res.ofOption_some]
    simp only [unwrap, Res.bind_ok, hb, setDigest_data]
  · rw [w2]
    cases t <;> simp [digestText, DigestType.toStr, deriveDigest, hashOf, digestLabel]
  · intro f hf
    rw [w3 f hf]; exact C71_field_lines U h f
  · refine ⟨_, (verifyDigest_ok _ _ _ _).2 ⟨rfl, rfl, b, t, _, hb, ?_, _, [], hvToStr_utf8 (digestText_printable t b), digestText_parse t b⟩⟩
    show (Spec.lines (r0.headers.insert _ _) _).head? = _
    rw [lines_fieldLines w1, w2]; rfl

/-- C72: the same for a response. -/
theorem C72_build_response {status : Nat} {lines : List (Str × Bytes)} {b : Bytes} {s0 : Response}
    (h : Response.ofText status lines (.data b) = some s0) (t : DigestType) :
    ∃ s, buildResponse status lines (.data b) t = .ok s ∧ s.status = status ∧ s.body = .data b ∧ WfHeaders s.headers ∧
      fieldLines s.headers (c! "content-digest") = [utf8 (digestLabel t ++ c! "=:" ++ Base64.encode (hashOf t b) ++ c! ":")] ∧
      (∀ f, lower f ≠ c! "content-digest" → fieldLines s.headers f = fieldLines s0.headers f) ∧
      ∃ x, digest (.res s) = .ok x := by
  obtain ⟨w, hm, _, _, hb⟩ := C71_response_wf h
  obtain ⟨w1, w2, w3⟩ := fieldLines_insert_digest w (utf8 (digestText t b))
  refine ⟨{ s0 with headers := s0.headers.insert hContentDigest (utf8 (digestText t b)) }, ?_, hm, hb, w1, ?_, w3, ?_⟩
  · unfold buildResponse Response.setContentDigest
    rw [h, Res.ofOption_some]
    simp only [unwrap, Res.bind_ok, hb, setDigest_data]
  · rw [w2]
    cases t <;> simp [digestText, DigestType.toStr, deriveDigest, hashOf, digestLabel]
  · refine ⟨_, (verifyDigest_ok _ _ _ _).2 ⟨rfl, rfl, b, t, _, hb, ?_, _, [], hvToStr_utf8 (digestText_printable t b), digestText_parse t b⟩⟩
    show (Spec.lines (s0.headers.insert _ _) _).head? = _
    rw [lines_fieldLines w1, w2]; rfl

/-! ### The keys of the examples -/

def exSeed : Bytes := [52, 135, 0, 79, 190, 171, 80, 79, 237, 63, 45, 147, 233, 137, 181, 47, 161, 45, 255, 53, 7, 74, 58, 8, 92, 150, 130, 231, 3, 20, 223, 194]
def exPub : Bytes := [214, 44, 76, 65, 204, 78, 227, 163, 203, 150, 4, 31, 97, 46, 58, 138, 241, 93, 250, 125, 2, 112, 49, 210, 41, 73, 238, 134, 109, 226, 212, 237]

set_option maxRecDepth 100000 in
theorem exPub_eq : Ed.pub exSeed = exPub := by
  rw [Ed.pub, ed_smul_fast]
  decide +kernel

theorem ex_secret_file : ∃ der, PemText Libs.std.rsa.der (c! "PRIVATE KEY") der edSecret ∧
    PrivateFile Libs.std.rsa.der .ed25519 (4 :: 32 :: exSeed) der := by
  have h : ((Der.pem Der.lib edSecret).bind fun x => (Der.pkiOfDer Der.lib x.2).map fun p => (x.1, p.oid, p.privateKey)) =
      some (c! "PRIVATE KEY", oidEd25519, 4 :: 32 :: exSeed) := by decide +kernel
  simp only [Option.bind_eq_some_iff, Option.map_eq_some_iff, Prod.mk.injEq, Prod.exists] at h
  obtain ⟨l, der, h1, pki, h2, h3, h4, h5⟩ := h
  subst h3
  exact ⟨der, pemText_of h1, pki_declares.1 ⟨pki, h2, h4, h5⟩⟩

theorem ex_public_file : ∃ der, PemText Libs.std.rsa.der (c! "PUBLIC KEY") der edPublic ∧
    PublicFile Libs.std.rsa.der .ed25519 exPub der := by
  have h : PublicKey.fromPem (P := Libs.std.prims) true .ed25519 edPublic = .ok (.ed25519 (P := Libs.std.prims) ⟨exPub, rfl⟩) := by rfl
  obtain ⟨der, b, h1, h2, h3⟩ := (C68_public_pem Libs.std true .ed25519 _ _).1 h
  obtain ⟨hl, e⟩ := pk_ed_iff.1 h3
  rw [show b = exPub from ((pk_ed_inj (L := Libs.std)).1 e).symm] at h2
  exact ⟨der, h1, h2⟩

theorem exSeed_ok : exSeed.length = 32 ∧ exSeed ≠ List.replicate 32 0 := by decide +kernel


/-- A party with these constants whose keys belong together. -/
structure Ready (c : Party) (covered : List Str) (name : Str) (created : UInt64) (id : Str) : Prop where
  covered : c.covered = covered
  name : c.name = name
  created : c.created = created
  pair : KeyPair c.signing c.verifying
  signs : ∀ d, ∃ s, c.signing.sign d = .ok s
  signId : c.signing.keyId = id
  verifyId : c.verifying.keyId = id
  safe : SafeText id

def exEdId : Str := c! "gjrE7ACMxgzYfFHgabgf4kLTg1eKIdsJ94AiFTFj1is="

theorem exEdId_eq : Base64.encode (Sha2.sha256 exPub) = exEdId := by decide +kernel

theorem ready_ed (R : Run) (hL : R.L.rsa.der = Der.lib) (covered : List Str) :
    ∃ c, R.ed covered = .ok c ∧ Ready c covered (c! "siged25519") R.t1 exEdId := by
  obtain ⟨der, h1, h2⟩ := ex_secret_file
  obtain ⟨der', h1', h2'⟩ := ex_public_file
  have e : Libs.std.rsa.der = R.L.rsa.der := hL.symm
  rw [e] at h1 h2 h1' h2'
  have hs : SecretKey.fromPem (P := R.L.prims) R.rsa .ed25519 edSecret = .ok (.ed25519 (P := R.L.prims) ⟨exSeed, exSeed_ok⟩) := by
    refine (C68_secret_pem R.L R.rsa .ed25519 _ _).2 ⟨der, h1, ?_⟩
    rw [C68_key_bytes R.L R.rsa h2 (b := exSeed) ⟨4, 32, rfl⟩ rfl]
    exact sk_ed_iff.2 ⟨exSeed_ok, rfl⟩
  have hp : PublicKey.fromPem (P := R.L.prims) R.rsa .ed25519 edPublic = .ok (.ed25519 (P := R.L.prims) ⟨exPub, rfl⟩) :=
    (C68_public_pem R.L R.rsa .ed25519 _ _).2 ⟨der', exPub, h1', h2', pk_ed_iff.2 ⟨rfl, rfl⟩⟩
  have hpk : (SecretKey.ed25519 (P := R.L.prims) ⟨exSeed, exSeed_ok⟩).publicKey = .ed25519 (P := R.L.prims) ⟨exPub, rfl⟩ :=
    (pk_ed_inj (L := R.L) (h := Ed.encode_length _)).2 exPub_eq
  have hid : (PublicKey.ed25519 (P := R.L.prims) ⟨exPub, rfl⟩).keyId = exEdId := exEdId_eq
  refine ⟨⟨covered, (SecretKey.ed25519 (P := R.L.prims) ⟨exSeed, exSeed_ok⟩).signing R.noise, none, c! "siged25519", R.t1,
    (PublicKey.ed25519 (P := R.L.prims) ⟨exPub, rfl⟩).verifying, R.t1'⟩, ?_, rfl, rfl, rfl, ?_, fun d => ⟨_, rfl⟩, ?_, hid, ?_⟩
  · unfold Run.ed
    rw [hs, hp]; rfl
  · rw [← hpk]; exact C70_key_pair R.L _ _
  · exact (congrArg PublicKey.keyId hpk).trans hid
  · rw [← exEdId_eq]; exact base64_safe _

def exHmacKey : Bytes := (Base64.decode true hmacKey).getD []
def exHsId : Str := Base64.encode (Sha2.sha256 exHmacKey)

theorem exHs_import : SharedKey.fromBase64 .hmacSha256 hmacKey = .ok (.hmacSha256 exHmacKey) := by decide +kernel

theorem exIds_differ : exEdId ≠ exHsId := by decide +kernel

theorem ready_hs (R : Run) (covered : List Str) : ∃ c, R.hs covered = .ok c ∧ Ready c covered (c! "sighs256") R.t2 exHsId := by
  refine ⟨⟨covered, (SharedKey.hmacSha256 exHmacKey).signing, some R.nonce, c! "sighs256", R.t2, (SharedKey.hmacSha256 exHmacKey).verifying, R.t2'⟩,
    ?_, rfl, rfl, rfl, shared_pair _, fun d => ⟨_, rfl⟩, rfl, rfl, base64_safe _⟩
  unfold Run.hs
  rw [exHs_import]; rfl

/-! ### The programs -/

def exReqIds : List CId := [⟨.derived .method, []⟩, ⟨.field (c! "date"), []⟩, ⟨.field (c! "content-type"), []⟩, ⟨.field (c! "content-digest"), []⟩]
def exResIds : List CId := [⟨.derived .status, []⟩, ⟨.derived .method, [.req]⟩, ⟨.field (c! "date"), []⟩, ⟨.field (c! "content-type"), []⟩,
  ⟨.field (c! "content-digest"), [.req]⟩]

theorem exReqIds_eq : Res.collect CId.ofStr requestCovered = .ok exReqIds := by decide +kernel
theorem exResIds_eq : Res.collect CId.ofStr responseCovered = .ok exResIds := by decide +kernel

theorem exIds_rules : ∀ i ∈ exReqIds ++ exResIds, (∀ p ∈ i.params, p = .req) ∧ i.params.length ≤ 1 ∧ i.name ≠ .derived .signatureParams ∧
    (∀ f, i.name = .field f → SafeText f ∧ f.head? ≠ some '@' ∧ lower f ≠ c! "signature" ∧ lower f ≠ c! "signature-input") := by
  intro i hi
  simp only [exReqIds, exResIds, List.cons_append, List.nil_append, List.mem_cons, List.not_mem_nil, or_false] at hi
  rcases hi with rfl | rfl | rfl | rfl | rfl | rfl | rfl | rfl | rfl
  all_goals
    refine ⟨by simp, by simp, by simp, ?_⟩
    intro f hf
    first
      | (injection hf with hf; subst hf; exact ⟨by unfold SafeText; decide, by decide, by decide, by decide⟩)
      | cases hf

theorem exIds_safe : ∀ i ∈ exReqIds ++ exResIds, SafeId i := by
  intro i hi
  obtain ⟨h1, h2, _, h4⟩ := exIds_rules i hi
  have no : ∀ p ∈ i.params, p ≠ .req → False := fun p hp hn => hn (h1 p hp)
  refine ⟨⟨?_, fun n hn => (no _ hn (by simp)).elim, ?_, fun f hf => (h4 f hf).2.1⟩, fun f hf => (h4 f hf).1,
    fun k hk => (no _ hk (by simp)).elim, fun n hn => (no _ hn (by simp)).elim⟩
  · match hp : i.params, h2 with
    | [], _ => simp
    | [_], _ => simp
  · rintro (h | h | h | ⟨k, h⟩) <;> exact (no _ h (by simp)).elim

theorem exIds_distinct : exReqIds.Pairwise (fun a b => ¬ SameId a b) ∧ exResIds.Pairwise (fun a b => ¬ SameId a b) := by
  constructor
  · exact (hasUnique_iff (fun i hi => labels_nodup (exIds_safe i (by simp [hi])).distinct)).1 (by decide)
  · exact (hasUnique_iff (fun i hi => labels_nodup (exIds_safe i (by simp [hi])).distinct)).1 (by decide)

theorem Ready.fits {m : Msg} {rf : Option Request} {c : Party} {covered : List Str} {name id : Str} {t : UInt64} (h : Ready c covered name t id)
    {ids : List CId} (h1 : Res.collect CId.ofStr covered = .ok ids) (h2 : ∀ i ∈ ids, i ∈ exReqIds ++ exResIds)
    (h3 : ids.Pairwise (fun a b => ¬ SameId a b)) (h4 : ∀ i ∈ ids, ∃ v, HasValue m rf i v) (h5 : LegalKey name) (h6 : t.toNat < 10 ^ 15) :
    Fits m rf c ids where
  texts := by rw [h.covered]; exact Res.collect_ok_iff.1 h1
  safe i hi := exIds_safe i (h2 i hi)
  distinct := h3
  notSelf i hi _ := ⟨(exIds_rules i (h2 i hi)).2.2.1, fun f hf => ((exIds_rules i (h2 i hi)).2.2.2 f hf).2.2⟩
  values := h4
  name := by rw [h.name]; exact h5
  time := by rw [h.created]; exact h6
  pair := h.pair
  signs := h.signs
  keyId := by rw [h.signId, h.verifyId]
  keyText := by rw [h.signId]; exact h.safe

/-- A field whose lines are visible text has a value. -/
theorem field_has_value {h : Headers} {f : Str} {ps : List CParam} (hps : ∀ p ∈ ps, p = .req) (hl : ∀ b ∈ fieldLines h f, ∃ t, hvToStr b = some t) :
    ∃ v, FieldValue h f ps v := by
  obtain ⟨ts, hts⟩ := forall₂_of_all hl
  refine ⟨_, ts, ts, hts, ?_, rfl⟩
  induction ps with
  | nil => exact .done _
  | cons p t ih =>
    rw [hps p (by simp)]
    exact .req (ih fun q hq => hps q (by simp [hq]))

theorem digest_line_visible (t : DigestType) (b : Bytes) :
    hvToStr (utf8 (digestLabel t ++ c! "=:" ++ Base64.encode (hashOf t b) ++ c! ":")) = some (digestLabel t ++ c! "=:" ++ Base64.encode (hashOf t b) ++ c! ":") := by
  have e : digestLabel t ++ c! "=:" ++ Base64.encode (hashOf t b) ++ c! ":" = digestText t b := by
    cases t <;> simp [digestText, DigestType.toStr, deriveDigest, hashOf, digestLabel]
  rw [e]; exact hvToStr_utf8 (digestText_printable t b)

theorem exLines_visible (f : Str) : ∀ b ∈ (lines.filter fun kv => lower kv.1 = lower f).map Prod.snd, ∃ t, hvToStr b = some t := by
  have h : ∀ kv ∈ Ex.lines, (hvToStr kv.2).isSome := by decide +kernel
  intro b hb
  obtain ⟨kv, hkv, rfl⟩ := List.mem_map.1 hb
  exact Option.isSome_iff_exists.1 (h kv (List.mem_of_mem_filter hkv))

theorem exLines_unsigned : (lines.filter fun kv => lower kv.1 = lower (c! "signature-input")).map Prod.snd = [] ∧
    (lines.filter fun kv => lower kv.1 = lower (c! "signature")).map Prod.snd = [] := by decide +kernel

/-- The request the programs build, with any body. -/
theorem ex_request (U : UriLib) (hU : ∃ u, Uri.parse U target = some u) (b : Bytes) :
    ∃ r, buildRequest U (c! "GET") target Ex.lines (.data b) .sha256 = .ok r ∧ r.body = .data b ∧ r.method = c! "GET" ∧ WfHeaders r.headers ∧
      fieldLines r.headers (c! "signature-input") = [] ∧ fieldLines r.headers (c! "signature") = [] ∧
      (∀ f, ∀ l ∈ fieldLines r.headers f, ∃ t, hvToStr l = some t) ∧ (∃ x, digest (.req r) = .ok x) ∧
      fieldLines r.headers (c! "content-digest") = [utf8 (digestText .sha256 b)] := by
  obtain ⟨u, hu⟩ := hU
  have h0 : ∃ r0, Request.ofText U (c! "GET") target Ex.lines (.data b) = some r0 := by
    unfold Request.ofText
    rw [hu, show methodOfText (c! "GET") = some (c! "GET") by decide, show headersOfText Ex.lines = some Ex.lines by decide +kernel]
    exact ⟨_, rfl⟩
  obtain ⟨r0, h0⟩ := h0
  obtain ⟨r, h1, h2, _, h4, h5, h6, h7, h8⟩ := C72_build_request U h0 .sha256
  refine ⟨r, h1, h4, h2, h5, (h7 _ (by decide)).trans exLines_unsigned.1, (h7 _ (by decide)).trans exLines_unsigned.2, ?_, h8,
    by rw [h6]; simp [digestText, DigestType.toStr, deriveDigest, hashOf, digestLabel]⟩
  intro f l hl
  by_cases hf : lower f = c! "content-digest"
  · have e : fieldLines r.headers f = fieldLines r.headers (c! "content-digest") := by
      unfold fieldLines; rw [hf]; rfl
    rw [e, h6, List.mem_singleton] at hl
    subst hl
    exact ⟨_, digest_line_visible _ _⟩
  · rw [h7 f hf] at hl; exact exLines_visible f l hl

/-- The response they build. -/
theorem ex_response (b : Bytes) :
    ∃ s, buildResponse 200 Ex.lines (.data b) .sha256 = .ok s ∧ s.body = .data b ∧ s.status = 200 ∧ WfHeaders s.headers ∧
      fieldLines s.headers (c! "signature-input") = [] ∧ fieldLines s.headers (c! "signature") = [] ∧
      (∀ f, ∀ l ∈ fieldLines s.headers f, ∃ t, hvToStr l = some t) ∧ ∃ x, digest (.res s) = .ok x := by
  have h0 : Response.ofText 200 Ex.lines (.data b) = some ⟨200, Ex.lines, .data b⟩ := by
    unfold Response.ofText
    rw [show headersOfText Ex.lines = some Ex.lines by decide +kernel]
    rfl
  obtain ⟨s, h1, h2, h4, h5, h6, h7, h8⟩ := C72_build_response h0 .sha256
  refine ⟨s, h1, h4, h2, h5, (h7 _ (by decide)).trans exLines_unsigned.1, (h7 _ (by decide)).trans exLines_unsigned.2, ?_, h8⟩
  intro f l hl
  by_cases hf : lower f = c! "content-digest"
  · have e : fieldLines s.headers f = fieldLines s.headers (c! "content-digest") := by
      unfold fieldLines; rw [hf]; rfl
    rw [e, h6, List.mem_singleton] at hl
    subst hl
    exact ⟨_, digest_line_visible _ _⟩
  · rw [h7 f hf] at hl; exact exLines_visible f l hl

theorem ex_request_values {r : Request} (h : ∀ f, ∀ l ∈ fieldLines r.headers f, ∃ t, hvToStr l = some t) :
    ∀ i ∈ exReqIds, ∃ v, HasValue (.req r) none i v := by
  intro i hi
  simp only [exReqIds, List.mem_cons, List.not_mem_nil, or_false] at hi
  rcases hi with rfl | rfl | rfl | rfl
  · exact ⟨_, by simp only [HasValue, List.not_mem_nil, if_false]; exact ⟨by simp [DerivedParams], rfl⟩⟩
  all_goals
    obtain ⟨v, hv⟩ := field_has_value (ps := []) (by simp) (h _)
    exact ⟨v, by simp only [HasValue, List.not_mem_nil, if_false]; exact hv⟩

theorem ex_response_values {s : Response} {r : Request} (h : ∀ f, ∀ l ∈ fieldLines r.headers f, ∃ t, hvToStr l = some t)
    (h' : ∀ f, ∀ l ∈ fieldLines s.headers f, ∃ t, hvToStr l = some t) :
    ∀ i ∈ exResIds, ∃ v, HasValue (.res s) (some r) i v := by
  intro i hi
  simp only [exResIds, List.mem_cons, List.not_mem_nil, or_false] at hi
  rcases hi with rfl | rfl | rfl | rfl | rfl
  · exact ⟨_, by simp only [HasValue, List.not_mem_nil, if_false]; exact ⟨rfl, rfl⟩⟩
  · exact ⟨_, by simp only [HasValue, List.mem_singleton, if_true]; exact ⟨s, r, rfl, rfl, by simp [DerivedParams], rfl⟩⟩
  · obtain ⟨v, hv⟩ := field_has_value (ps := []) (by simp) (h' _)
    exact ⟨v, by simp only [HasValue, List.not_mem_nil, if_false]; exact hv⟩
  · obtain ⟨v, hv⟩ := field_has_value (ps := []) (by simp) (h' _)
    exact ⟨v, by simp only [HasValue, List.not_mem_nil, if_false]; exact hv⟩
  · obtain ⟨v, hv⟩ := field_has_value (ps := [.req]) (by simp) (h _)
    exact ⟨v, by simp only [HasValue, List.mem_singleton, if_true]; exact ⟨s, r, rfl, rfl, hv⟩⟩

/-- C72: the programs of hyper-request.rs run to their end, for every body, every time at which they are run, every nonce and every
choice of the libraries with the rules of crate der for key files. When the body is replaced on the way, the digest check at the end
fails unless the new body has the same SHA-256. -/
theorem C72_request_examples (R : Run) (hL : R.L.rsa.der = Der.lib) (U : UriLib) (hU : ∃ u, Uri.parse U target = some u) (b : Bytes)
    (h1 : R.t1.toNat < 10 ^ 15) (h2 : R.t2.toNat < 10 ^ 15) :
    (∃ r, R.requestSingle U b = .ok (.req r) ∧ r.body = .data b ∧
      ∀ b2, (∃ x, digest (.req { r with body := .data b2 }) = .ok x) ↔ hashOf .sha256 b2 = hashOf .sha256 b) ∧
    ∃ r, R.requestMultiple U b = .ok (.req r) ∧ r.body = .data b ∧
      ∀ b2, (∃ x, digest (.req { r with body := .data b2 }) = .ok x) ↔ hashOf .sha256 b2 = hashOf .sha256 b := by
  obtain ⟨c, hc, rc⟩ := ready_ed R hL requestCovered
  obtain ⟨c', hc', rc'⟩ := ready_hs R requestCovered
  obtain ⟨r, hr, hb, _, hw, hi, hs, hv, hd, hline⟩ := ex_request U hU b
  have f : Fits (.req r) none c exReqIds := rc.fits exReqIds_eq (by intro i hi; simp [hi]) exIds_distinct.1 (ex_request_values hv) (by decide) h1
  have f' : Fits (.req r) none c' exReqIds := rc'.fits exReqIds_eq (by intro i hi; simp [hi]) exIds_distinct.1 (ex_request_values hv) (by decide) h2
  have fin : ∀ (m : Msg), SameButHeaders (.req r) m → (∃ hs : List SigHeaders, m.headers = r.headers ++ hs.flatMap sigLines) →
      ∃ r', m = .req r' ∧ r'.body = .data b ∧
        ∀ b2, (∃ x, digest (.req { r' with body := .data b2 }) = .ok x) ↔ hashOf .sha256 b2 = hashOf .sha256 b := by
    rintro (r' | s) hsame ⟨hs, e⟩
    · refine ⟨r', rfl, hsame.2.2.trans hb, fun b2 => ?_⟩
      rw [← C72_digest_binds hw hline hs b2, ← show r'.headers = _ from e]
      rfl
    · exact hsame.elim
  constructor
  · obtain ⟨m, hm, hsame, ⟨hs', _, _, e⟩, _⟩ := C72_scenario (m := .req r) (rf := none) hw (by simp) hi hs (l := [c]) (by simp)
      (ids := fun _ => exReqIds) (by intro x hx; rw [List.mem_singleton.1 hx]; exact f) (by simp) (by simp) hd
    obtain ⟨r', rfl, k⟩ := fin m hsame ⟨hs', e⟩
    exact ⟨r', by unfold Run.requestSingle requestProgram; rw [hc, hr]; exact hm, k⟩
  · obtain ⟨m, hm, hsame, ⟨hs', _, _, e⟩, _⟩ := C72_scenario (m := .req r) (rf := none) hw (by simp) hi hs (l := [c, c']) (by simp)
      (ids := fun _ => exReqIds)
      (by
        intro x hx
        rcases List.mem_cons.1 hx with rfl | hx
        · exact f
        · rw [List.mem_singleton.1 hx]; exact f')
      (by simp [rc.name, rc'.name]) (by simp [rc.verifyId, rc'.verifyId, exIds_differ]) hd
    obtain ⟨r', rfl, k⟩ := fin m hsame ⟨hs', e⟩
    exact ⟨r', by unfold Run.requestMultiple requestProgram; rw [hc, hc', hr]; exact hm, k⟩

/-- C72: so do those of hyper-response.rs. But `COVERED_COMPONENTS` there has `"content-digest";req`, the digest of the request, and
nothing of the body of the response: whoever carries the response can replace the body and the digest, and all the checks made by the
program pass. -/
theorem C72_response_examples (R : Run) (hL : R.L.rsa.der = Der.lib) (U : UriLib) (hU : ∃ u, Uri.parse U target = some u) (b b' : Bytes)
    (h1 : R.t1.toNat < 10 ^ 15) (h2 : R.t2.toNat < 10 ^ 15) :
    ∃ r c c', buildRequest U (c! "GET") target Ex.lines (.data b) .sha256 = .ok r ∧ R.ed responseCovered = .ok c ∧ R.hs responseCovered = .ok c' ∧
      (∃ s, R.responseSingle U b b' = .ok (.res s) ∧ s.body = .data b' ∧
        ∀ b2, ∃ s2, ({ s with body := .data b2 } : Response).setContentDigest .sha256 = .ok s2 ∧ s2.body = .data b2 ∧
          c.receive (some r) (.res s2) = .ok (c! "siged25519") ∧ ∃ x, digest (.res s2) = .ok x) ∧
      ∃ s, R.responseMultiple U b b' = .ok (.res s) ∧ s.body = .data b' ∧
        ∀ b2, ∃ s2, ({ s with body := .data b2 } : Response).setContentDigest .sha256 = .ok s2 ∧ s2.body = .data b2 ∧
          c.receive (some r) (.res s2) = .ok (c! "siged25519") ∧ c'.receive (some r) (.res s2) = .ok (c! "sighs256") ∧
          ∃ x, digest (.res s2) = .ok x := by
  obtain ⟨c, hc, rc⟩ := ready_ed R hL responseCovered
  obtain ⟨c', hc', rc'⟩ := ready_hs R responseCovered
  obtain ⟨r, hr, _, _, hw0, _, _, hv0, _⟩ := ex_request U hU b
  obtain ⟨s, hres, hb, _, hw, hi, hs, hv, hd⟩ := ex_response b'
  have hf : ∀ q, some r = some q → WfHeaders q.headers := by rintro _ ⟨⟩; exact hw0
  have f : Fits (.res s) (some r) c exResIds :=
    rc.fits exResIds_eq (by intro i hi; simp [hi]) exIds_distinct.2 (ex_response_values hv0 hv) (by decide) h1
  have f' : Fits (.res s) (some r) c' exResIds :=
    rc'.fits exResIds_eq (by intro i hi; simp [hi]) exIds_distinct.2 (ex_response_values hv0 hv) (by decide) h2
  have hcov : ∀ i ∈ exResIds, .req ∉ i.params → ∀ f, i.name = .field f → lower f ≠ c! "content-digest" := by
    intro i hi hr f hf
    simp only [exResIds, List.mem_cons, List.not_mem_nil, or_false] at hi
    rcases hi with rfl | rfl | rfl | rfl | rfl
    · cases hf
    · cases hf
    · injection hf with hf; subst hf; decide
    · injection hf with hf; subst hf; decide
    · exact absurd (List.mem_singleton.2 rfl) hr
  refine ⟨r, c, c', hr, hc, hc', ?_, ?_⟩
  · obtain ⟨m, hm, hsame, ⟨hs', g1, g2, g3⟩, g4, _⟩ := C72_scenario (m := .res s) (rf := some r) hw hf hi hs (l := [c]) (by simp)
      (ids := fun _ => exResIds) (by intro x hx; rw [List.mem_singleton.1 hx]; exact f) (by simp) (by simp) hd
    cases m with
    | req _ => exact hsame.elim
    | res s' =>
      refine ⟨s', by unfold Run.responseSingle responseProgram; rw [hc, hr, hres]; exact hm, hsame.2.trans hb, fun b2 => ?_⟩
      obtain ⟨s2, k1, _, k2, k3, k4⟩ := C72_response_unprotected hw hf g1 g2 g3 g4 (fun _ _ => hcov) .sha256 b2
      exact ⟨s2, k1, k2, by rw [k3 c (by simp), rc.name], k4⟩
  · obtain ⟨m, hm, hsame, ⟨hs', g1, g2, g3⟩, g4, _⟩ := C72_scenario (m := .res s) (rf := some r) hw hf hi hs (l := [c, c']) (by simp)
      (ids := fun _ => exResIds)
      (by
        intro x hx
        rcases List.mem_cons.1 hx with rfl | hx
        · exact f
        · rw [List.mem_singleton.1 hx]; exact f')
      (by simp [rc.name, rc'.name]) (by simp [rc.verifyId, rc'.verifyId, exIds_differ]) hd
    cases m with
    | req _ => exact hsame.elim
    | res s' =>
      refine ⟨s', by unfold Run.responseMultiple responseProgram; rw [hc, hc', hr, hres]; exact hm, hsame.2.trans hb, fun b2 => ?_⟩
      obtain ⟨s2, k1, _, k2, k3, k4⟩ := C72_response_unprotected hw hf g1 g2 g3 g4 (fun _ _ => hcov) .sha256 b2
      exact ⟨s2, k1, k2, by rw [k3 c (by simp), rc.name], by rw [k3 c' (by simp), rc'.name], k4⟩

/-- The premises on the libraries hold for the tables of crate http and crate der, so the programs as they are run to their end. -/
theorem exTarget_parses : ∃ u, Uri.parse httpLib target = some u := by
  have : (Uri.parse httpLib target).isSome = true := by decide +kernel
  exact Option.isSome_iff_exists.1 this

def exRun : Run := ⟨Libs.std, true, 1618884473, 1618884474, 1618884480, 1618884481, [], [1, 2, 3]⟩

example : ∃ m, exRun.requestMultiple httpLib (utf8 (c! "{\"hello\": \"world\"}")) = .ok m := by
  obtain ⟨_, r, h, _⟩ := C72_request_examples exRun rfl httpLib exTarget_parses (utf8 (c! "{\"hello\": \"world\"}")) (by decide) (by decide)
  exact ⟨_, h⟩

-- what the run has shown
example : ∃ m, exRun.requestMultiple httpLib [1, 2] = .ok m ∧ ∃ c c', exRun.ed requestCovered = .ok c ∧ exRun.hs requestCovered = .ok c' ∧
    (∃ n, c.receive none m = .ok n) ∧ (∃ n, c'.receive none m = .ok n) ∧ ∃ x, digest m = .ok x := by
  obtain ⟨_, r, h, _⟩ := C72_request_examples exRun rfl httpLib exTarget_parses [1, 2] (by decide) (by decide)
  refine ⟨_, h, ?_⟩
  unfold Run.requestMultiple at h
  simp only [Res.bind_eq_ok] at h
  obtain ⟨c, hc, c', hc', h⟩ := h
  unfold requestProgram at h
  obtain ⟨r', _, h⟩ := Res.bind_eq_ok.1 h
  obtain ⟨_, a, b, _⟩ := C72_checks h
  exact ⟨c, c', hc, hc', a c (by simp), a c' (by simp), b⟩

-- a request whose body was replaced before it is signed
example : ∃ (r : Request) (c : Party), exRun.ed requestCovered = .ok c ∧ r.body = .data [1] ∧
    ∀ b2, hashOf .sha256 b2 ≠ hashOf .sha256 [1] → ∀ m', scenario none [c] (.req { r with body := .data b2 }) ≠ .ok m' := by
  obtain ⟨c, hc, rc⟩ := ready_ed exRun rfl requestCovered
  obtain ⟨r, hr, hb, _, hw, hi, hs, hv, hd, hline⟩ := ex_request httpLib exTarget_parses [1]
  refine ⟨r, c, hc, hb, fun b2 hb2 => C72_wrong_digest (m := .req { r with body := .data b2 }) (rf := none) hw (by simp) (ids := fun _ => exReqIds) ?_ ?_⟩
  · intro x hx
    rw [List.mem_singleton.1 hx]
    exact rc.fits exReqIds_eq (by intro i hi; simp [hi]) exIds_distinct.1 (ex_request_values (r := { r with body := .data b2 }) hv) (by decide) (by decide)
  · intro x hx
    refine hb2 ((C72_digest_binds hw hline [] b2).1 ⟨x, ?_⟩)
    rw [← hx]
    simp [digest, body, Msg.headers]

-- the body of the response replaced
example : ∃ r c s s2, buildRequest httpLib (c! "GET") target Ex.lines (.data []) .sha256 = .ok r ∧ exRun.ed responseCovered = .ok c ∧
    exRun.responseMultiple httpLib [] (utf8 (c! "yes")) = .ok (.res s) ∧ s2.body = .data (utf8 (c! "no")) ∧
    c.receive (some r) (.res s2) = .ok (c! "siged25519") ∧ ∃ x, digest (.res s2) = .ok x := by
  obtain ⟨r, c, _, hr, hc, _, _, s, hs, _, h⟩ :=
    C72_response_examples exRun rfl httpLib exTarget_parses [] (utf8 (c! "yes")) (by decide) (by decide)
  obtain ⟨s2, _, h2, h3, _, h4⟩ := h (utf8 (c! "no"))
  exact ⟨r, c, s, s2, hr, hc, hs, h2, h3, h4⟩

end Verif
