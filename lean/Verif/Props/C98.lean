import Verif.Spec.Log
import Verif.Proofs.Log
import Verif.Props.C85
import Verif.Props.C63
import Verif.Proofs.LengthValue
/-!
C98 The log. Writing it does not change any result. What is written when keys are read and messages are signed depends on the algorithms
and the covered components alone, so no secret gets into it. What a message that is verified can put into it are the names of unknown
signature parameters, each on a line of its own, made of the characters of a key of structured fields, and not more lines than
Signature-Input has characters.
-/
namespace Verif
open Sfv Spec Grammar

/-! ### Keys of the library -/

theorem algText_eq (a : Alg) : logName a = algText a := by cases a <;> rfl

/-- C98: the keys of the library write one line with their algorithm. -/
theorem C98_keys {P : Prims} :
    (∀ k : SharedKey, PlainSigning k.signingL ∧ PlainVerifying k.verifyingL) ∧
    (∀ (k : SecretKey P) rnd, PlainSigning (k.signingL rnd) ∧ PlainVerifying k.verifyingL) ∧ ∀ k : PublicKey P, PlainVerifying k.verifyingL := by
  have h1 : ∀ a, signLine a = debugLine (c! "Sign " ++ algText a) := fun a => by rw [← algText_eq]; rfl
  have h2 : ∀ a, verifyLine a = debugLine (c! "Verify " ++ algText a) := fun a => by rw [← algText_eq]; rfl
  refine ⟨fun k => ⟨fun d => ?_, fun d s => ?_⟩, fun k rnd => ⟨fun d => ?_, fun d s => ?_⟩, fun k d s => ?_⟩
  · exact congrArg (fun x => [x]) (h1 _)
  · exact congrArg (fun x => [x]) (h2 _)
  · exact congrArg (fun x => [x]) (h1 _)
  · exact congrArg (fun x => [x]) (h2 _)
  · exact congrArg (fun x => [x]) (h2 _)

theorem readSecret_eq (rsa : Bool) (a : Alg) : readSecretLine rsa a = readText rsa (c! "private") a := by
  cases a <;> cases rsa <;> rfl

theorem readPublic_eq (rsa : Bool) (a : Alg) : readPublicLine rsa a = readText rsa (c! "public") a := by
  cases a <;> cases rsa <;> rfl

theorem fromDerL_log {P : Prims} (rsa : Bool) (a : Alg) (der : Bytes) :
    (SecretKey.fromDerL rsa a der : Logged SigErr (SecretKey P)).log <+: readText rsa (c! "private") a ∧
    ∀ k, (SecretKey.fromDerL rsa a der : Logged SigErr (SecretKey P)).res = .ok k →
      (SecretKey.fromDerL rsa a der : Logged SigErr (SecretKey P)).log = readText rsa (c! "private") a := by
  rw [← readSecret_eq]
  unfold SecretKey.fromDerL
  cases h1 : (Res.ofOption .parsePrivateKey (P.pkiOfDer der) : Res SigErr Pki) with
  | ok pki =>
    cases h2 : skBytesOfPki P rsa a pki with
    | ok b => simp [SecretKey.fromBytesL, h2]
    | _ => simp [h2]
  | _ => simp

/-- C98: reading a key writes the line of the algorithm or nothing; if a key comes out, the line has been written. -/
theorem C98_read {P : Prims} (rsa : Bool) (a : Alg) (s : Str) :
    ((SecretKey.fromPemL rsa a s : Logged SigErr (SecretKey P)).log <+: readText rsa (c! "private") a) ∧
    ((PublicKey.fromPemL rsa a s : Logged SigErr (PublicKey P)).log <+: readText rsa (c! "public") a) ∧
    (∀ k : SecretKey P, SecretKey.fromPem rsa a s = .ok k → (SecretKey.fromPemL rsa a s : Logged SigErr (SecretKey P)).log = readText rsa (c! "private") a) ∧
    (∀ k : PublicKey P, PublicKey.fromPem rsa a s = .ok k → (PublicKey.fromPemL rsa a s : Logged SigErr (PublicKey P)).log = readText rsa (c! "public") a) ∧
    (SharedKey.fromBase64L a s).log = [debugLine (c! "Create SharedKey from base64 string")] := by
  have sec : (SecretKey.fromPemL rsa a s : Logged SigErr (SecretKey P)).log <+: readText rsa (c! "private") a ∧
      (∀ k, (SecretKey.fromPemL rsa a s : Logged SigErr (SecretKey P)).res = .ok k →
        (SecretKey.fromPemL rsa a s : Logged SigErr (SecretKey P)).log = readText rsa (c! "private") a) := by
    unfold SecretKey.fromPemL
    cases h1 : (Res.ofOption .parsePrivateKey (P.pem s) : Res SigErr (Str × Bytes)) with
    | ok td =>
      simp only [Logged.quiet_bind_log, Logged.bind_res, Logged.quiet_res, Res.bind_ok]
      split
      · simp
      · exact fromDerL_log rsa a td.2
    | _ => simp
  have pub : (PublicKey.fromPemL rsa a s : Logged SigErr (PublicKey P)).log <+: readText rsa (c! "public") a ∧
      (∀ k, (PublicKey.fromPemL rsa a s : Logged SigErr (PublicKey P)).res = .ok k →
        (PublicKey.fromPemL rsa a s : Logged SigErr (PublicKey P)).log = readText rsa (c! "public") a) := by
    rw [← readPublic_eq]
    unfold PublicKey.fromPemL
    cases h1 : (Res.ofOption .parsePublicKey (P.pem s) : Res SigErr (Str × Bytes)) with
    | ok td =>
      simp only [Logged.quiet_bind_log, Logged.bind_res, Logged.quiet_res, Res.bind_ok]
      split
      · simp
      · cases h2 : (Res.ofOption .parsePublicKey (P.spkiOfDer td.2) : Res SigErr Spki) with
        | ok sp =>
          simp only [Logged.quiet_bind_log, Logged.bind_res, Logged.quiet_res, Res.bind_ok]
          cases h3 : pkBytesOfSpki rsa a sp with
          | ok b => simp [PublicKey.fromBytesL]
          | _ => simp
        | _ => simp
    | _ => simp
  rw [secretFromPemL_res] at sec
  rw [publicFromPemL_res] at pub
  exact ⟨sec.1, pub.1, sec.2, pub.2, by simp [SharedKey.fromBase64L, Logged.bind_log_ok, debugLine]⟩

/-! ### Results -/

/-- C98: the log does not change what is signed and what is accepted. -/
theorem C98_same (now : UInt64) (m : Msg) (rf : Option Request) (l : List (SigParams × LogSigningKey × Option Str))
    (ks : List (LogVerifyingKey × Option Str)) :
    ((setSignaturesL m l rf).1, (setSignaturesL m l rf).2.res) = setSignatures m (l.map fun x => (x.1, x.2.1.key, x.2.2)) rf ∧
    (verifySignaturesL now m ks rf).res = verifySignatures now m (ks.map fun k => (k.1.key, k.2)) rf := by
  obtain ⟨h1, h2⟩ := setSignaturesL_res m l rf
  exact ⟨by rw [h1, h2], verifySignaturesL_res now m ks rf⟩

/-! ### Signing -/

theorem fieldParamsL_log (ps : List CParam) : ∀ vs,
    (fieldParamsL ps vs).log <+: List.replicate (ps.count .req) reqLine ∧
    ∀ out, (fieldParamsL ps vs).res = .ok out → (fieldParamsL ps vs).log = List.replicate (ps.count .req) reqLine := by
  induction ps with
  | nil => intro vs; exact ⟨by simp [fieldParamsL], fun _ _ => by simp [fieldParamsL]⟩
  | cons p t ih =>
    intro vs
    cases p with
    | sf =>
      simp only [fieldParamsL, Logged.quiet_bind_log, Logged.bind_res, Logged.quiet_res]
      cases handleSf vs with
      | ok w => simpa using ih w
      | _ => simp
    | key k =>
      simp only [fieldParamsL, Logged.quiet_bind_log, Logged.bind_res, Logged.quiet_res]
      cases handleKey vs k with
      | ok w => simpa [List.count_cons] using ih w
      | _ => simp
    | req =>
      have e : (fieldParamsL (.req :: t) vs).log = reqLine :: (fieldParamsL t vs).log := by
        simp only [fieldParamsL]
        rw [Logged.bind_log_ok (Logged.line_res _ _)]
        rfl
      have e2 : (fieldParamsL (.req :: t) vs).res = (fieldParamsL t vs).res := by simp [fieldParamsL]
      rw [e, e2, List.count_cons_self, List.replicate_succ]
      obtain ⟨i1, i2⟩ := ih vs
      exact ⟨(List.cons_prefix_cons).2 ⟨rfl, i1⟩, fun out h => by rw [i2 out h]⟩
    | bs => simp [fieldParamsL]
    | tr => simp [fieldParamsL]
    | name n => simp [fieldParamsL]

def coverLine (i : CId) : List LogLine := coverLines [i]

theorem buildL_log (i : CId) (vs : List Str) :
    (Component.buildL i vs).log <+: coverLine i ∧ ∀ c, (Component.buildL i vs).res = .ok c → (Component.buildL i vs).log = coverLine i := by
  cases hn : i.name with
  | field f =>
    have e : coverLine i = List.replicate (i.params.count .req) reqLine ++ [] := by
      simp only [coverLine, coverLines, List.flatMap_cons, List.flatMap_nil, hn]; rfl
    obtain ⟨h1, h2⟩ := fieldParamsL_log i.params vs
    rw [e]
    simp only [Component.buildL, hn]
    exact ⟨Logged.prefix_bind h1 h2 fun _ _ => List.prefix_refl _, fun c h => Logged.exact_bind h h2 fun _ _ _ => rfl⟩
  | derived d => simp [Component.buildL, coverLine, coverLines, hn]

theorem extractComponentL_log (m : Msg) (i : CId) :
    (extractComponentL m i).log <+: coverLine i ∧ ∀ c, (extractComponentL m i).res = .ok c → (extractComponentL m i).log = coverLine i := by
  unfold extractComponentL
  cases hn : i.name with
  | field f =>
    simp only [extractHttpFieldL, hn, Logged.quiet_bind_log, Logged.bind_res, Logged.quiet_res]
    cases headerTexts m.headers f with
    | ok vs =>
      obtain ⟨h1, h2⟩ := buildL_log i vs
      refine ⟨h1, fun c h => ?_⟩
      obtain ⟨c', h3⟩ : ∃ c', (Component.buildL i vs).res = .ok c' := by
        simp only [Res.bind_ok, Logged.mapErr_res] at h
        cases hb : (Component.buildL i vs).res with
        | ok c' => exact ⟨c', rfl⟩
        | err e => rw [hb] at h; cases h
        | panic => rw [hb] at h; cases h
      exact h2 c' h3
    | _ => simp
  | derived d =>
    have e : coverLine i = [] := by simp [coverLine, coverLines, hn]
    have e2 : (extractDerivedL m i).log = [] := by
      simp only [extractDerivedL, hn, Logged.quiet_bind_log]
      repeat' split
      all_goals first | rfl | skip
      simp [Component.buildL, hn]
    simp only [e, e2]
    exact ⟨List.prefix_refl _, fun _ _ => trivial⟩

theorem extractForL_log (m : Msg) (rf : Option Request) (i : CId) :
    (extractForL m rf i).log <+: coverLine i ∧ ∀ c, (extractForL m rf i).res = .ok c → (extractForL m rf i).log = coverLine i := by
  unfold extractForL
  split
  · split
    · simp
    · cases rf with
      | none => simp
      | some r => exact extractComponentL_log _ _
  · exact extractComponentL_log _ _

theorem coverLines_eq (is : List CId) : is.flatMap coverLine = coverLines is := by
  induction is with
  | nil => rfl
  | cons a t ih => rw [List.flatMap_cons, ih]; simp [coverLine, coverLines]

theorem buildBaseL_log (m : Msg) (p : SigParams) (rf : Option Request) :
    (buildBaseL m p rf).log <+: coverLines p.covered ∧ ∀ b, (buildBaseL m p rf).res = .ok b → (buildBaseL m p rf).log = coverLines p.covered := by
  obtain ⟨h1, h2⟩ := Logged.prefix_collect p.covered (fun i _ => (extractForL_log m rf i).1) (fun i _ => (extractForL_log m rf i).2)
  rw [coverLines_eq] at h1 h2
  unfold buildBaseL
  have a := Logged.prefix_bind (b := []) (f := fun lines => (.quiet ((SigBase.tryNew lines p).mapErr .httpSig) : Logged HyperErr SigBase)) h1 h2
    (fun _ _ => List.prefix_refl _)
  rw [List.append_nil] at a
  refine ⟨a, fun b h => ?_⟩
  have := Logged.exact_bind (b := []) h h2 (fun _ _ _ => rfl)
  rwa [List.append_nil] at this

theorem gather_log {ε ε' α : Type} {l : List (Logged ε α)} {g : Logged ε α → List LogLine} (h : ∀ x ∈ l, x.log = g x) :
    (Logged.gather l : Logged ε' _).log <+: l.flatMap g ∧
    ∀ v, (Logged.gather l : Logged ε' _).res = .ok v → (Logged.gather l : Logged ε' _).log = l.flatMap g := by
  induction l with
  | nil => simp [Logged.gather]
  | cons x t ih =>
    obtain ⟨i1, i2⟩ := ih (fun y hy => h y (by simp [hy]))
    have hx := h x (by simp)
    simp only [Logged.gather, List.flatMap_cons]
    cases x.res with
    | panic => simp [hx]
    | ok a =>
      simp only [hx]
      refine ⟨(List.prefix_append_right_inj _).2 i1, fun v hv => ?_⟩
      obtain ⟨w, hw, _⟩ := Res.bind_eq_ok.1 hv
      rw [i2 w hw]
    | err e =>
      simp only [hx]
      refine ⟨(List.prefix_append_right_inj _).2 i1, fun v hv => ?_⟩
      obtain ⟨w, hw, _⟩ := Res.bind_eq_ok.1 hv
      rw [i2 w hw]

theorem collect_snd {m : Msg} {rf : Option Request} : ∀ {l : List (SigParams × LogSigningKey × Option Str)}
    {bs : List (SigBase × LogSigningKey × Option Str)},
    Res.collect (fun pkn : SigParams × LogSigningKey × Option Str => do let b ← buildBase m pkn.1 rf; Res.ok (b, pkn.2)) l = .ok bs →
    bs.map Prod.snd = l.map Prod.snd := by
  intro l
  induction l with
  | nil => intro bs h; injection h with h; subst h; rfl
  | cons a t ih =>
    intro bs h
    simp only [Res.collect] at h
    cases hb : buildBase m a.1 rf with
    | ok b =>
      rw [hb] at h
      simp only [Res.bind_ok] at h
      split at h
      · rename_i bs' hbs
        injection h with h; subst h
        simp [ih hbs]
      · cases h
      · cases h
    | err e => rw [hb] at h; cases h
    | panic => rw [hb] at h; cases h

/-- C98: what signing writes is the beginning of a list that the covered components and the algorithms determine; all of it if the
signatures have been made. -/
theorem C98_sign (m : Msg) (l : List (SigParams × LogSigningKey × Option Str)) (rf : Option Request) (hk : ∀ x ∈ l, PlainSigning x.2.1) :
    (setSignaturesL m l rf).2.log <+: signLines (l.map fun x => (x.1.covered, x.2.1.key.alg)) ∧
    ((setSignaturesL m l rf).2.res = .ok () →
      (setSignaturesL m l rf).2.log = signLines (l.map fun x => (x.1.covered, x.2.1.key.alg))) := by
  have hl : (setSignaturesL m l rf).2.log = (signHeadersL m l rf).log := by
    unfold setSignaturesL; cases (signHeadersL m l rf).res <;> rfl
  have hr : (setSignaturesL m l rf).2.res = .ok () → ∃ hs, (signHeadersL m l rf).res = .ok hs := by
    unfold setSignaturesL
    cases (signHeadersL m l rf).res with
    | ok hs => exact fun _ => ⟨hs, rfl⟩
    | _ => nofun
  have hb : ∀ x : SigParams × LogSigningKey × Option Str,
      (do let b ← buildBaseL m x.1 rf; .quiet (.ok (b, x.2)) : Logged HyperErr (SigBase × LogSigningKey × Option Str)).log <+: coverLines x.1.covered ∧
      ∀ v, (do let b ← buildBaseL m x.1 rf; .quiet (.ok (b, x.2)) : Logged HyperErr (SigBase × LogSigningKey × Option Str)).res = .ok v →
        (do let b ← buildBaseL m x.1 rf; .quiet (.ok (b, x.2)) : Logged HyperErr (SigBase × LogSigningKey × Option Str)).log = coverLines x.1.covered := by
    intro x
    obtain ⟨h1, h2⟩ := buildBaseL_log m x.1 rf
    have a := Logged.prefix_bind (b := []) (f := fun b => (.quiet (.ok (b, x.2)) : Logged HyperErr (SigBase × LogSigningKey × Option Str))) h1 h2
      (fun _ _ => List.prefix_refl _)
    rw [List.append_nil] at a
    refine ⟨a, fun v hv => ?_⟩
    have := Logged.exact_bind (b := []) hv h2 (fun _ _ _ => rfl)
    rwa [List.append_nil] at this
  obtain ⟨c1, c2⟩ := Logged.prefix_collect l (fun x _ => (hb x).1) (fun x _ => (hb x).2)
  have second : ∀ bs, (Logged.collect (fun pkn : SigParams × LogSigningKey × Option Str => do
        let b ← buildBaseL m pkn.1 rf; .quiet (.ok (b, pkn.2))) l).res = .ok bs →
      (Logged.gather (bs.map (fun bkn => bkn.1.headersL bkn.2.1 bkn.2.2)) : Logged HyperErr _).log <+:
        l.map (fun x => debugLine (c! "Sign " ++ algText x.2.1.key.alg)) ∧
      ∀ v, (Logged.gather (bs.map (fun bkn => bkn.1.headersL bkn.2.1 bkn.2.2)) : Logged HyperErr _).res = .ok v →
        (Logged.gather (bs.map (fun bkn => bkn.1.headersL bkn.2.1 bkn.2.2)) : Logged HyperErr _).log =
          l.map (fun x => debugLine (c! "Sign " ++ algText x.2.1.key.alg)) := by
    intro bs h
    rw [Logged.collect_res (g := fun pkn : SigParams × LogSigningKey × Option Str => do let b ← buildBase m pkn.1 rf; Res.ok (b, pkn.2))
      (fun pkn => by simp [buildBaseL_res])] at h
    have hs := collect_snd h
    have hg := gather_log (ε' := HyperErr) (l := bs.map (fun bkn => bkn.1.headersL bkn.2.1 bkn.2.2)) (g := Logged.log) (fun _ _ => rfl)
    have e : (bs.map (fun bkn => bkn.1.headersL bkn.2.1 bkn.2.2)).flatMap Logged.log =
        l.map (fun x => debugLine (c! "Sign " ++ algText x.2.1.key.alg)) := by
      have e1 : (bs.map (fun bkn => bkn.1.headersL bkn.2.1 bkn.2.2)).flatMap Logged.log =
          (bs.map Prod.snd).map (fun k => debugLine (c! "Sign " ++ algText k.1.key.alg)) := by
        have : ∀ x ∈ bs, PlainSigning x.2.1 := by
          intro x hx
          have : x.2 ∈ l.map Prod.snd := hs ▸ List.mem_map_of_mem hx
          obtain ⟨y, hy, hyx⟩ := List.mem_map.1 this
          rw [← hyx]; exact hk y hy
        clear hs hg h
        induction bs with
        | nil => rfl
        | cons b t ih =>
          simp only [List.map_cons, List.flatMap_cons]
          rw [ih (fun x hx => this x (by simp [hx]))]
          simp [SigBase.headersL, this b (by simp) _]
      rw [e1, hs, List.map_map]; rfl
    rw [e] at hg
    exact hg
  have e : signLines (l.map fun x => (x.1.covered, x.2.1.key.alg)) =
      (l.flatMap fun x => coverLines x.1.covered) ++ (l.map (fun x => debugLine (c! "Sign " ++ algText x.2.1.key.alg)) ++ []) := by
    simp [signLines, List.flatMap_map, Function.comp_def]
  rw [hl, e]
  unfold signHeadersL at hr ⊢
  refine ⟨Logged.prefix_bind c1 c2 fun bs h => ?_, fun h => ?_⟩
  · exact Logged.prefix_bind (second bs h).1 (second bs h).2 fun _ _ => List.prefix_refl _
  · obtain ⟨hs, h⟩ := hr h
    exact Logged.exact_bind h c2 fun bs h1 h2 => Logged.exact_bind h2 (second bs h1).2 fun _ _ _ => rfl

/-- C98: two runs with keys of the same algorithms write the same, up to where one of them stops; whatever the secrets are. -/
theorem C98_secret (m : Msg) (rf : Option Request) (l l' : List (SigParams × LogSigningKey × Option Str))
    (hk : ∀ x ∈ l, PlainSigning x.2.1) (hk' : ∀ x ∈ l', PlainSigning x.2.1)
    (h : l.map (fun x => (x.1, x.2.1.key.alg)) = l'.map fun x => (x.1, x.2.1.key.alg)) :
    ((setSignaturesL m l rf).2.log <+: (setSignaturesL m l' rf).2.log ∨ (setSignaturesL m l' rf).2.log <+: (setSignaturesL m l rf).2.log) ∧
    ((setSignaturesL m l rf).2.res = .ok () → (setSignaturesL m l' rf).2.res = .ok () →
      (setSignaturesL m l rf).2.log = (setSignaturesL m l' rf).2.log) := by
  have e : l.map (fun x => (x.1.covered, x.2.1.key.alg)) = l'.map fun x => (x.1.covered, x.2.1.key.alg) := by
    have := congrArg (List.map fun y : SigParams × Alg => (y.1.covered, y.2)) h
    simpa [List.map_map, Function.comp_def] using this
  obtain ⟨a1, a2⟩ := C98_sign m l rf hk
  obtain ⟨b1, b2⟩ := C98_sign m l' rf hk'
  rw [← e] at b1 b2
  exact ⟨List.prefix_or_prefix_of_prefix a1 b1, fun h1 h2 => by rw [a2 h1, b2 h2]⟩

/-! ### Verification -/

theorem unknown_keys (l : Params) : ∀ p : SigParams,
    (p.setKVsL l).log <+: ((l.map Prod.fst).filter (fun k => k ∉ known)).map errorLine ∧
    ∀ q, (p.setKVsL l).res = .ok q → (p.setKVsL l).log = ((l.map Prod.fst).filter (fun k => k ∉ known)).map errorLine := by
  induction l with
  | nil => intro p; exact ⟨by simp [SigParams.setKVsL], fun _ _ => by simp [SigParams.setKVsL]⟩
  | cons kv t ih =>
    intro p
    have e : (((kv :: t).map Prod.fst).filter (fun k => k ∉ known)).map errorLine =
        (if kv.1 ∈ paramNames then [] else [ignoreLine kv.1]) ++ ((t.map Prod.fst).filter (fun k => k ∉ known)).map errorLine := by
      rw [List.map_cons, List.filter_cons]
      by_cases h : kv.1 ∈ known
      · rw [if_neg (by simpa using h), if_pos (show kv.1 ∈ paramNames from h), List.nil_append]
      · rw [if_pos (by simpa using h), if_neg (show ¬ kv.1 ∈ paramNames from h)]; rfl
    rw [e]
    exact ⟨Logged.prefix_bind (List.prefix_refl _) (fun _ _ => rfl) fun q _ => (ih q).1,
      fun q h => Logged.exact_bind h (fun _ _ => rfl) fun q' _ h2 => (ih q').2 q h2⟩

def entryUnknown (e : Entry) : List LogLine := (unknownParams [([], e)]).map errorLine

theorem ofEntryL_log (e : Entry) : (SigParams.ofEntryL e).log <+: entryUnknown e ∧
    ∀ p, (SigParams.ofEntryL e).res = .ok p → (SigParams.ofEntryL e).log = entryUnknown e := by
  cases e with
  | item i => simp [SigParams.ofEntryL]
  | inner l =>
    have e1 : entryUnknown (.inner l) = ((l.params.map Prod.fst).filter (fun k => k ∉ known)).map errorLine := by
      simp [entryUnknown, unknownParams]
    rw [e1]
    simp only [SigParams.ofEntryL, Logged.quiet_bind_log, Logged.bind_res, Logged.quiet_res]
    cases Res.collect (fun i => CId.ofStr (serItem i)) l.items with
    | ok ids =>
      simp only [Res.bind_ok]
      split
      · simp
      · exact unknown_keys l.params _
    | _ => simp

theorem parseOneL_log (sg : Dict) (kv : Str × Entry) : (parseOneL sg kv).log <+: entryUnknown kv.2 ∧
    ∀ v, (parseOneL sg kv).res = .ok v → (parseOneL sg kv).log = entryUnknown kv.2 := by
  obtain ⟨h1, h2⟩ := ofEntryL_log kv.2
  have q : ∀ p : SigParams, (match (imGet sg kv.1).bind entryBytes with
    | some b => (.quiet (.ok (kv.1, ⟨kv.1, b, p⟩)) : Logged SigErr (Str × SigHeaders))
    | none => .quiet .panic).log = [] := by intro p; split <;> rfl
  unfold parseOneL
  constructor
  · have := Logged.prefix_bind (b := []) h1 h2 (fun p _ => by rw [q p])
    rwa [List.append_nil] at this
  · intro v h
    have := Logged.exact_bind (b := []) h h2 (fun p _ _ => q p)
    rwa [List.append_nil] at this

theorem unknown_flatMap (d : Dict) : d.flatMap (fun kv => entryUnknown kv.2) = (unknownParams d).map errorLine := by
  induction d with
  | nil => rfl
  | cons a t ih => rw [List.flatMap_cons, ih]; simp [entryUnknown, unknownParams]

theorem tryParseL_log (s i : Str) :
    (∀ d, parseDict i = some d → (SigHeaders.tryParseL s i).log <+: (unknownParams d).map errorLine ∧
      ∀ l, (SigHeaders.tryParseL s i).res = .ok l → (SigHeaders.tryParseL s i).log = (unknownParams d).map errorLine) ∧
    (parseDict i = none → (SigHeaders.tryParseL s i).log = [] ∧ ∀ l, (SigHeaders.tryParseL s i).res ≠ .ok l) := by
  constructor
  · intro d hd
    simp only [SigHeaders.tryParseL, hd, Res.ofOption, Logged.quiet_bind_log, Logged.bind_res, Logged.quiet_res, Res.bind_ok]
    cases hs : parseDict s with
    | none => simp
    | some sg =>
      simp only [Res.bind_ok]
      repeat' split
      all_goals try (simp; done)
      obtain ⟨c1, c2⟩ := Logged.prefix_collect d (fun kv _ => (parseOneL_log sg kv).1) (fun kv _ => (parseOneL_log sg kv).2)
      rw [unknown_flatMap] at c1 c2
      constructor
      · have := Logged.prefix_bind (b := []) (f := fun l => (.quiet (.ok (imOfList l)) : Logged SigErr _)) c1 c2 (fun _ _ => List.prefix_refl _)
        rwa [List.append_nil] at this
      · intro l h
        have := Logged.exact_bind (b := []) h c2 (fun _ _ _ => rfl)
        rwa [List.append_nil] at this
  · intro h
    simp [SigHeaders.tryParseL, h, Res.ofOption]

/-- The lines of reading the headers. -/
theorem headersL_log {m : Msg} (hw : WfHeaders m.headers) :
    (∀ ts d, Wire.LinesText m.headers (c! "signature-input") ts → DictText d (Wire.commas ts) →
      (extractSignatureHeadersL m).log <+: (unknownParams d).map errorLine ∧
      ∀ l, (extractSignatureHeadersL m).res = .ok l → (extractSignatureHeadersL m).log = (unknownParams d).map errorLine) ∧
    ((¬ ∃ ts d, Wire.LinesText m.headers (c! "signature-input") ts ∧ DictText d (Wire.commas ts)) →
      (extractSignatureHeadersL m).log = []) := by
  constructor
  · intro ts d hts hd
    have h1 : headerTexts m.headers hSignatureInput = .ok ts := (headerTexts_ok hw _ _).2 (linesText_iff.1 hts)
    have h2 : parseDict (join (c! ", ") ts) = some d := by rw [← commas_eq]; exact (parseDict_iff _ _).2 hd
    unfold extractSignatureHeadersL
    simp only
    split
    · simp
    · simp only [h1, Logged.quiet_bind_log, Logged.bind_res, Logged.quiet_res, Res.bind_ok]
      cases headerTexts m.headers hSignature with
      | ok us =>
        obtain ⟨a, b⟩ := (tryParseL_log (join (c! ", ") us) (join (c! ", ") ts)).1 d h2
        refine ⟨a, fun l h => ?_⟩
        simp only [Res.bind_ok, Logged.mapErr_res] at h
        cases hr : (SigHeaders.tryParseL (join (c! ", ") us) (join (c! ", ") ts)).res with
        | ok l' => exact b l' hr
        | err e => rw [hr] at h; cases h
        | panic => rw [hr] at h; cases h
      | _ => simp
  · intro hno
    unfold extractSignatureHeadersL
    simp only
    split
    · simp
    · simp only [Logged.quiet_bind_log]
      cases h1 : headerTexts m.headers hSignatureInput with
      | ok ts =>
        simp only
        cases headerTexts m.headers hSignature with
        | ok us =>
          refine ((tryParseL_log (join (c! ", ") us) (join (c! ", ") ts)).2 ?_).1
          cases h2 : parseDict (join (c! ", ") ts) with
          | none => rfl
          | some d =>
            exact absurd ⟨ts, d, linesText_iff.2 ((headerTexts_ok hw _ _).1 h1), by rw [commas_eq]; exact (parseDict_iff _ _).1 h2⟩ hno
        | _ => rfl
      | _ => rfl

/-- A debug line of verification. -/
def Quiet (l : LogLine) : Prop := l = debugLine (c! "`req` is given for http field component") ∨ ∃ a, l = debugLine (c! "Verify " ++ algText a)

theorem buildBaseL_quiet (m : Msg) (p : SigParams) (rf : Option Request) : (buildBaseL m p rf).All Quiet := by
  intro l hl
  have h := (buildBaseL_log m p rf).1.subset hl
  obtain ⟨i, _, hi⟩ := List.mem_flatMap.1 h
  split at hi
  · exact .inl (List.eq_of_mem_replicate hi)
  · cases hi

/-- After the headers nothing but fixed lines is written. -/
theorem verifyL_split (now : UInt64) (m : Msg) (ks : List (LogVerifyingKey × Option Str)) (rf : Option Request)
    (hk : ∀ k ∈ ks, PlainVerifying k.1) : ∃ a, (verifySignaturesL now m ks rf).log = a ++
      ((verifySignaturesL now m ks rf).log.drop a.length) ∧ (a = (extractSignatureHeadersL m).log ∨ a = []) ∧
      (∀ l ∈ (verifySignaturesL now m ks rf).log.drop a.length, Quiet l) ∧
      ∀ rs, (verifySignaturesL now m ks rf).res = .ok rs → a = (extractSignatureHeadersL m).log ∧ ∃ l, (extractSignatureHeadersL m).res = .ok l := by
  unfold verifySignaturesL
  split
  · exact ⟨[], rfl, .inr rfl, nofun, nofun⟩
  · refine ⟨(extractSignatureHeadersL m).log, ?_⟩
    have hg : ∀ map, (Logged.gather (ks.map (fun ki => verifyOneL now map ki.1 ki.2)) : Logged HyperErr _).All Quiet := by
      intro map
      refine Logged.all_gather fun x hx => ?_
      obtain ⟨k, hk', rfl⟩ := List.mem_map.1 hx
      unfold verifyOneL
      simp only
      split
      · nofun
      · refine Logged.all_bind (Logged.all_filterOk fun kv _ => Logged.all_bind ?_ fun _ _ => nofun) fun names _ => ?_
        · unfold SigBase.verifyL
          split
          · nofun
          · intro l hl
            rw [show (Logged.mk (k.1.log kv.2.1.bytes kv.2.2.signature) (k.1.key.verify kv.2.1.bytes kv.2.2.signature)).log =
              [debugLine (c! "Verify " ++ algText k.1.key.alg)] from hk k hk' _ _] at hl
            exact .inr ⟨_, List.mem_singleton.1 hl⟩
        · split <;> nofun
    have hrest : ∀ l, (do
        let e ← Logged.filterOk (fun kv : Str × SigHeaders => do
          let b ← buildBaseL m kv.2.params rf
          .quiet (.ok (kv.1, (b, kv.2)))) l
        let map ← (.quiet (.ok (imOfList e)) : Logged HyperErr _)
        Logged.gather (ks.map (fun ki => verifyOneL now map ki.1 ki.2)) : Logged HyperErr (List (Except HyperErr Str))).All Quiet := by
      intro l
      exact Logged.all_bind (Logged.all_filterOk fun kv _ => Logged.all_bind (buildBaseL_quiet _ _ _) fun _ _ => nofun)
        fun e _ => Logged.all_bind (Logged.all_quiet _) fun map _ => hg map
    have hassoc : (extractSignaturesL m rf >>= fun map => (Logged.gather (ks.map (fun ki => verifyOneL now map ki.1 ki.2)) : Logged HyperErr _)) =
        (extractSignatureHeadersL m >>= fun l => (do
          let e ← Logged.filterOk (fun kv : Str × SigHeaders => do
            let b ← buildBaseL m kv.2.params rf
            .quiet (.ok (kv.1, (b, kv.2)))) l
          let map ← (.quiet (.ok (imOfList e)) : Logged HyperErr _)
          Logged.gather (ks.map (fun ki => verifyOneL now map ki.1 ki.2)))) := by
      unfold extractSignaturesL
      rw [Logged.bind_assoc]
      congr 1
      funext l
      rw [Logged.bind_assoc]
    rw [hassoc]
    cases h : (extractSignatureHeadersL m).res with
    | ok l =>
      rw [Logged.bind_log_ok h, List.drop_left]
      exact ⟨rfl, .inl rfl, hrest l, fun _ _ => ⟨rfl, l, rfl⟩⟩
    | err e =>
      rw [Logged.bind_log_fail (by simp [h]), List.drop_length, List.append_nil]
      exact ⟨rfl, .inl rfl, nofun, fun rs hr => by rw [Logged.bind_res, h] at hr; cases hr⟩
    | panic =>
      rw [Logged.bind_log_fail (by simp [h]), List.drop_length, List.append_nil]
      exact ⟨rfl, .inl rfl, nofun, fun rs hr => by rw [Logged.bind_res, h] at hr; cases hr⟩

theorem errorLines_split {a b : List LogLine} (ha : ∃ ks : List Str, a = ks.map errorLine) (hb : ∀ l ∈ b, Quiet l) : errorLines (a ++ b) = a := by
  unfold errorLines
  obtain ⟨ks, rfl⟩ := ha
  rw [List.filter_append, List.filter_eq_self.2, List.filter_eq_nil_iff.2, List.append_nil]
  · intro l hl
    rcases hb l hl with rfl | ⟨a, rfl⟩ <;> simp [debugLine]
  · intro l hl
    obtain ⟨k, _, rfl⟩ := List.mem_map.1 hl
    rfl

theorem prefix_map_errorLine {a : List LogLine} {ks : List Str} (h : a <+: ks.map errorLine) : ∃ ks', ks' <+: ks ∧ a = ks'.map errorLine := by
  rw [List.prefix_iff_eq_take] at h
  exact ⟨ks.take a.length, List.take_prefix _ _, by rw [List.map_take]; exact h⟩

/-- C98: the lines of level error are the unknown parameters of Signature-Input in their order; all of them unless the headers are
refused, and none if Signature-Input is not a dictionary. -/
theorem C98_errors {m : Msg} (hw : WfHeaders m.headers) (now : UInt64) (ks : List (LogVerifyingKey × Option Str)) (rf : Option Request)
    (hk : ∀ k ∈ ks, PlainVerifying k.1) :
    (∀ ts d, Wire.LinesText m.headers (c! "signature-input") ts → DictText d (Wire.commas ts) →
      errorLines (verifySignaturesL now m ks rf).log <+: (unknownParams d).map errorLine ∧
      ∀ rs, verifySignatures now m (ks.map fun k => (k.1.key, k.2)) rf = .ok rs →
        errorLines (verifySignaturesL now m ks rf).log = (unknownParams d).map errorLine) ∧
    ((¬ ∃ ts d, Wire.LinesText m.headers (c! "signature-input") ts ∧ DictText d (Wire.commas ts)) →
      errorLines (verifySignaturesL now m ks rf).log = []) := by
  rw [← verifySignaturesL_res]
  obtain ⟨a, h1, h2, h3, h4⟩ := verifyL_split now m ks rf hk
  obtain ⟨g1, g2⟩ := headersL_log hw
  constructor
  · intro ts d hts hd
    obtain ⟨p1, p2⟩ := g1 ts d hts hd
    have ha : a <+: (unknownParams d).map errorLine := by
      rcases h2 with rfl | rfl
      · exact p1
      · exact List.nil_prefix
    obtain ⟨ks', _, hks⟩ := prefix_map_errorLine ha
    rw [h1, errorLines_split ⟨ks', hks⟩ h3]
    refine ⟨ha, fun rs hr => ?_⟩
    obtain ⟨rfl, l, hl⟩ := h4 rs hr
    exact p2 l hl
  · intro hno
    have ha : a = [] := by
      rcases h2 with rfl | rfl
      · exact g2 hno
      · rfl
    subst ha
    rw [h1]; exact errorLines_split ⟨[], rfl⟩ h3

theorem unknown_legal {d : Dict} (h : LegalDict d) {k : Str} (hk : k ∈ unknownParams d) : LegalKey k ∧ k ∉ known := by
  obtain ⟨kv, hkv, hk⟩ := List.mem_flatMap.1 hk
  have hl := (h.2 kv hkv).2
  split at hk
  · rename_i l he
    rw [he] at hl
    obtain ⟨h1, h2⟩ := List.mem_filter.1 hk
    obtain ⟨x, hx, rfl⟩ := List.mem_map.1 h1
    exact ⟨(hl.2.2 x hx).1, by simpa using h2⟩
  · cases hk

/-- C98: every line of verification is one of these, so its text has no line break and nothing else that is not printable ASCII. -/
theorem C98_lines {m : Msg} (hw : WfHeaders m.headers) (now : UInt64) (ks : List (LogVerifyingKey × Option Str)) (rf : Option Request)
    (hk : ∀ k ∈ ks, PlainVerifying k.1) : ∀ l ∈ (verifySignaturesL now m ks rf).log, VerifyLine l ∧ ∀ c ∈ l.text, Printable c := by
  have key : ∀ l ∈ (verifySignaturesL now m ks rf).log, VerifyLine l := by
    intro l hl
    obtain ⟨a, h1, h2, h3, _⟩ := verifyL_split now m ks rf hk
    obtain ⟨g1, g2⟩ := headersL_log hw
    rw [h1] at hl
    rcases List.mem_append.1 hl with hl | hl
    · rcases h2 with rfl | rfl
      · by_cases hd : ∃ ts d, Wire.LinesText m.headers (c! "signature-input") ts ∧ DictText d (Wire.commas ts)
        · obtain ⟨ts, d, hts, hd⟩ := hd
          obtain ⟨k, hk, rfl⟩ := List.mem_map.1 ((g1 ts d hts hd).1.subset hl)
          obtain ⟨k1, k2⟩ := unknown_legal (parseDict_legal ((parseDict_iff _ _).2 hd)) hk
          exact .ignored k1 k2
        · rw [g2 hd] at hl; cases hl
      · cases hl
    · rcases h3 l hl with rfl | ⟨a, rfl⟩
      · exact .req
      · exact .verify a
  intro l hl
  refine ⟨key l hl, ?_⟩
  cases key l hl with
  | req => decide +kernel
  | verify a => cases a <;> decide +kernel
  | @ignored k h1 _ =>
    intro c hc
    rcases List.mem_append.1 hc with hc | hc
    · exact (show ∀ c ∈ c! "Ignore invalid signature parameter: ", Printable c by decide +kernel) c hc
    · exact legalKey_printable h1 c hc

theorem plen_count {l : Params} (h : ∀ kv ∈ l, LegalKey kv.1) : 2 * l.length ≤ plen l := by
  induction l with
  | nil => simp
  | cons a t ih =>
    have h1 := ih fun kv hkv => h kv (by simp [hkv])
    have h2 : 2 ≤ (serParam a).length := by
      obtain ⟨⟨c, hc, _⟩, _⟩ := h a (by simp)
      obtain ⟨k, b⟩ := a
      cases k with
      | nil => cases hc
      | cons x xs => simp [serParam]
    simp only [plen, List.map_cons, List.sum_cons, List.length_cons] at h1 ⊢
    omega

theorem unknown_len {d : Dict} (h : LegalDict d) : 2 * (unknownParams d).length ≤ total serMember d := by
  have key : ∀ l : Dict, (∀ kv ∈ l, LegalKey kv.1 ∧ LegalEntry kv.2) →
      2 * (unknownParams l).length ≤ (l.map (fun x => (serMember x).length)).sum := by
    intro l
    induction l with
    | nil => simp [unknownParams]
    | cons a t ih =>
      intro hl
      have h1 := ih fun kv hkv => hl kv (by simp [hkv])
      have h2 : 2 * (unknownParams [a]).length ≤ (serMember a).length := by
        obtain ⟨k, e⟩ := a
        cases e with
        | item i => simp [unknownParams]
        | inner il =>
          have h3 := plen_count fun kv hkv => ((hl (k, .inner il) (by simp)).2.2.2 kv hkv).1
          have h4 : (unknownParams [(k, .inner il)]).length ≤ il.params.length := by
            simp only [unknownParams, List.flatMap_cons, List.flatMap_nil, List.append_nil]
            exact (List.length_filter_le _ _).trans (by simp)
          rw [serMember_other _ (fun _ h => by cases h)]
          simp only [serEntry, serInner, List.length_append, List.length_cons, len_serParams]
          omega
      have h5 : (unknownParams (a :: t)).length = (unknownParams [a]).length + (unknownParams t).length := by
        simp [unknownParams]
      simp only [List.map_cons, List.sum_cons]
      omega
  exact (key d h.2).trans (Nat.le_add_right _ _)

/-- C98: there are at most as many lines of level error as Signature-Input has characters. -/
theorem C98_flood {m : Msg} (hw : WfHeaders m.headers) (now : UInt64) (ks : List (LogVerifyingKey × Option Str)) (rf : Option Request)
    (hk : ∀ k ∈ ks, PlainVerifying k.1) {ts : List Str} (hts : Wire.LinesText m.headers (c! "signature-input") ts) :
    (errorLines (verifySignaturesL now m ks rf).log).length ≤ (Wire.commas ts).length := by
  obtain ⟨h1, h2⟩ := C98_errors hw now ks rf hk
  by_cases hd : ∃ d, DictText d (Wire.commas ts)
  · obtain ⟨d, hd⟩ := hd
    have a := (h1 ts d hts hd).1.length_le
    rw [List.length_map] at a
    have b := unknown_len (parseDict_legal ((parseDict_iff _ _).2 hd))
    have c := len_dict hd
    omega
  · have e := h2 (by
      rintro ⟨ts', d, h3, h4⟩
      have h5 : headerTexts m.headers hSignatureInput = .ok ts := (headerTexts_ok hw _ _).2 (linesText_iff.1 hts)
      have h6 : headerTexts m.headers hSignatureInput = .ok ts' := (headerTexts_ok hw _ _).2 (linesText_iff.1 h3)
      rw [h6] at h5
      injection h5 with h5
      subst h5
      exact hd ⟨d, h4⟩)
    rw [e]; exact Nat.zero_le _

/-! ### Examples -/

/-- A key that writes as those of the library do. -/
def c98Sign (b : UInt8) : LogSigningKey := ⟨toySign b, fun _ => [signLine .ed25519]⟩
def c98Verify (b : UInt8) : LogVerifyingKey := ⟨toyVerify b, fun _ _ => [verifyLine .ed25519]⟩

theorem c98Sign_plain (b : UInt8) : PlainSigning (c98Sign b) := fun _ => rfl
theorem c98Verify_plain (b : UInt8) : PlainVerifying (c98Verify b) := fun _ _ => rfl

/-- A response signed over a field of the request and one of its own. -/
def c98Res : Response where
  status := 200
  headers := [(c! "x", utf8 (c! "v"))]
  body := .data []

def c98Params : SigParams := { created := some 1, covered := [⟨.field (c! "x"), [.req]⟩, ⟨.field (c! "x"), []⟩] }

/-- Signed twice: one line for the field of the request in each, then one line per key. -/
example :
    (setSignaturesL (.res c98Res) [(c98Params, c98Sign 1, some (c! "a")), (c98Params, c98Sign 2, some (c! "b"))] (some c80Req)).2.res = .ok () ∧
    (setSignaturesL (.res c98Res) [(c98Params, c98Sign 1, some (c! "a")), (c98Params, c98Sign 2, some (c! "b"))] (some c80Req)).2.log =
      [reqLine, reqLine, signLine .ed25519, signLine .ed25519] := by decide +kernel

/-- The same with another key. -/
example : (setSignaturesL (.res c98Res) [(c98Params, c98Sign 1, none)] (some c80Req)).2.log =
    (setSignaturesL (.res c98Res) [(c98Params, c98Sign 7, none)] (some c80Req)).2.log :=
  (C98_secret (.res c98Res) (some c80Req) [(c98Params, c98Sign 1, none)] [(c98Params, c98Sign 7, none)] (by simp [c98Sign_plain])
    (by simp [c98Sign_plain]) rfl).2 (by decide +kernel) (by decide +kernel)

/-- A request with two unknown parameters in one signature and one in another. -/
def c98Req : Request where
  method := c! "GET"
  uri := { scheme := some (c! "https"), authority := some (c! "example.com"), pathData := c! "/", query := none }
  headers := [(c! "signature-input", utf8 (c! "a=(\"@method\");created=1;foo;bar=2")), (c! "signature-input", utf8 (c! "b=();keyid=\"k\";*x=1")),
    (c! "signature", utf8 (c! "a=:AA==:, b=:AAA=:"))]
  body := .data []

theorem c98Req_wf : WfHeaders c98Req.headers := by
  intro kv h
  simp only [c98Req, List.mem_cons, List.not_mem_nil, or_false] at h
  rcases h with rfl | rfl | rfl <;> exact ⟨by decide, by decide, by decide⟩

example : (verifySignaturesL 0 (.req c98Req) [(c98Verify 1, none)] none).log =
    [errorLine (c! "foo"), errorLine (c! "bar"), errorLine (c! "*x"), verifyLine .ed25519, verifyLine .ed25519] := by decide +kernel

example : ∀ l ∈ (verifySignaturesL 0 (.req c98Req) [(c98Verify 1, none)] none).log, VerifyLine l ∧ ∀ c ∈ l.text, Printable c :=
  C98_lines (m := .req c98Req) c98Req_wf 0 _ none (by simp [c98Verify_plain])

/-- A negative time panics: the two parameters before it have been written. -/
def c98Bad : Request := { c98Req with headers := [(c! "signature-input", utf8 (c! "a=();foo;bar;created=-1;baz")), (c! "signature", utf8 (c! "a=:AA==:"))] }

example : (verifySignaturesL 0 (.req c98Bad) [(c98Verify 1, none)] none).log = [errorLine (c! "foo"), errorLine (c! "bar")] ∧
    (verifySignaturesL 0 (.req c98Bad) [(c98Verify 1, none)] none).res = .panic := by decide +kernel

/-- Without a dictionary there is no line. -/
example : (verifySignaturesL 0 (.req { c98Req with headers := [(c! "signature-input", utf8 (c! "a=();Foo")), (c! "signature", utf8 (c! "a=:AA==:"))] })
    [(c98Verify 1, none)] none).log = [] := by decide +kernel

example : (errorLines (verifySignaturesL 0 (.req c98Req) [(c98Verify 1, none)] none).log).length ≤
    (Wire.commas [c! "a=(\"@method\");created=1;foo;bar=2", c! "b=();keyid=\"k\";*x=1"]).length :=
  C98_flood (m := .req c98Req) c98Req_wf 0 _ none (by simp [c98Verify_plain])
    (linesText_iff.2 ((headerTexts_ok (h := c98Req.headers) c98Req_wf _ _).1 (by decide +kernel)))

/-- Reading a shared key. -/
example : (SharedKey.fromBase64L .hmacSha256 (c! "AA==")).log = [debugLine (c! "Create SharedKey from base64 string")] := by decide +kernel

end Verif
