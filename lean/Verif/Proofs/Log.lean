import Verif.Model.Log
/-!
The functions of `Model/Log.lean` without the log are the functions of the other model files.
-/
namespace Verif
open Sfv

namespace Logged
variable {ε ε' α β : Type}

@[simp] theorem bind_res (x : Logged ε α) (f : α → Logged ε β) : (x >>= f).res = x.res >>= fun a => (f a).res := by
  show (Logged.bind x f).res = _
  unfold Logged.bind
  cases x.res <;> rfl

theorem bind_log_ok {x : Logged ε α} {a : α} (h : x.res = .ok a) (f : α → Logged ε β) : (x >>= f).log = x.log ++ (f a).log := by
  show (Logged.bind x f).log = _
  unfold Logged.bind
  rw [h]

theorem bind_log_fail {x : Logged ε α} (h : ∀ a, x.res ≠ .ok a) (f : α → Logged ε β) : (x >>= f).log = x.log := by
  show (Logged.bind x f).log = _
  unfold Logged.bind
  cases hx : x.res with
  | ok a => exact absurd hx (h a)
  | _ => rfl

theorem bind_assoc {γ : Type} (x : Logged ε α) (f : α → Logged ε β) (g : β → Logged ε γ) : (x >>= f) >>= g = x >>= fun a => f a >>= g := by
  show Logged.bind (Logged.bind x f) g = Logged.bind x (fun a => Logged.bind (f a) g)
  unfold Logged.bind
  cases x.res with
  | ok a => cases h : (f a).res <;> simp [h]
  | _ => rfl

@[simp] theorem quiet_res (r : Res ε α) : (quiet r).res = r := rfl
@[simp] theorem quiet_log (r : Res ε α) : (quiet r).log = [] := rfl
@[simp] theorem line_res (l : LogLevel) (s : Str) : (line l s : Logged ε Unit).res = .ok () := rfl
@[simp] theorem line_log (l : LogLevel) (s : Str) : (line l s : Logged ε Unit).log = [⟨l, s⟩] := rfl
@[simp] theorem mapErr_res (g : ε → ε') (x : Logged ε α) : (x.mapErr g).res = x.res.mapErr g := rfl
@[simp] theorem mapErr_log (g : ε → ε') (x : Logged ε α) : (x.mapErr g).log = x.log := rfl

@[simp] theorem quiet_bind_log (r : Res ε α) (f : α → Logged ε β) :
    (quiet r >>= f).log = (match r with | .ok a => (f a).log | _ => []) := by
  show (Logged.bind _ f).log = _
  unfold Logged.bind quiet
  cases r <;> rfl

theorem collect_res {f : α → Logged ε β} {g : α → Res ε β} (h : ∀ a, (f a).res = g a) (l : List α) :
    (collect f l).res = Res.collect g l := by
  induction l with
  | nil => rfl
  | cons a t ih =>
    simp only [collect, Res.collect, bind_res, h, ih]
    cases g a with
    | ok b => simp only [Res.bind_ok]; cases Res.collect g t <;> rfl
    | _ => rfl

theorem filterOk_res {f : α → Logged ε β} {g : α → Res ε β} (h : ∀ a, (f a).res = g a) (l : List α) :
    (filterOk f l : Logged ε' (List β)).res = Res.filterOk g l := by
  induction l with
  | nil => rfl
  | cons a t ih =>
    simp only [filterOk, Res.filterOk, h]
    cases g a with
    | ok b => simp only [ih]; cases (Res.filterOk g t : Res ε' (List β)) <;> rfl
    | err e => simp only [ih]
    | panic => rfl

theorem gather_res (l : List (Logged ε α)) : (gather l : Logged ε' _).res = Verif.gather (l.map Logged.res) := by
  induction l with
  | nil => rfl
  | cons x t ih =>
    simp only [gather, List.map_cons]
    cases x.res <;> simp [Verif.gather, ih]

/-! ### Logs under `Q` -/

/-- All lines of the log have a property. -/
def All (Q : LogLine → Prop) (x : Logged ε α) : Prop := ∀ l ∈ x.log, Q l

variable {Q : LogLine → Prop}

theorem all_quiet (r : Res ε α) : (quiet r).All Q := nofun

theorem all_bind {x : Logged ε α} {f : α → Logged ε β} (hx : x.All Q) (hf : ∀ a, x.res = .ok a → (f a).All Q) : (x >>= f).All Q := by
  cases h : x.res with
  | ok a =>
    intro l hl
    rw [bind_log_ok h] at hl
    rcases List.mem_append.1 hl with hl | hl
    · exact hx l hl
    · exact hf a h l hl
  | _ => intro l hl; rw [bind_log_fail (by simp [h])] at hl; exact hx l hl

theorem all_collect {f : α → Logged ε β} {l : List α} (h : ∀ a ∈ l, (f a).All Q) : (collect f l).All Q := by
  induction l with
  | nil => nofun
  | cons a t ih =>
    exact all_bind (h a (by simp)) fun _ _ => all_bind (ih fun b hb => h b (by simp [hb])) fun _ _ => nofun

theorem all_filterOk {f : α → Logged ε β} {l : List α} (h : ∀ a ∈ l, (f a).All Q) : (filterOk f l : Logged ε' (List β)).All Q := by
  induction l with
  | nil => nofun
  | cons a t ih =>
    have h1 := h a (by simp)
    have h2 := ih fun b hb => h b (by simp [hb])
    intro l hl
    simp only [filterOk] at hl
    split at hl
    · exact (List.mem_append.1 hl).elim (h1 l) (h2 l)
    · exact (List.mem_append.1 hl).elim (h1 l) (h2 l)
    · exact h1 l hl

theorem all_gather {l : List (Logged ε α)} (h : ∀ a ∈ l, a.All Q) : (gather l : Logged ε' _).All Q := by
  induction l with
  | nil => nofun
  | cons a t ih =>
    have h1 := h a (by simp)
    have h2 := ih fun b hb => h b (by simp [hb])
    intro l hl
    simp only [gather] at hl
    split at hl
    · exact (List.mem_append.1 hl).elim (h1 l) (h2 l)
    · exact (List.mem_append.1 hl).elim (h1 l) (h2 l)
    · exact h1 l hl

/-! ### Logs that are a prefix of something -/

theorem prefix_bind {x : Logged ε α} {f : α → Logged ε β} {a b : List LogLine} (hx : x.log <+: a) (hok : ∀ v, x.res = .ok v → x.log = a)
    (hf : ∀ v, x.res = .ok v → (f v).log <+: b) : (x >>= f).log <+: a ++ b := by
  cases h : x.res with
  | ok v => rw [bind_log_ok h, hok v h]; exact (List.prefix_append_right_inj a).2 (hf v h)
  | _ => rw [bind_log_fail (by simp [h])]; exact hx.trans (List.prefix_append a b)

theorem exact_bind {x : Logged ε α} {f : α → Logged ε β} {a b : List LogLine} {w : β} (h : (x >>= f).res = .ok w)
    (hok : ∀ v, x.res = .ok v → x.log = a) (hf : ∀ v, x.res = .ok v → (f v).res = .ok w → (f v).log = b) : (x >>= f).log = a ++ b := by
  rw [bind_res] at h
  obtain ⟨v, h1, h2⟩ : ∃ v, x.res = .ok v ∧ (f v).res = .ok w := by
    cases hx : x.res with
    | ok v => rw [hx] at h; exact ⟨v, rfl, h⟩
    | err e => rw [hx] at h; cases h
    | panic => rw [hx] at h; cases h
  rw [bind_log_ok h1, hok v h1, hf v h1 h2]

theorem prefix_collect {f : α → Logged ε β} {g : α → List LogLine} (l : List α) (h : ∀ a ∈ l, (f a).log <+: g a)
    (hok : ∀ a ∈ l, ∀ v, (f a).res = .ok v → (f a).log = g a) :
    (collect f l).log <+: l.flatMap g ∧ ∀ vs, (collect f l).res = .ok vs → (collect f l).log = l.flatMap g := by
  induction l with
  | nil => exact ⟨List.prefix_refl _, fun _ _ => rfl⟩
  | cons a t ih =>
    obtain ⟨i1, i2⟩ := ih (fun b hb => h b (by simp [hb])) (fun b hb => hok b (by simp [hb]))
    have hi : ∀ b, (collect f t >>= fun bs => (⟨[], .ok (b :: bs)⟩ : Logged ε (List β))).log <+: t.flatMap g := by
      intro b
      have := prefix_bind (b := []) (f := fun bs => (⟨[], .ok (b :: bs)⟩ : Logged ε (List β))) i1 i2 (fun _ _ => List.prefix_refl _)
      simpa using this
    rw [List.flatMap_cons]
    constructor
    · exact prefix_bind (h a (by simp)) (hok a (by simp)) fun v _ => hi v
    · intro vs hv
      refine exact_bind hv (hok a (by simp)) fun v _ hv2 => ?_
      have := exact_bind (b := []) hv2 i2 (fun _ _ _ => rfl)
      simpa using this

end Logged

/-! ### The results are those without a log -/

theorem fromBase64L_res (alg : Alg) (key : Str) : (SharedKey.fromBase64L alg key).res = SharedKey.fromBase64 alg key := by
  simp [SharedKey.fromBase64L]

theorem secretFromDerL_res {P : Prims} (rsa : Bool) (alg : Alg) (der : Bytes) :
    (SecretKey.fromDerL rsa alg der : Logged SigErr (SecretKey P)).res = SecretKey.fromDer rsa alg der := by
  simp [SecretKey.fromDerL, SecretKey.fromDer, SecretKey.fromBytesL]

theorem secretFromPemL_res {P : Prims} (rsa : Bool) (alg : Alg) (pem : Str) :
    (SecretKey.fromPemL rsa alg pem : Logged SigErr (SecretKey P)).res = SecretKey.fromPem rsa alg pem := by
  simp only [SecretKey.fromPemL, SecretKey.fromPem, Logged.bind_res, Logged.quiet_res]
  congr 1
  funext td
  split
  · rfl
  · exact secretFromDerL_res _ _ _

theorem publicFromPemL_res {P : Prims} (rsa : Bool) (alg : Alg) (pem : Str) :
    (PublicKey.fromPemL rsa alg pem : Logged SigErr (PublicKey P)).res = PublicKey.fromPem rsa alg pem := by
  simp only [PublicKey.fromPemL, PublicKey.fromPem, Logged.bind_res, Logged.quiet_res]
  congr 1
  funext td
  split
  · rfl
  · simp [PublicKey.fromBytesL]

theorem fieldParamsL_res (ps : List CParam) : ∀ vs, (fieldParamsL ps vs).res = fieldParams ps vs := by
  induction ps with
  | nil => intro vs; rfl
  | cons p t ih => intro vs; cases p <;> simp [fieldParamsL, fieldParams, ih]

theorem buildL_res (i : CId) (vs : List Str) : (Component.buildL i vs).res = Component.build i vs := by
  unfold Component.buildL Component.build
  cases i.name with
  | field f => simp [buildField, fieldParamsL_res]
  | derived d => rfl

theorem setKVsL_res (l : Params) : ∀ p : SigParams, (p.setKVsL l).res = p.setKVs l := by
  induction l with
  | nil => intro p; rfl
  | cons kv t ih => intro p; simp [SigParams.setKVsL, SigParams.setKVs, ih]

theorem ofEntryL_res (e : Entry) : (SigParams.ofEntryL e).res = SigParams.ofEntry e := by
  cases e with
  | item i => rfl
  | inner l =>
    simp only [SigParams.ofEntryL, SigParams.ofEntry, Logged.bind_res, Logged.quiet_res]
    congr 1
    funext ids
    split
    · rfl
    · exact setKVsL_res _ _

theorem parseOneL_res (s : Dict) (kv : Str × Entry) : (parseOneL s kv).res = parseOne s kv := by
  simp only [parseOneL, parseOne, Logged.bind_res, ofEntryL_res]
  congr 1
  funext p
  cases (imGet s kv.1).bind entryBytes <;> rfl

theorem tryParseL_res (s t : Str) : (SigHeaders.tryParseL s t).res = SigHeaders.tryParse s t := by
  simp only [SigHeaders.tryParseL, SigHeaders.tryParse, Logged.bind_res, Logged.quiet_res]
  congr 1
  funext d
  congr 1
  funext e
  repeat' split
  all_goals first | rfl | skip
  simp [Logged.collect_res (parseOneL_res _)]

theorem extractSignatureHeadersL_res (m : Msg) : (extractSignatureHeadersL m).res = extractSignatureHeaders m := by
  simp only [extractSignatureHeadersL, extractSignatureHeaders]
  split
  · rfl
  · simp [tryParseL_res]

theorem extractComponentL_res (m : Msg) (i : CId) : (extractComponentL m i).res = extractComponent m i := by
  unfold extractComponentL extractComponent
  split
  · rename_i n h
    simp [extractHttpFieldL, extractHttpField, h, buildL_res]
  · rename_i n h
    simp [extractDerivedL, extractDerived, h, buildL_res]

theorem extractForL_res (m : Msg) (rf : Option Request) (i : CId) : (extractForL m rf i).res = extractFor m rf i := by
  unfold extractForL extractFor
  split
  · split
    · rfl
    · cases rf with
      | none => rfl
      | some r => exact extractComponentL_res _ _
  · exact extractComponentL_res _ _

theorem buildBaseL_res (m : Msg) (p : SigParams) (rf : Option Request) : (buildBaseL m p rf).res = buildBase m p rf := by
  simp [buildBaseL, buildBase, Logged.collect_res (extractForL_res m rf)]

theorem extractSignaturesL_res (m : Msg) (rf : Option Request) : (extractSignaturesL m rf).res = extractSignatures m rf := by
  simp only [extractSignaturesL, extractSignatures, Logged.bind_res, extractSignatureHeadersL_res]
  congr 1
  funext l
  rw [Logged.filterOk_res (g := fun kv : Str × SigHeaders => do let b ← buildBase m kv.2.params rf; Res.ok (kv.1, (b, kv.2)))
    (fun kv => by simp [buildBaseL_res])]
  rfl

theorem verifyL_res (now : UInt64) (b : SigBase) (k : LogVerifyingKey) (h : SigHeaders) : (b.verifyL now k h).res = b.verify now k.key h := by
  unfold SigBase.verifyL SigBase.verify
  split <;> rfl

theorem verifyOneL_res (now : UInt64) (map : List (Str × (SigBase × SigHeaders))) (k : LogVerifyingKey) (i : Option Str) :
    (verifyOneL now map k i).res = verifyOne now map k.key i := by
  simp only [verifyOneL, verifyOne]
  split
  · rfl
  · simp only [Logged.bind_res]
    rw [Logged.filterOk_res (g := fun kv : Str × (SigBase × SigHeaders) => do kv.2.1.verify now k.key kv.2.2; Res.ok kv.1)
      (fun kv => by simp [verifyL_res])]
    cases (Res.filterOk (fun kv : Str × (SigBase × SigHeaders) => do kv.2.1.verify now k.key kv.2.2; Res.ok kv.1) (filterKeyId map i) :
      Res HyperErr (List Str)) with
    | ok names => simp only [Res.bind_ok]; cases isOfList names <;> rfl
    | _ => rfl

theorem verifySignaturesL_res (now : UInt64) (m : Msg) (keys : List (LogVerifyingKey × Option Str)) (rf : Option Request) :
    (verifySignaturesL now m keys rf).res = verifySignatures now m (keys.map fun k => (k.1.key, k.2)) rf := by
  unfold verifySignaturesL verifySignatures
  split
  · rfl
  · simp only [Logged.bind_res, extractSignaturesL_res]
    congr 1
    funext map
    rw [Logged.gather_res]
    simp [verifyInner, List.map_map, Function.comp_def, verifyOneL_res]

theorem signHeadersL_res (m : Msg) (l : List (SigParams × LogSigningKey × Option Str)) (rf : Option Request) :
    (signHeadersL m l rf).res = (do let bs ← signBases m (l.map fun x => (x.1, x.2.1.key, x.2.2)) rf; signAll bs) := by
  have hc : ∀ l : List (SigParams × LogSigningKey × Option Str), signBases m (l.map fun x => (x.1, x.2.1.key, x.2.2)) rf =
      (Res.collect (fun pkn => do let b ← buildBase m pkn.1 rf; .ok (b, pkn.2)) l >>= fun bs => .ok (bs.map fun x => (x.1, x.2.1.key, x.2.2))) := by
    intro l
    induction l with
    | nil => rfl
    | cons a t ih =>
      unfold signBases at ih ⊢
      simp only [List.map_cons, Res.collect]
      cases buildBase m a.1 rf with
      | ok b =>
        simp only [Res.bind_ok]
        rw [ih]
        cases Res.collect (fun pkn : SigParams × LogSigningKey × Option Str => do let b ← buildBase m pkn.1 rf; Res.ok (b, pkn.2)) t <;> rfl
      | _ => rfl
  unfold signHeadersL
  rw [hc]
  simp only [Logged.bind_res, Logged.gather_res, Logged.quiet_res]
  rw [Logged.collect_res (g := fun pkn : SigParams × LogSigningKey × Option Str => do let b ← buildBase m pkn.1 rf; Res.ok (b, pkn.2))
    (fun pkn => by simp [buildBaseL_res])]
  cases Res.collect (fun pkn : SigParams × LogSigningKey × Option Str => do let b ← buildBase m pkn.1 rf; Res.ok (b, pkn.2)) l with
  | ok bs => simp [signAll, List.map_map, Function.comp_def, SigBase.headersL]; rfl
  | _ => rfl

theorem setSignaturesL_res (m : Msg) (l : List (SigParams × LogSigningKey × Option Str)) (rf : Option Request) :
    (setSignaturesL m l rf).1 = (setSignatures m (l.map fun x => (x.1, x.2.1.key, x.2.2)) rf).1 ∧
    (setSignaturesL m l rf).2.res = (setSignatures m (l.map fun x => (x.1, x.2.1.key, x.2.2)) rf).2 := by
  unfold setSignaturesL setSignatures
  simp only [← signHeadersL_res]
  cases (signHeadersL m l rf).res <;> exact ⟨rfl, rfl⟩

end Verif
