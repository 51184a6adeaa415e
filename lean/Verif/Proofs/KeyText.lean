import Verif.Spec.KeyText
import Verif.Proofs.ErrText
/-! Lemmas for Props/C112.lean. -/
namespace Verif
open Spec KeySays

/-- The part of reading a file that both kinds of key share: what is declared fits the algorithm. -/
def declT (L : KeyErrLib) (e : SigErr) (rsa : Bool) (alg : Alg) (der : Bytes) (oid : Str) (params : Option Str) : Res SigErrT Unit :=
  if oid = oidEC then do
    let param ← Res.ofOption ⟨e, L.params der⟩ params
    let a ← algOfCurveT e param
    if a ≠ alg then .err ⟨e, c! "Algorithm mismatch"⟩ else .ok ()
  else if oid = oidEd25519 then
    if alg ≠ .ed25519 then .err ⟨e, c! "Algorithm mismatch"⟩ else .ok ()
  else if rsa ∧ oid = oidRsa then
    if alg = .rsaV15Sha256 ∨ alg = .rsaPssSha512 then .ok () else .err ⟨e, c! "Algorithm mismatch"⟩
  else .err ⟨e, c! "Unsupported algorithm"⟩

section
variable {L : KeyErrLib} {P : Prims} {e : SigErr} {rsa : Bool} {alg : Alg} {der : Bytes} {oid : Str} {params : Option Str}

theorem oid_ne : oidEC ≠ oidEd25519 ∧ oidEC ≠ oidRsa ∧ oidEd25519 ≠ oidRsa ∧ oidP256 ≠ oidP384 := by decide

theorem declT_ok : declT L e rsa alg der oid params = .ok () ↔ Declares alg oid params ∧ Asymmetric rsa alg := by
  obtain ⟨h1, h2, h3, h4⟩ := oid_ne
  have f1 := h1.symm; have f2 := h2.symm; have f3 := h3.symm; have f4 := h4.symm
  unfold declT algOfCurveT Asymmetric
  have hd : Declares alg oid params ↔ match alg with
      | .ecdsaP256Sha256 => oid = oidEC ∧ params = some oidP256
      | .ecdsaP384Sha384 => oid = oidEC ∧ params = some oidP384
      | .ed25519 => oid = oidEd25519
      | .rsaV15Sha256 | .rsaPssSha512 => oid = oidRsa
      | .hmacSha256 => False := by cases alg <;> rfl
  rw [hd]
  by_cases c1 : oid = oidEC
  · subst c1
    cases params with
    | none => cases alg <;> simp [h1, h2]
    | some o =>
      by_cases d1 : o = oidP256
      · subst d1; cases alg <;> simp [h1, h2, h4]
      · by_cases d2 : o = oidP384
        · subst d2; cases alg <;> simp [h1, h2, f4]
        · cases alg <;> simp [h1, h2, d1, d2]
  · by_cases c2 : oid = oidEd25519
    · subst c2; cases alg <;> simp [f1, h3]
    · by_cases c3 : oid = oidRsa
      · subst c3; cases alg <;> cases rsa <;> simp [f2, f3]
      · cases alg <;> simp [c1, c2, c3]

theorem declT_panic : declT L e rsa alg der oid params ≠ .panic := by
  unfold declT algOfCurveT
  by_cases c1 : oid = oidEC
  · cases params with
    | none => simp [c1]
    | some o =>
      simp only [c1, if_pos, Res.ofOption_some, Res.bind_ok]
      (repeat' split) <;> simp only [Res.bind_ok, Res.bind_err] <;> (repeat' split) <;> simp
  · simp only [c1, if_false]; (repeat' split) <;> simp

theorem declT_err {x : SigErrT} : declT L e rsa alg der oid params = .err x ↔ x.kind = e ∧ Declared L rsa alg der oid params x.text := by
  obtain ⟨h1, h2, h3, h4⟩ := oid_ne
  have hok := declT_ok (L := L) (e := e) (rsa := rsa) (alg := alg) (der := der) (oid := oid) (params := params)
  obtain ⟨k, t⟩ := x
  constructor
  · intro h
    have hn : ¬ (Declares alg oid params ∧ Asymmetric rsa alg) := by rw [← hok, h]; simp
    unfold declT algOfCurveT at h
    split at h
    · rename_i c1
      cases params with
      | none => simp at h; obtain ⟨rfl, rfl⟩ := h; exact ⟨rfl, .params c1 rfl⟩
      | some o =>
        simp only [Res.ofOption_some, Res.bind_ok] at h
        by_cases d1 : o = oidP256
        · subst d1
          simp only [if_pos, Res.bind_ok] at h
          split at h
          · rename_i ha
            simp at h; obtain ⟨rfl, rfl⟩ := h
            refine ⟨rfl, .mismatch (a := .ecdsaP256Sha256) (by simp [Asymmetric]) ⟨c1, rfl⟩ fun hd => ?_⟩
            subst c1; cases alg <;> revert ha hd <;> simp [Declares] <;> decide
          · simp at h
        · by_cases d2 : o = oidP384
          · subst d2
            simp only [if_neg h4.symm, if_pos, Res.bind_ok] at h
            split at h
            · rename_i ha
              simp at h; obtain ⟨rfl, rfl⟩ := h
              refine ⟨rfl, .mismatch (a := .ecdsaP384Sha384) (by simp [Asymmetric]) ⟨c1, rfl⟩ fun hd => ?_⟩
              subst c1; cases alg <;> revert ha hd <;> simp [Declares] <;> decide
            · simp at h
          · simp [d1, d2] at h; obtain ⟨rfl, rfl⟩ := h; exact ⟨rfl, .curve c1 rfl d1 d2⟩
    · rename_i c1
      split at h
      · rename_i c2
        split at h
        · rename_i ha
          simp at h; obtain ⟨rfl, rfl⟩ := h
          refine ⟨rfl, .mismatch (a := .ed25519) (by simp [Asymmetric]) c2 fun hd => ?_⟩
          subst c2; cases alg <;> revert ha hd <;> simp [Declares, oidEd25519]
        · simp at h
      · rename_i c2
        split at h
        · rename_i c3
          split at h
          · simp at h
          · rename_i ha
            simp at h; obtain ⟨rfl, rfl⟩ := h
            refine ⟨rfl, .mismatch (a := .rsaV15Sha256) (by simp [Asymmetric, c3.1]) c3.2 fun hd => ?_⟩
            obtain ⟨-, c3⟩ := c3
            subst c3; cases alg <;> revert ha hd <;> simp [Declares, oidRsa]
        · rename_i c3
          simp at h; obtain ⟨rfl, rfl⟩ := h
          exact ⟨rfl, .unknown c1 c2 fun hr => by cases rsa <;> simp_all [oidRsa]⟩
  · rintro ⟨rfl, h⟩
    cases h with
    | params c1 hp => subst hp; simp [declT, show oid = oidEC from c1]
    | curve c1 hp d1 d2 =>
      subst hp; simp [declT, algOfCurveT, show oid = oidEC from c1, show _ ≠ oidP256 from d1, show _ ≠ oidP384 from d2]
    | unknown c1 c2 c3 =>
      have c3' : ¬ (rsa = true ∧ oid = oidRsa) := fun hh => by have := c3 hh.2; simp_all
      simp [declT, show oid ≠ oidEC from c1, show oid ≠ oidEd25519 from c2, c3']
    | @mismatch a ha hd hn =>
      have hne : a ≠ alg := fun hh => hn (hh ▸ hd)
      unfold declT
      cases a with
      | hmacSha256 => exact hd.elim
      | ecdsaP256Sha256 => obtain ⟨c1, rfl⟩ := hd; simp [show oid = oidEC from c1, algOfCurveT, hne, oidP256]
      | ecdsaP384Sha384 => obtain ⟨c1, rfl⟩ := hd; simp [show oid = oidEC from c1, algOfCurveT, hne, oidP256, oidP384]
      | ed25519 => have c2 : oid = oidEd25519 := hd; simp [c2, h1.symm, hne.symm]
      | rsaV15Sha256 =>
        have c3 : oid = oidRsa := hd
        have hr : rsa = true := ha.2 (.inl rfl)
        have hx : ¬ (alg = .rsaV15Sha256 ∨ alg = .rsaPssSha512) := by rintro (rfl | rfl) <;> exact hn c3
        simp [c3, h2.symm, h3.symm, hr, hx]
      | rsaPssSha512 =>
        have c3 : oid = oidRsa := hd
        have hr : rsa = true := ha.2 (.inr rfl)
        have hx : ¬ (alg = .rsaV15Sha256 ∨ alg = .rsaPssSha512) := by rintro (rfl | rfl) <;> exact hn c3
        simp [c3, h2.symm, h3.symm, hr, hx]

/-- The key bytes, once what is declared fits. -/
def skFieldT (L : KeyErrLib) (P : Prims) (alg : Alg) (key : Bytes) : Res SigErrT Bytes :=
  match alg with
  | .ecdsaP256Sha256 | .ecdsaP384Sha384 =>
    Res.ofOption ⟨.parsePrivateKey, c! "Error decoding EcPrivateKey: " ++ L.sec1 key⟩ (P.sec1 key)
  | .ed25519 => if key.length < 2 then .panic else .ok (key.drop 2)
  | _ => .ok key

theorem skBytesT_eq {pki : Pki} : skBytesOfPkiT L P rsa alg der pki =
    (declT L .parsePrivateKey rsa alg der pki.oid pki.paramsOid >>= fun _ => skFieldT L P alg pki.privateKey) := by
  obtain ⟨oid, params, key⟩ := pki
  unfold skBytesOfPkiT declT algOfCurveT
  dsimp only
  split
  · cases params with
    | none => rfl
    | some o =>
      simp only [Res.ofOption_some, Res.bind_ok]
      by_cases d1 : o = oidP256
      · simp only [d1, if_pos, Res.bind_ok]; split
        · rfl
        · rename_i h; simp at h; subst h; rfl
      · by_cases d2 : o = oidP384
        · simp only [d2, oid_ne.2.2.2.symm, if_false, if_pos, Res.bind_ok]; split
          · rfl
          · rename_i h; simp at h; subst h; rfl
        · simp [d1, d2]
  · split
    · split
      · rfl
      · rename_i h; simp at h; subst h; rfl
    · split
      · split
        · rename_i h; rcases h with rfl | rfl <;> rfl
        · rfl
      · rfl

theorem pkBytesT_eq {spki : Spki} : pkBytesOfSpkiT L rsa alg der spki =
    (declT L .parsePublicKey rsa alg der spki.oid spki.paramsOid >>= fun _ =>
      Res.ofOption ⟨.parsePublicKey, c! "Invalid public key"⟩ spki.publicKey) := by
  obtain ⟨oid, params, key⟩ := spki
  unfold pkBytesOfSpkiT declT algOfCurveT
  dsimp only
  split
  · cases params with
    | none => rfl
    | some o =>
      simp only [Res.ofOption_some, Res.bind_ok]
      by_cases d1 : o = oidP256
      · simp only [d1, if_pos, Res.bind_ok]; split <;> rfl
      · by_cases d2 : o = oidP384
        · simp only [d2, oid_ne.2.2.2.symm, if_false, if_pos, Res.bind_ok]; split <;> rfl
        · simp [d1, d2]
  · split
    · split <;> rfl
    · split
      · split <;> rfl
      · rfl

/-! ### Binding and options -/

theorem bindT_err {α β : Type} {x : Res SigErrT α} {f : α → Res SigErrT β} {y : SigErrT} :
    (x >>= f) = .err y ↔ x = .err y ∨ ∃ a, x = .ok a ∧ f a = .err y := by
  cases x <;> simp

theorem ofOptionT_err {α : Type} {o : Option α} {x y : SigErrT} : (Res.ofOption x o : Res SigErrT α) = .err y ↔ o = none ∧ x = y := by
  cases o <;> simp

theorem ofOptionT_ok {α : Type} {o : Option α} {x : SigErrT} {a : α} : Res.ofOption x o = .ok a ↔ o = some a := by
  cases o <;> simp

theorem secretBytesT_err {b : Bytes} {x : SigErrT} : (SecretKey.fromBytesT L rsa alg b : Res SigErrT (SecretKey P)) = .err x ↔
    x.kind = .parsePrivateKey ∧ SecretBytes L P rsa alg b x.text := by
  obtain ⟨k, t⟩ := x
  have hs : SecretBytes L P rsa alg b t ↔ (¬ Asymmetric rsa alg ∧ t = c! "Unsupported algorithm") ∨
      (Asymmetric rsa alg ∧ SecretRefused P alg b ∧ t = L.secretKey alg b) := by
    constructor
    · rintro (h | ⟨h, g⟩)
      · exact .inl ⟨h, rfl⟩
      · exact .inr ⟨h, g, rfl⟩
    · rintro (⟨h, rfl⟩ | ⟨h, g, rfl⟩)
      · exact .algorithm h
      · exact .refused h g
  simp only [hs]
  cases alg with
  | ecdsaP256Sha256 =>
    simp only [SecretKey.fromBytesT]
    split
    · simp [Asymmetric, SecretRefused, *]
    · simp [bindT_err, ofOptionT_err, Asymmetric, SecretRefused, *]; tauto
  | ecdsaP384Sha384 =>
    simp only [SecretKey.fromBytesT]
    split
    · simp [Asymmetric, SecretRefused, *]
    · simp [bindT_err, ofOptionT_err, Asymmetric, SecretRefused, *]; tauto
  | ed25519 =>
    simp only [SecretKey.fromBytesT]
    split
    · simp [Asymmetric, SecretRefused]
    · split <;> simp [Asymmetric, SecretRefused]
  | rsaV15Sha256 => cases rsa <;> simp [SecretKey.fromBytesT, bindT_err, ofOptionT_err, Asymmetric, SecretRefused] <;> tauto
  | rsaPssSha512 => cases rsa <;> simp [SecretKey.fromBytesT, bindT_err, ofOptionT_err, Asymmetric, SecretRefused] <;> tauto
  | hmacSha256 => simp [SecretKey.fromBytesT, Asymmetric]; tauto

theorem publicBytesT_err {b : Bytes} {x : SigErrT} : (PublicKey.fromBytesT L rsa alg b : Res SigErrT (PublicKey P)) = .err x ↔
    x.kind = .parsePublicKey ∧ PublicBytes L P rsa alg b x.text := by
  obtain ⟨k, t⟩ := x
  have hs : PublicBytes L P rsa alg b t ↔ (¬ Asymmetric rsa alg ∧ t = c! "Unsupported algorithm") ∨
      (Asymmetric rsa alg ∧ PublicRefused P alg b ∧ t = L.publicKey alg b) := by
    constructor
    · rintro (h | ⟨h, g⟩)
      · exact .inl ⟨h, rfl⟩
      · exact .inr ⟨h, g, rfl⟩
    · rintro (⟨h, rfl⟩ | ⟨h, g, rfl⟩)
      · exact .algorithm h
      · exact .refused h g
  simp only [hs]
  cases alg <;> cases rsa <;> simp [PublicKey.fromBytesT, bindT_err, ofOptionT_err, Asymmetric, PublicRefused] <;> tauto

theorem skFieldT_ok {key b : Bytes} (ha : alg ≠ .hmacSha256) : skFieldT L P alg key = .ok b ↔ SecretField P alg key b := by
  cases alg with
  | ecdsaP256Sha256 => exact ofOptionT_ok
  | ecdsaP384Sha384 => exact ofOptionT_ok
  | ed25519 =>
    rcases key with _ | ⟨x, _ | ⟨y, r⟩⟩
    · simp [skFieldT, SecretField]
    · simp [skFieldT, SecretField]
    · simp [skFieldT, SecretField, show ¬ r.length + 1 + 1 < 2 by omega]
  | rsaV15Sha256 => simp [skFieldT, SecretField, eq_comm]
  | rsaPssSha512 => simp [skFieldT, SecretField, eq_comm]
  | hmacSha256 => exact absurd rfl ha

theorem skFieldT_err {key : Bytes} {x : SigErrT} : skFieldT L P alg key = .err x ↔
    (alg = .ecdsaP256Sha256 ∨ alg = .ecdsaP384Sha384) ∧ P.sec1 key = none ∧
      x = ⟨.parsePrivateKey, c! "Error decoding EcPrivateKey: " ++ L.sec1 key⟩ := by
  cases alg with
  | ed25519 => simp only [skFieldT]; split <;> simp
  | ecdsaP256Sha256 => simp only [skFieldT, ofOptionT_err]; simp [eq_comm]
  | ecdsaP384Sha384 => simp only [skFieldT, ofOptionT_err]; simp [eq_comm]
  | _ => simp [skFieldT]

/-! ### Numbers with commas -/

theorem digits_stop {a a' r r' : Str} (ha : ∀ c ∈ a, '0' ≤ c ∧ c ≤ '9') (ha' : ∀ c ∈ a', '0' ≤ c ∧ c ≤ '9')
    (hr : ∀ c, r.head? = some c → ¬ ('0' ≤ c ∧ c ≤ '9')) (hr' : ∀ c, r'.head? = some c → ¬ ('0' ≤ c ∧ c ≤ '9'))
    (h : a ++ r = a' ++ r') : a = a' ∧ r = r' := by
  induction a generalizing a' with
  | nil =>
    cases a' with
    | nil => exact ⟨rfl, h⟩
    | cons c t =>
      have : r = c :: (t ++ r') := h
      exact absurd (ha' c (by simp)) (hr c (by rw [this]; rfl))
  | cons c t ih =>
    cases a' with
    | nil =>
      have : r' = c :: (t ++ r) := h.symm
      exact absurd (ha c (by simp)) (hr' c (by rw [this]; rfl))
    | cons c' t' =>
      simp only [List.cons_append, List.cons.injEq] at h
      obtain ⟨rfl, h⟩ := h
      obtain ⟨rfl, hh⟩ := ih (fun x hx => ha x (by simp [hx])) (fun x hx => ha' x (by simp [hx])) h
      exact ⟨rfl, hh⟩

/-- What follows the first number. -/
def decimalsTail (l : Bytes) : Str := match l with
  | [] => c! "])"
  | b :: t => c! ", " ++ join (c! ", ") ((b :: t).map fun x => natStr x.toNat) ++ c! "])"

theorem decimals_cons (b : UInt8) (l : Bytes) :
    join (c! ", ") ((b :: l).map fun x => natStr x.toNat) ++ c! "])" = natStr b.toNat ++ decimalsTail l := by
  cases l with
  | nil => rfl
  | cons c t => rw [List.map_cons, join_cons _ _ (by simp)]; simp only [decimalsTail, List.append_assoc]

theorem decimalsTail_head (l : Bytes) : ∀ c, (decimalsTail l).head? = some c → ¬ ('0' ≤ c ∧ c ≤ '9') := by
  intro c h
  cases l with
  | nil => obtain rfl : ']' = c := Option.some.inj h; decide
  | cons x t => obtain rfl : ',' = c := Option.some.inj h; decide

theorem decimals_nil_ne (b : UInt8) (l : Bytes) : c! "])" ≠ natStr b.toNat ++ decimalsTail l := by
  intro h
  cases hn : natStr b.toNat with
  | nil => exact natStr_ne_nil _ hn
  | cons c t =>
    rw [hn] at h
    have hc := natStr_digits b.toNat c (by rw [hn]; simp)
    obtain rfl : ']' = c := by injection h
    exact absurd hc (by decide)

theorem decimals_inj {l l' : Bytes} (h : join (c! ", ") (l.map fun x => natStr x.toNat) ++ c! "])" =
    join (c! ", ") (l'.map fun x => natStr x.toNat) ++ c! "])") : l = l' := by
  induction l generalizing l' with
  | nil =>
    cases l' with
    | nil => rfl
    | cons b t => rw [decimals_cons] at h; exact absurd h (decimals_nil_ne b t)
  | cons b t ih =>
    cases l' with
    | nil => rw [decimals_cons] at h; exact absurd h.symm (decimals_nil_ne b t)
    | cons b' t' =>
      rw [decimals_cons, decimals_cons] at h
      obtain ⟨h1, h2⟩ := digits_stop (natStr_digits _) (natStr_digits _) (decimalsTail_head t) (decimalsTail_head t') h
      obtain rfl := UInt8.toNat.inj (natStr_inj h1)
      congr 1
      cases t with
      | nil => cases t' with
        | nil => rfl
        | cons c u => cases h2
      | cons c u => cases t' with
        | nil => cases h2
        | cons c' u' =>
          simp only [decimalsTail, List.append_assoc, List.append_cancel_left_eq] at h2
          exact ih h2

/-! ### Without the messages -/

theorem ofOptionT_kind {α : Type} (x : SigErrT) (o : Option α) : (Res.ofOption x o).mapErr SigErrT.kind = Res.ofOption x.kind o := by
  cases o <;> rfl

theorem secretBytesT_kind (rsa : Bool) (alg : Alg) (b : Bytes) :
    (SecretKey.fromBytesT L rsa alg b : Res SigErrT (SecretKey P)).mapErr SigErrT.kind = SecretKey.fromBytes rsa alg b := by
  cases alg with
  | ed25519 =>
    simp only [SecretKey.fromBytesT, SecretKey.fromBytes]
    split
    · rfl
    · cases P.ed25519.skOf b <;> rfl
  | _ =>
    simp only [SecretKey.fromBytesT, SecretKey.fromBytes]
    (try split) <;> first | rfl | (simp only [Res.mapErr_bind', ofOptionT_kind]; rfl)

theorem publicBytesT_kind (rsa : Bool) (alg : Alg) (b : Bytes) :
    (PublicKey.fromBytesT L rsa alg b : Res SigErrT (PublicKey P)).mapErr SigErrT.kind = PublicKey.fromBytes rsa alg b := by
  cases alg <;> simp only [PublicKey.fromBytesT, PublicKey.fromBytes] <;> (try split) <;>
    first
    | rfl
    | (simp only [Res.mapErr_bind', ofOptionT_kind]; rfl)

theorem algOfCurveT_kind (e : SigErr) (o : Str) : (algOfCurveT e o).mapErr SigErrT.kind = algOfCurve e o := by
  unfold algOfCurveT algOfCurve; (repeat' split) <;> rfl

theorem skBytesT_kind (rsa : Bool) (alg : Alg) (der : Bytes) (pki : Pki) :
    (skBytesOfPkiT L P rsa alg der pki).mapErr SigErrT.kind = skBytesOfPki P rsa alg pki := by
  unfold skBytesOfPkiT skBytesOfPki
  split
  · simp only [Res.mapErr_bind', ofOptionT_kind, algOfCurveT_kind]
    congr 1; funext o; congr 1; funext a
    split
    · rfl
    · exact ofOptionT_kind _ _
  · (repeat' split) <;> rfl

theorem pkBytesT_kind (rsa : Bool) (alg : Alg) (der : Bytes) (spki : Spki) :
    (pkBytesOfSpkiT L rsa alg der spki).mapErr SigErrT.kind = pkBytesOfSpki rsa alg spki := by
  unfold pkBytesOfSpkiT pkBytesOfSpki
  split
  · simp only [Res.mapErr_bind', ofOptionT_kind, algOfCurveT_kind]
    congr 1; funext o; congr 1; funext a
    split
    · rfl
    · exact ofOptionT_kind _ _
  · (repeat' split) <;> first | rfl | exact ofOptionT_kind _ _

theorem secretDerT_kind (rsa : Bool) (alg : Alg) (der : Bytes) :
    (SecretKey.fromDerT L rsa alg der : Res SigErrT (SecretKey P)).mapErr SigErrT.kind = SecretKey.fromDer rsa alg der := by
  simp only [SecretKey.fromDerT, SecretKey.fromDer, Res.mapErr_bind', ofOptionT_kind, skBytesT_kind, secretBytesT_kind]

theorem secretPemT_kind (rsa : Bool) (alg : Alg) (s : Str) :
    (SecretKey.fromPemT L rsa alg s : Res SigErrT (SecretKey P)).mapErr SigErrT.kind = SecretKey.fromPem rsa alg s := by
  simp only [SecretKey.fromPemT, SecretKey.fromPem, Res.mapErr_bind', ofOptionT_kind]
  congr 1; funext td
  split
  · rfl
  · exact secretDerT_kind _ _ _

theorem publicPemT_kind (rsa : Bool) (alg : Alg) (s : Str) :
    (PublicKey.fromPemT L rsa alg s : Res SigErrT (PublicKey P)).mapErr SigErrT.kind = PublicKey.fromPem rsa alg s := by
  simp only [PublicKey.fromPemT, PublicKey.fromPem, Res.mapErr_bind', ofOptionT_kind]
  congr 1; funext td
  split
  · rfl
  · simp only [Res.mapErr_bind', ofOptionT_kind, pkBytesT_kind, publicBytesT_kind]

theorem verifyT_kind (k : PublicKey P) (d s : Bytes) : (k.verifyT L d s).mapErr SigErrT.kind = k.verify d s := by
  have hv : ∀ (a : Alg) (S : Scheme) (pk : S.PK), (verifyResT L a S pk d s).mapErr SigErrT.kind = verifyRes S pk d s := by
    intro a S pk; unfold verifyResT verifyRes
    cases S.sigOf s with
    | none => rfl
    | some g => dsimp only; split <;> rfl
  cases k <;> simp only [PublicKey.verifyT, PublicKey.verify] <;> (try split) <;> first | rfl | exact hv _ _ _

theorem sharedT_kind (alg : Alg) (s : Str) : (SharedKey.fromBase64T L alg s).mapErr SigErrT.kind = SharedKey.fromBase64 alg s := by
  simp only [SharedKey.fromBase64T, SharedKey.fromBase64, Res.mapErr_bind', ofOptionT_kind]
  congr 1; funext k; cases alg <;> rfl

theorem algOfStrT_kind (rsa : Bool) (s : Str) : (Alg.ofStrT rsa s).mapErr SigErrT.kind = Alg.ofStr rsa s := by
  unfold Alg.ofStrT Alg.ofStr; (repeat' split) <;> simp_all

end
end Verif
