import Verif.Spec.Deploy
import Verif.Props.C100
import Verif.Props.C87
import Verif.Props.C04
/-!
C101 A sender and a receiver with checks of their own: what C03, C04, C09, C47 and C48 ask for holds in full between them.
-/
namespace Verif
open Sfv Spec

/-! ### The checks decide what they are meant to decide -/

theorem kind_label {a b : CParam} : Guard.kind a = Guard.kind b ↔ paramLabel a = paramLabel b := by
  cases a <;> cases b <;> simp [Guard.kind, paramLabel]

theorem kinds_nodup (l : List CParam) : (l.map Guard.kind).Nodup ↔ (l.map paramLabel).Nodup := by
  unfold List.Nodup
  rw [List.pairwise_map, List.pairwise_map]
  simp only [Ne, kind_label]

theorem isField_iff {n : CName} : (match n with | .field _ => true | .derived _ => false) = true ↔ ∃ f, n = .field f := by
  cases n <;> simp

/-- C101: the check of an identifier. -/
theorem C101_id (i : CId) : Guard.idFine i = true ↔ SafeId i := by
  obtain ⟨n, ps⟩ := i
  unfold Guard.idFine
  simp only [Bool.and_eq_true, decide_eq_true_eq, List.all_eq_true, kinds_nodup]
  constructor
  · rintro ⟨⟨h1, h2⟩, h3⟩
    refine ⟨⟨h1, fun s hs => ?_, fun hs => ?_, fun f hf => ?_⟩, fun f hf => ?_, fun s hs => ?_, fun s hs => ?_⟩
    · have := h2 _ hs
      simp only [Guard.paramHere, Bool.and_eq_true, beq_iff_eq] at this
      exact this.2
    · rcases hs with hs | hs | hs | ⟨k, hs⟩
      · exact isField_iff.1 (h2 _ hs)
      · exact isField_iff.1 (h2 _ hs)
      · exact isField_iff.1 (h2 _ hs)
      · have := h2 _ hs
        simp only [Guard.paramHere, Bool.and_eq_true] at this
        exact isField_iff.1 this.2
    · simp only at hf; subst hf
      simp only [Bool.and_eq_true, bne_iff_ne] at h3
      exact h3.2
    · simp only at hf; subst hf
      simp only [Bool.and_eq_true, decide_eq_true_eq] at h3
      exact h3.1
    · have := h2 _ hs
      simp only [Guard.paramHere, Bool.and_eq_true, decide_eq_true_eq] at this
      exact this.1
    · have := h2 _ hs
      simp only [Guard.paramHere, Bool.and_eq_true, decide_eq_true_eq] at this
      exact this.1
  · intro h
    refine ⟨⟨h.distinct, fun p hp => ?_⟩, ?_⟩
    · cases p with
      | req => rfl
      | name s =>
        simp only [Guard.paramHere, Bool.and_eq_true, decide_eq_true_eq, beq_iff_eq]
        exact ⟨h.nameParam s hp, h.name s hp⟩
      | key s =>
        simp only [Guard.paramHere, Bool.and_eq_true, decide_eq_true_eq]
        exact ⟨h.keyText s hp, isField_iff.2 (h.fieldOnly (Or.inr (Or.inr (Or.inr ⟨s, hp⟩))))⟩
      | sf => exact isField_iff.2 (h.fieldOnly (Or.inl hp))
      | bs => exact isField_iff.2 (h.fieldOnly (Or.inr (Or.inl hp)))
      | tr => exact isField_iff.2 (h.fieldOnly (Or.inr (Or.inr (Or.inl hp))))
    · cases n with
      | field f =>
        simp only [Bool.and_eq_true, decide_eq_true_eq, bne_iff_ne]
        exact ⟨h.nameText f rfl, h.noAt f rfl⟩
      | derived d => rfl

theorem noTwins_iff (l : List CId) : Guard.noTwins l = true ↔ l.Pairwise (fun a b => ¬ SameId a b) := by
  induction l with
  | nil => simp [Guard.noTwins]
  | cons a t ih =>
    rw [Guard.noTwins, Bool.and_eq_true, ih, List.pairwise_cons, List.all_eq_true]
    refine and_congr_left fun _ => forall_congr' fun b => forall_congr' fun _ => ?_
    unfold SameId
    rw [Bool.not_eq_true', ← Bool.not_eq_true, Bool.and_eq_true, beq_iff_eq, List.isPerm_iff]

theorem optText_iff (o : Option Str) : Guard.optText o = true ↔ ∀ s, o = some s → SafeText s := by
  cases o <;> simp [Guard.optText]

theorem optTime_iff (o : Option UInt64) : Guard.optTime o = true ↔ ∀ t, o = some t → t.toNat < 10 ^ 15 := by
  cases o <;> simp [Guard.optTime]

/-- C101: the check of the parameters. -/
theorem C101_params (p : SigParams) : Guard.paramsFine p = true ↔ SafeParams p := by
  unfold Guard.paramsFine
  simp only [Bool.and_eq_true, optText_iff, optTime_iff, noTwins_iff, List.all_eq_true, C101_id]
  constructor
  · rintro ⟨⟨⟨⟨⟨⟨⟨h1, h2⟩, h3⟩, h4⟩, h5⟩, h6⟩, h7⟩, h8⟩
    exact ⟨h1, h2, h3, h4, h5, h6, h7, h8⟩
  · rintro ⟨h1, h2, h3, h4, h5, h6, h7, h8⟩
    exact ⟨⟨⟨⟨⟨⟨⟨h1, h2⟩, h3⟩, h4⟩, h5⟩, h6⟩, h7⟩, h8⟩

/-- What a request line has for a target: for CONNECT the authority, otherwise path and query (RFC 9112 section 3.2). -/
def sentTarget (r : Request) : Str := if r.method = c! "CONNECT" then r.uri.authority.getD [] else r.uri.pathAndQuery.getD []

/-- The request target is the one that the library signs. -/
theorem target_fine {r : Request} (h : Guard.targetFine r = true) {ps : List CParam} {v : Str} (hv : RequestValue r .requestTarget ps v) :
    v = sentTarget r := by
  unfold Guard.targetFine at h
  simp only [RequestValue] at hv
  subst hv
  unfold sentTarget
  rw [Bool.or_eq_true, bne_iff_ne, beq_iff_eq] at h
  split
  · rfl
  · split
    · rename_i ho
      rcases h with h | h
      · exact absurd ho h
      · rw [h]; rfl
    · rfl

section
variable {now : UInt64} {m : Msg} {rf : Option Request}

/-- The message that an identifier speaks of. -/
def Speaks (m : Msg) (rf : Option Request) (i : CId) (x : Msg) : Prop :=
  if CParam.req ∈ i.params then ∃ r, rf = some r ∧ x = .req r else x = m

/-- C101: the check of a component. -/
theorem C101_here (hw : WfHeaders m.headers) (hf : ∀ r, rf = some r → WfHeaders r.headers) (i : CId) :
    Guard.idHere m rf i = true ↔ ∃ x, Speaks m rf i x ∧ (∀ f, i.name = .field f → fieldLines x.headers f ≠ []) ∧
      ∀ r, x = .req r → i.name = .derived .requestTarget → Guard.targetFine r = true := by
  have one : ∀ x : Msg, WfHeaders x.headers → (Guard.hereIn x i = true ↔ (∀ f, i.name = .field f → fieldLines x.headers f ≠ []) ∧
      ∀ r, x = .req r → i.name = .derived .requestTarget → Guard.targetFine r = true) := by
    intro x hx
    unfold Guard.hereIn
    obtain ⟨n, ps⟩ := i
    cases n with
    | field f =>
      simp only [Bool.not_eq_true', ← Bool.not_eq_true, List.isEmpty_iff, getAll_fieldLines hx]
      exact ⟨fun h => ⟨fun g hg => by injection hg with hg; subst hg; exact h, fun _ _ h => by cases h⟩, fun h => h.1 f rfl⟩
    | derived d =>
      cases x with
      | req r => cases d <;> simp
      | res s => cases d <;> simp
  unfold Guard.idHere Speaks
  by_cases hr : CParam.req ∈ i.params
  · rw [if_pos (List.contains_iff_mem.2 hr)]
    simp only [if_pos hr]
    cases rf with
    | none => simp
    | some r =>
      simp only
      rw [one (.req r) (hf r rfl)]
      constructor
      · intro h; exact ⟨_, ⟨r, rfl, rfl⟩, h⟩
      · rintro ⟨x, ⟨r', e, rfl⟩, h⟩
        injection e with e; subst e; exact h
  · rw [if_neg (fun h => hr (List.contains_iff_mem.1 h))]
    simp only [if_neg hr]
    rw [one m hw]
    exact ⟨fun h => ⟨m, rfl, h⟩, by rintro ⟨x, rfl, h⟩; exact h⟩

/-- C101: the check of what the message carries already. -/
theorem C101_signatures (hw : WfHeaders m.headers) : Guard.signaturesFine m = true ↔ ∃ l, HasSignatures m.headers l := by
  unfold Guard.signaturesFine HasSignatures
  rw [Bool.or_eq_true, Bool.and_eq_true, List.isEmpty_iff, List.isEmpty_iff, getAll_fieldLines hw, getAll_fieldLines hw, Bool.and_eq_true]
  constructor
  · rintro (⟨h1, h2⟩ | ⟨h1, h2⟩)
    · exact ⟨[], Or.inl ⟨h1, h2, rfl⟩⟩
    · split at h2
      · rename_i a t he
        exact ⟨a :: t, Or.inr ⟨(extractSignatureHeaders_ok hw _).1 he, by simp⟩⟩
      · cases h2
  · rintro ⟨l, ⟨h1, h2, _⟩ | ⟨h1, h2⟩⟩
    · exact Or.inl ⟨h1, h2⟩
    · refine Or.inr ⟨?_, ?_⟩
      · cases hg : Guard.headersFine m.headers with
        | true => rfl
        | false => exact absurd (wireCarries_iff.2 h1) (C100_refused hw hg l)
      · rw [(extractSignatureHeaders_ok hw l).2 h1]
        cases l with
        | nil => exact absurd rfl h2
        | cons a t => rfl

theorem clean_iff {h : Headers} (hw : WfHeaders h) : Guard.clean h = true ↔ NoBackslash h := by
  unfold Guard.clean NoBackslash
  simp only [List.all_eq_true, bne_iff_ne, getAll_fieldLines hw, linesOf_eq]
  refine forall_congr' fun l => forall_congr' fun _ => forall_congr' fun b => forall_congr' fun _ => not_congr ?_
  rw [← UInt8.toNat_inj]; rfl

/-! ### The sender -/

/-- All that the sender checks. -/
structure Sendable (m : Msg) (rf : Option Request) (l : List Signer) : Prop where
  signatures : ∃ l0, HasSignatures m.headers l0
  safe : ∀ x ∈ l, SafeParams x.1 ∧ LegalKey x.label
  here : ∀ x ∈ l, ∀ i ∈ x.1.covered, Guard.idHere m rf i = true
  labels : (l.map Signer.label).Nodup

theorem send_eq (hw : WfHeaders m.headers) (l : List Signer) :
    (Sendable m rf l ∧ Guard.send m l rf = ((setSignatures m l rf).1, (setSignatures m l rf).2.mapErr some)) ∨
    (¬ Sendable m rf l ∧ Guard.send m l rf = (m.headers, .err none)) := by
  have key : (Guard.signaturesFine m && l.all (Guard.signerFine m rf) && decide (l.map fun x => x.2.2.getD (c! "sig")).Nodup) = true ↔
      Sendable m rf l := by
    rw [Bool.and_eq_true, Bool.and_eq_true, C101_signatures hw, List.all_eq_true, decide_eq_true_eq]
    simp only [Guard.signerFine, Bool.and_eq_true, decide_eq_true_eq, List.all_eq_true, C101_params]
    constructor
    · rintro ⟨⟨h1, h2⟩, h3⟩
      exact ⟨h1, fun x hx => (h2 x hx).1, fun x hx => (h2 x hx).2, h3⟩
    · rintro ⟨h1, h2, h3, h4⟩
      exact ⟨⟨h1, fun x hx => ⟨h2 x hx, h3 x hx⟩⟩, h4⟩
  unfold Guard.send
  split
  · rename_i h; exact Or.inl ⟨key.1 h, rfl⟩
  · rename_i h; exact Or.inr ⟨fun hh => h (key.2 hh), rfl⟩

/-- C101, the sender: it succeeds exactly if the checks pass and every signer can sign, and then the lines of all signatures are added. -/
theorem C101_sends (hw : WfHeaders m.headers) (hf : ∀ r, rf = some r → WfHeaders r.headers) (l : List Signer) (h' : Headers) :
    Guard.send m l rf = (h', .ok ()) ↔
      Sendable m rf l ∧ ∃ hs, List.Forall₂ (SignedBy m rf) l hs ∧ h' = m.headers ++ hs.flatMap sigLines := by
  rcases send_eq (rf := rf) hw l with ⟨h1, h2⟩ | ⟨h1, h2⟩
  · rw [h2]
    have e : ((setSignatures m l rf).1, (setSignatures m l rf).2.mapErr some) = (h', .ok ()) ↔ setSignatures m l rf = (h', .ok ()) := by
      rcases setSignatures m l rf with ⟨a, b⟩
      cases b <;> simp
    rw [e, setSignatures_ok hw hf]
    simp only [h1, true_and]
    refine exists_congr fun hs => and_congr_right fun hh => ?_
    have hsafe := signed_safe hh h1.safe
    exact ⟨fun h => h.2, fun h => ⟨fun sh hsh => by rw [hvOfStr_printable (safe_input_printable (hsafe sh hsh))]; rfl, h⟩⟩
  · rw [h2]
    simp [h1]

/-- C101, the sender: all or nothing. Without success the headers are as they were, also for many signers. (Without the checks a
batch can fail and leave some of its lines: see the cases below.) -/
theorem C101_all_or_nothing (hw : WfHeaders m.headers) (hf : ∀ r, rf = some r → WfHeaders r.headers) (l : List Signer)
    (h : (Guard.send m l rf).2 ≠ .ok ()) : (Guard.send m l rf).1 = m.headers := by
  rcases send_eq (rf := rf) hw l with ⟨h1, h2⟩ | ⟨_, h2⟩
  · by_cases hex : ∃ hs, List.Forall₂ (SignedBy m rf) l hs
    · obtain ⟨hs, hh⟩ := hex
      have := (C101_sends hw hf l _).2 ⟨h1, hs, hh, rfl⟩
      rw [this] at h; exact absurd rfl h
    · rw [h2]
      exact (C34_nothing_written hw hf l hex).1
  · rw [h2]

/-- C101, the sender: C04 in full. Whatever the message carried, afterwards it carries that with the new signatures put in. -/
theorem C101_kept (hw : WfHeaders m.headers) (hf : ∀ r, rf = some r → WfHeaders r.headers) {l : List Signer} (hl : l ≠ []) {h' : Headers}
    (h : Guard.send m l rf = (h', .ok ())) :
    ∃ l0, HasSignatures m.headers l0 ∧ ∃ hs, List.Forall₂ (SignedBy m rf) l hs ∧ Carries h' (hs.foldl putIn l0) := by
  obtain ⟨h1, hs, h2, h3⟩ := (C101_sends hw hf l h').1 h
  obtain ⟨l0, h0⟩ := h1.signatures
  refine ⟨l0, h0, C04_signed hw hf h0 hl h1.safe ((setSignatures_ok hw hf l h').2 ⟨hs, h2, ?_, h3⟩)⟩
  have hsafe := signed_safe h2 h1.safe
  intro sh hsh
  rw [hvOfStr_printable (safe_input_printable (hsafe sh hsh))]; rfl

/-- C101, the sender: C47 in full. A covered field that is absent makes the call fail. -/
theorem C101_absent_sender (hw : WfHeaders m.headers) (hf : ∀ r, rf = some r → WfHeaders r.headers) {l : List Signer} {x : Signer} (hx : x ∈ l)
    {i : CId} (hi : i ∈ x.1.covered) {f : Str} (hn : i.name = .field f) (ha : ∀ y, Speaks m rf i y → fieldLines y.headers f = []) :
    Guard.send m l rf = (m.headers, .err none) := by
  rcases send_eq (rf := rf) hw l with ⟨h1, _⟩ | ⟨_, h2⟩
  · obtain ⟨y, hy, h2, _⟩ := (C101_here hw hf i).1 (h1.here x hx i hi)
    exact absurd (ha y hy) (h2 f hn)
  · exact h2

/-! ### The receiver -/

/-- C101, the receiver: it never panics. -/
theorem C101_never_panics (hw : WfHeaders m.headers) (hf : ∀ r, rf = some r → WfHeaders r.headers) (keys : List (VerifyingKey × Option Str))
    (hk : ∀ ki ∈ keys, LibraryKey ki.1) : Guard.receive now m keys rf ≠ .panic := by
  unfold Guard.receive
  split
  · rw [Ne, Res.bind_eq_panic]
    rintro (h | ⟨ps, _, h⟩)
    · exact (C100_asked (rf := rf) true hw).2.1.1 h
    · rcases Res.bind_eq_panic.1 h with h | ⟨_, _, h⟩
      · exact C100_never_panics hw hf keys hk h
      · cases h
  · simp

theorem receive_ok {keys : List (VerifyingKey × Option Str)} {rs : List (Except (Option HyperErr) Str)} (hw : WfHeaders m.headers) :
    Guard.receive now m keys rf = .ok rs ↔ NoBackslash m.headers ∧ ∃ l, Carries m.headers l ∧
      ∃ qs, Guard.verifyAll now m keys rf = .ok qs ∧ rs = qs.map (Guard.accept m rf (l.map fun kv => (kv.1, kv.2.params))) := by
  unfold Guard.receive
  rw [← clean_iff hw]
  split
  · rename_i hc
    simp only [hc, true_and]
    rw [Res.bind_eq_ok]
    simp only [← (C100_asked (rf := rf) true hw).2.1.2, C49_params hw]
    constructor
    · rintro ⟨_, ⟨l, hl, rfl⟩, h⟩
      obtain ⟨qs, hq, h⟩ := Res.bind_eq_ok.1 h
      injection h with h
      exact ⟨l, hl, qs, hq, h.symm⟩
    · rintro ⟨l, hl, qs, hq, rfl⟩
      exact ⟨_, ⟨l, hl, rfl⟩, Res.bind_eq_ok.2 ⟨qs, hq, rfl⟩⟩
  · rename_i hc
    simp [hc]

theorem verifyAll_ok {keys : List (VerifyingKey × Option Str)} {qs : List (Except HyperErr Str)}
    (h : Guard.verifyAll now m keys rf = .ok qs) :
    List.Forall₂ (fun ki r => verifySignature now m (Guard.key ki.1) ki.2 rf = ofExcept r) keys qs := by
  unfold Guard.verifyAll Guard.call at h
  split at h
  · have h : verifySignatures now m (keys.map fun ki => (Guard.key ki.1, ki.2)) rf = .ok qs := by
      revert h
      cases verifySignatures now m (keys.map fun ki => (Guard.key ki.1, ki.2)) rf <;> simp
    have := C35_batch_ok _ _ h
    rwa [List.forall₂_map_left_iff] at this
  · cases h

theorem accept_ok {ps : List (Str × SigParams)} {q : Except HyperErr Str} {n : Str} (h : Guard.accept m rf ps q = .ok n) :
    q = .ok n ∧ ∃ p, (n, p) ∈ ps ∧ ∀ i ∈ p.covered, Guard.idHere m rf i = true := by
  cases q with
  | error e => cases h
  | ok n' =>
    unfold Guard.accept at h
    simp only at h
    split at h
    · rename_i kv hkv
      split at h
      · rename_i hall
        injection h with h; subst h
        have h1 := List.find?_some hkv
        have h2 := List.mem_of_find?_eq_some hkv
        rw [beq_iff_eq] at h1
        refine ⟨rfl, kv.2, by rw [← h1]; exact h2, by simpa using hall⟩
      · cases h
    · cases h

/-- A signer that made the checks of the sender. -/
structure CarefulSigning (x : Signing) : Prop where
  msg : WfMsg x.m
  req : ∀ r, x.rf = some r → WfRequest r
  safe : SafeParams x.p
  here : ∀ i ∈ x.p.covered, Guard.idHere x.m x.rf i = true

/-- C101, the receiver: C09 and C47 in full. What it accepts was signed, with exactly these parameters, for a message in which every covered
component has the same value; and no covered field is absent. -/
theorem C101_bound (hm : WfMsg m) (hf : ∀ r, rf = some r → WfRequest r) {keys : List (VerifyingKey × Option Str)}
    {rs : List (Except (Option HyperErr) Str)} (h : Guard.receive now m keys rf = .ok rs) :
    List.Forall₂ (fun ki r => ∀ n, r = .ok n → LibraryKey ki.1 → ∀ S, OnlySigned ki.1 S → (∀ x, S x → CarefulSigning x) →
      ∃ l sh, Carries m.headers l ∧ (n, sh) ∈ l ∧ ∃ x, S x ∧ x.p = sh.params ∧ ∀ i ∈ sh.params.covered,
        (∃ v, HasValue m rf i v ∧ HasValue x.m x.rf i v) ∧
        (∀ f, i.name = .field f → (∃ y, Speaks m rf i y ∧ fieldLines y.headers f ≠ []) ∧ ∃ y, Speaks x.m x.rf i y ∧ fieldLines y.headers f ≠ []) ∧
        (i.name = .derived .requestTarget → ∀ r r', Speaks m rf i (.req r) → Speaks x.m x.rf i (.req r') → sentTarget r = sentTarget r'))
      keys rs := by
  have wf : ∀ {m : Msg}, WfMsg m → WfHeaders m.headers := by
    intro m h; cases m with
    | req r => exact h.headers
    | res s => exact h
  obtain ⟨hb, l, hl, qs, hq, rfl⟩ := (receive_ok (wf hm)).1 h
  rw [List.forall₂_map_right_iff]
  refine (verifyAll_ok hq).imp ?_
  intro ki q hv n hn hk S hS hc
  obtain ⟨rfl, p, hp, hh⟩ := accept_ok hn
  obtain ⟨⟨n', sh⟩, hsh, e⟩ := List.mem_map.1 hp
  injection e with e1 e2
  simp only at e1 e2; subst e1; subst e2
  have hS' : OnlySigned (Guard.key ki.1) S := fun d s hds => hS d s ((guardKey_ok hk d s).1 hds)
  obtain ⟨l', sh', c1, c2, x, hx, c3, c4⟩ := C87_bound hS'
    (fun x hx => ⟨⟨(hc x hx).msg, (hc x hx).req, safe_one_line (hc x hx).safe⟩, (hc x hx).safe⟩) hm hf hb hv
  have := carries_unique (wf hm) hl c1; subst this
  have : sh' = sh := by
    have a := imGet_of_mem (carries_nodup c1) c2
    rw [imGet_of_mem (carries_nodup c1) hsh] at a
    injection a with a; exact a.symm
  subst this
  refine ⟨l, sh', c1, c2, x, hx, c3, fun i hi => ⟨c4 i hi, ?_, ?_⟩⟩
  all_goals
    obtain ⟨y, y1, y2, y3⟩ := (C101_here (wf hm) (fun r h => (hf r h).headers) i).1 (hh i hi)
    obtain ⟨z, z1, z2, z3⟩ := (C101_here (wf (hc x hx).msg) (fun r h => ((hc x hx).req r h).headers) i).1 ((hc x hx).here i (by rw [c3]; exact hi))
  · exact fun f hfn => ⟨⟨y, y1, y2 f hfn⟩, z, z1, z2 f hfn⟩
  · intro hn r r' hr hr'
    obtain ⟨v, v1, v2⟩ := c4 i hi
    have one : ∀ {m : Msg} {rf : Option Request} {y : Msg} {r : Request}, Speaks m rf i y → Speaks m rf i (.req r) →
        (∀ r, y = .req r → i.name = .derived .requestTarget → Guard.targetFine r = true) → HasValue m rf i v → v = sentTarget r := by
      intro m rf y r h1 h2 h3 h4
      have hv : ValueIn (.req r) i v ∧ y = .req r := by
        unfold Speaks at h1 h2
        unfold HasValue at h4
        split at h4
        · rename_i hq
          rw [if_pos hq] at h1 h2
          obtain ⟨a, rfl, rfl⟩ := h1
          obtain ⟨b, e, e'⟩ := h2
          obtain ⟨_, c, _, e'', hv⟩ := h4
          injection e with e; subst e
          injection e'' with e''; subst e''
          injection e' with e'; subst e'
          exact ⟨hv, rfl⟩
        · rename_i hq
          rw [if_neg hq] at h1 h2
          subst h1; subst h2
          exact ⟨h4, rfl⟩
      have hv1 := hv.1
      unfold ValueIn at hv1
      rw [hn] at hv1
      exact target_fine (h3 r hv.2 hn) hv1.2
    rw [← one y1 hr y3 v1, ← one z1 hr' z3 v2]

/-! ### Between the two -/

theorem here_after (hw : WfHeaders m.headers) (hf : ∀ r, rf = some r → WfHeaders r.headers) (hs : List SigHeaders) {i : CId}
    (h : Guard.idHere m rf i = true) : Guard.idHere (m.withHeaders (m.headers ++ hs.flatMap sigLines)) rf i = true := by
  obtain ⟨x, h1, h2, h3⟩ := (C101_here hw hf i).1 h
  refine (C101_here (by rw [headers_withHeaders]; exact wf_sigLines hw hs) hf i).2 ?_
  unfold Speaks at h1 ⊢
  by_cases hq : CParam.req ∈ i.params
  · simp only [if_pos hq] at h1 ⊢
    exact ⟨x, h1, h2, h3⟩
  · simp only [if_neg hq] at h1 ⊢
    subst h1
    refine ⟨_, rfl, fun f hf => ?_, fun r hr hn => ?_⟩
    · rw [headers_withHeaders, fieldLines_append]
      intro e
      exact h2 f hf (List.append_eq_nil_iff.1 e).1
    · cases x with
      | req q =>
        injection hr with hr; subst hr
        exact h3 q rfl hn
      | res s => cases hr

/-- C101: C03 in full. What the sender signed, the receiver accepts with the matching keys and key ids, whatever the kinds of the keys. -/
theorem C101_round_trip (hw : WfHeaders m.headers) (hf : ∀ r, rf = some r → WfHeaders r.headers)
    (h0 : fieldLines m.headers (c! "signature-input") = []) (h0' : fieldLines m.headers (c! "signature") = [])
    (l : List (Signer × VerifyingKey)) (hl : l ≠ []) (hk : ∀ x ∈ l, KeyPair x.1.2.1 x.2) (hlk : ∀ x ∈ l, LibraryKey x.2)
    (hself : ∀ x ∈ l, NotSelf x.1.1) (ht : ∀ x ∈ l, ∀ e, x.1.1.expires = some e → now ≤ e)
    {h' : Headers} (h : Guard.send m (l.map (·.1)) rf = (h', .ok ())) :
    ∃ ns, Guard.receive now (m.withHeaders h') (l.map fun x => (x.2, x.1.1.keyid)) rf = .ok (ns.map .ok) ∧
      List.Forall₂ (fun x n => ∃ y ∈ l, y.1.label = n ∧ ∀ i, x.1.1.keyid = some i → y.1.1.keyid = some i) l ns := by
  obtain ⟨hS, hs, h2, rfl⟩ := (C101_sends hw hf _ _).1 h
  have hset : setSignatures m (l.map (·.1)) rf = (m.headers ++ hs.flatMap sigLines, .ok ()) := by
    refine (setSignatures_ok hw hf _ _).2 ⟨hs, h2, fun sh hsh => ?_, rfl⟩
    rw [hvOfStr_printable (safe_input_printable (signed_safe h2 hS.safe sh hsh))]; rfl
  have hsafe : ∀ x ∈ l.map (·.1), SafeParams x.1 ∧ LegalKey x.label ∧ NotSelf x.1 := by
    intro x hx
    obtain ⟨z, hz, rfl⟩ := List.mem_map.1 hx
    exact ⟨(hS.safe _ hx).1, (hS.safe _ hx).2, hself z hz⟩
  obtain ⟨hs', g1, hw', hc, _⟩ := signed_state hw hf h0 h0' (by simpa using hl) hsafe hS.labels hset
  have hw2 : WfHeaders (m.withHeaders (m.headers ++ hs.flatMap sigLines)).headers := by rw [headers_withHeaders]; exact hw'
  have hc2 : Carries (m.withHeaders (m.headers ++ hs.flatMap sigLines)).headers (hs'.map fun sh => (sh.name, sh)) := by
    rw [headers_withHeaders]; exact hc
  obtain ⟨ns, hv, hns⟩ := C03_batch_partial (now := now) hw hf h0 h0' (l.map fun x => (x.1, Guard.key x.2)) (by simpa using hl)
    (by
      intro x hx
      obtain ⟨z, hz, rfl⟩ := List.mem_map.1 hx
      exact fun d s hd => (guardKey_ok (hlk z hz) d s).2 (hk z hz d s hd))
    (by
      intro x hx
      obtain ⟨z, hz, rfl⟩ := List.mem_map.1 hx
      exact hsafe z.1 (List.mem_map_of_mem hz))
    (by have := hS.labels; simpa [List.map_map, Function.comp_def] using this)
    (by
      intro x hx
      obtain ⟨z, hz, rfl⟩ := List.mem_map.1 hx
      exact ht z hz)
    (by
      intro x hx _ _ _ d s _
      obtain ⟨z, hz, rfl⟩ := List.mem_map.1 hx
      exact guardKey_never (hlk z hz) d s)
    (h' := m.headers ++ hs.flatMap sigLines) (by simpa [List.map_map, Function.comp_def] using hset)
  rw [List.forall₂_map_left_iff] at hns
  have hns : List.Forall₂ (fun x n => ∃ y ∈ l, y.1.label = n ∧ ∀ i, x.1.1.keyid = some i → y.1.1.keyid = some i) l ns := by
    refine hns.imp ?_
    rintro x n ⟨y, hy, e1, e2⟩
    obtain ⟨z, hz, rfl⟩ := List.mem_map.1 hy
    exact ⟨z, hz, e1, e2⟩
  refine ⟨ns, (receive_ok hw2).2 ⟨?_, _, hc2, ns.map .ok, ?_, ?_⟩, hns⟩
  · rw [headers_withHeaders]
    refine C87_written hw hf (fun x hx => hS.safe x hx) ?_ hset
    intro ln hln
    rw [linesOf_eq, h0] at hln; cases hln
  · unfold Guard.verifyAll Guard.call
    rw [if_pos]
    · rw [List.map_map] at hv ⊢
      rw [show ((fun ki : VerifyingKey × Option Str => (Guard.key ki.1, ki.2)) ∘ fun x : Signer × VerifyingKey => (x.2, x.1.1.keyid)) =
        ((fun x : Signer × VerifyingKey => (x.2, x.1.1.keyid)) ∘ fun x => (x.1, Guard.key x.2)) from rfl, hv]
      rfl
    · cases hg : Guard.headersFine (m.withHeaders (m.headers ++ hs.flatMap sigLines)).headers with
      | true => rfl
      | false => exact absurd (wireCarries_iff.2 hc2) (C100_refused hw2 hg _)
  · rw [List.map_map]
    refine List.map_congr_left fun n hn => ?_
    obtain ⟨x, hx, y, hy, rfl, _⟩ := forall₂_mem_right hns n hn
    obtain ⟨sh, hsh, hsb⟩ := forall₂_mem_left g1 y.1 (List.mem_map_of_mem hy)
    have hmem : (y.1.label, sh.params) ∈ (hs'.map fun sh => (sh.name, sh)).map fun kv => (kv.1, kv.2.params) := by
      rw [← hsb.name]
      simp only [List.map_map, List.mem_map, Function.comp_apply]
      exact ⟨sh, hsh, rfl⟩
    have hnd : (((hs'.map fun sh => (sh.name, sh)).map fun kv => (kv.1, kv.2.params)).map Prod.fst).Nodup := by
      have := carries_nodup hc
      simpa [List.map_map, Function.comp_def] using this
    have hfind : ∀ (L : List (Str × SigParams)) (k : Str) (p : SigParams), (L.map Prod.fst).Nodup → (k, p) ∈ L →
        L.find? (fun kv => kv.1 == k) = some (k, p) := by
      intro L k p hnd hm
      induction L with
      | nil => cases hm
      | cons a t ih =>
        rw [List.map_cons, List.nodup_cons] at hnd
        rcases List.mem_cons.1 hm with rfl | hm
        · simp
        · rw [List.find?_cons_of_neg]
          · exact ih hnd.2 hm
          · rw [beq_iff_eq]
            rintro rfl
            exact hnd.1 (List.mem_map.2 ⟨_, hm, rfl⟩)
    simp only [Function.comp_apply, Guard.accept, hfind _ _ _ hnd hmem]
    rw [if_pos]
    rw [List.all_eq_true]
    intro i hi
    rw [hsb.params] at hi
    exact here_after hw hf hs (hS.here y.1 (List.mem_map_of_mem hy) i hi)

end

/-! ### Cases -/

/-- A P-384 and a P-256 signer with the same key id: with the library alone verification panics (`C03_false_shared_id`). -/
def c101Signers : List (Signer × VerifyingKey) :=
  [((wParams (c! "k") wIds, (SecretKey.ecdsaP384Sha384 (P := toyPrims) [1]).signing [], some (c! "a")),
      (PublicKey.ecdsaP384Sha384 (P := toyPrims) [1]).verifying),
    ((wParams (c! "k") wIds, (SecretKey.ecdsaP256Sha256 (P := toyPrims) [1]).signing [], some (c! "b")),
      (PublicKey.ecdsaP256Sha256 (P := toyPrims) [1]).verifying)]

set_option maxRecDepth 20000 in
theorem c101_sent : (Guard.send (.req exReq) (c101Signers.map (·.1)) none).2 = .ok () := by decide +kernel

set_option maxRecDepth 20000 in
-- the receiver accepts both, with the labels of the two
example : Guard.receive 0 (.req { exReq with headers := (Guard.send (.req exReq) (c101Signers.map (·.1)) none).1 })
    (c101Signers.map fun x => (x.2, x.1.1.keyid)) none = .ok [.ok (c! "a"), .ok (c! "b")] := by decide +kernel

-- the theorem applies to it, at any time up to the expiry
example (now : UInt64) (hn : now ≤ 100) : ∃ ns : List Str, Guard.receive now ((Msg.req exReq).withHeaders (Guard.send (.req exReq) (c101Signers.map (·.1)) none).1)
    (c101Signers.map fun x => (x.2, x.1.1.keyid)) none = .ok (ns.map .ok) ∧ ns.length = 2 := by
  obtain ⟨ns, h1, h2⟩ := C101_round_trip (now := now) (m := .req exReq) (rf := none) exReq_wf (by simp) (by decide) (by decide) c101Signers
    (by simp [c101Signers])
    (by
      intro x hx
      simp only [c101Signers, List.mem_cons, List.not_mem_nil, or_false] at hx
      rcases hx with rfl | rfl
      · exact toy_secret_pair (.ecdsaP384Sha384 [1]) []
      · exact toy_secret_pair (.ecdsaP256Sha256 [1]) [])
    (by
      intro x hx
      simp only [c101Signers, List.mem_cons, List.not_mem_nil, or_false] at hx
      rcases hx with rfl | rfl
      · exact .ofPublic _
      · exact .ofPublic _)
    (by
      intro x hx
      simp only [c101Signers, List.mem_cons, List.not_mem_nil, or_false] at hx
      rcases hx with rfl | rfl <;> exact wParams_notSelf _)
    (by
      intro x hx e he
      simp only [c101Signers, List.mem_cons, List.not_mem_nil, or_false] at hx
      rcases hx with rfl | rfl <;> (injection he with he; subst he; exact hn))
    (Prod.ext rfl c101_sent)
  exact ⟨ns, h1, h2.length_eq ▸ rfl⟩

set_option maxRecDepth 20000 in
-- the checks refuse: empty signature fields (`C04_false`), an absent field, OPTIONS with another target than `*`, a nonce with a line break
example : Guard.send (.req { exReq with headers := [(c! "signature", utf8 []), (c! "signature-input", utf8 [])] }) [(wParams (c! "k") [], toySign 1, none)] none =
      ([(c! "signature", utf8 []), (c! "signature-input", utf8 [])], .err none) := by decide +kernel
set_option maxRecDepth 20000 in
example : Guard.send (.req exReq) [(wParams (c! "k") [⟨.field (c! "x-gone"), []⟩], toySign 1, none)] none = (exReq.headers, .err none) := by decide +kernel
set_option maxRecDepth 20000 in
example : (setSignatures (.req exReq) [(wParams (c! "k") [⟨.field (c! "x-gone"), []⟩], toySign 1, none)] none).2 = .ok () := by decide +kernel
set_option maxRecDepth 20000 in
example : Guard.send (.req { exReq with method := c! "OPTIONS" }) [(wParams (c! "k") [⟨.derived .requestTarget, []⟩], toySign 1, none)] none =
      (exReq.headers, .err none) := by decide +kernel
set_option maxRecDepth 20000 in
example : Guard.send (.req exReq) [(wParams (c! "k") [], toySign 1, some (c! "a")), ({ nonce := some (c! "\n"), covered := [] }, toySign 1, none)] none =
      (exReq.headers, .err none) := by decide +kernel
set_option maxRecDepth 20000 in
example : (setSignatures (.req exReq) [(wParams (c! "k") [], toySign 1, some (c! "a")), ({ nonce := some (c! "\n"), covered := [] }, toySign 1, none)] none).1
      ≠ exReq.headers := by decide +kernel

set_option maxRecDepth 20000 in
-- a message that has signatures keeps them
example : ∃ h', Guard.send (.req vReq) [(wParams (c! "k") wIds, toySign 7, some (c! "b"))] none = (h', .ok ()) ∧
    ∃ l0, HasSignatures vReq.headers l0 ∧ ∃ hs, List.Forall₂ (SignedBy (.req vReq) none) [(wParams (c! "k") wIds, toySign 7, some (c! "b"))] hs ∧
      Carries h' (hs.foldl putIn l0) := by
  have h : (Guard.send (.req vReq) [(wParams (c! "k") wIds, toySign 7, some (c! "b"))] none).2 = .ok () := by decide +kernel
  exact ⟨_, Prod.ext rfl h, C101_kept (m := .req vReq) vReq_wf (by simp) (by simp) (Prod.ext rfl h)⟩

/-- What a holder signed: a field and the target of an OPTIONS request. -/
def c101Signing : Signing where
  m := .req { exReq with method := c! "OPTIONS", uri := ⟨none, none, c! "*", none⟩ }
  rf := none
  p := exParams [⟨.field (c! "accept"), []⟩, ⟨.derived .requestTarget, []⟩]

def c101Text : Str := c! "\"accept\": *\n\"@request-target\": *\n\"@signature-params\": (\"accept\" \"@request-target\")"

/-- A key of the library, over a scheme that accepts nothing but this base. -/
def c101Key : VerifyingKey :=
  PublicKey.verifying (P := { toyPrims with p256 := { toyScheme 64 with verify := fun _ d _ => d == utf8 c101Text } }) (.ecdsaP256Sha256 ([1] : Bytes))

theorem c101_careful : CarefulSigning c101Signing where
  msg := ⟨exReq_wf, by decide, ⟨(by intro s h; cases h), (by intro s h; cases h), by decide, (by intro s h; cases h)⟩⟩
  req := by intro r h; cases h
  safe := (C101_params _).1 (by decide +kernel)
  here := by decide +kernel

theorem c101_only : OnlySigned c101Key (· = c101Signing) := by
  intro d s h
  refine ⟨_, rfl, c101Text, ?_, ?_⟩
  · exact (buildBase_spec (m := c101Signing.m) exReq_wf (by intro r h; cases h) c101Text).1
      ⟨⟨[⟨⟨.field (c! "accept"), []⟩, .plain (c! "*")⟩, ⟨⟨.derived .requestTarget, []⟩, .plain (c! "*")⟩], c101Signing.p⟩, by decide, by decide +kernel⟩
  · unfold c101Key at h
    simp only [PublicKey.verifying, PublicKey.verify] at h
    split at h
    · cases h
    · simp only [verifyRes, toyScheme] at h
      split at h
      · rename_i e
        exact beq_iff_eq.1 e
      · cases h

def c101Received (uri : Uri) (h : Headers) : Request where
  method := c! "OPTIONS"
  uri := uri
  headers := h ++ [(c! "signature-input", utf8 (c! "sig=(\"accept\" \"@request-target\")")),
    (c! "signature", utf8 (c! "sig=:" ++ Base64.encode (List.replicate 64 1) ++ [':']))]
  body := .data []

set_option maxRecDepth 20000 in
-- the receiver takes the message; the library takes it with another target too, the receiver does not
example :
    Guard.receive 0 (.req (c101Received ⟨none, none, c! "*", none⟩ [(c! "accept", utf8 (c! "*"))])) [(c101Key, none)] none = .ok [.ok (c! "sig")] ∧
    verifySignature 0 (.req (c101Received ⟨none, none, c! "/x", none⟩ [(c! "accept", utf8 (c! "*"))])) c101Key none none = .ok (c! "sig") ∧
    Guard.receive 0 (.req (c101Received ⟨none, none, c! "/x", none⟩ [(c! "accept", utf8 (c! "*"))])) [(c101Key, none)] none = .ok [.error none] := by
  decide +kernel

set_option maxRecDepth 20000 in
-- `C101_bound` applies to it
example : ∃ l sh, Carries (c101Received ⟨none, none, c! "*", none⟩ [(c! "accept", utf8 (c! "*"))]).headers l ∧ (c! "sig", sh) ∈ l ∧ c101Signing.p = sh.params := by
  have hw : WfMsg (.req (c101Received ⟨none, none, c! "*", none⟩ [(c! "accept", utf8 (c! "*"))])) := by
    refine ⟨?_, by decide, ⟨(by intro s h; cases h), (by intro s h; cases h), by decide, (by intro s h; cases h)⟩⟩
    intro kv hkv
    simp only [c101Received, List.cons_append, List.nil_append, List.mem_cons, List.not_mem_nil, or_false] at hkv
    rcases hkv with rfl | rfl | rfl <;> exact ⟨by decide, by decide, by decide⟩
  have h := C101_bound (now := 0) (rf := none) hw (by simp) (keys := [(c101Key, none)]) (rs := [.ok (c! "sig")]) (by decide +kernel)
  cases h with
  | cons h _ =>
    obtain ⟨l, sh, h1, h2, x, rfl, h3, _⟩ := h _ rfl (.ofPublic _) _ c101_only (by rintro x rfl; exact c101_careful)
    exact ⟨l, sh, h1, h2, h3⟩

end Verif
