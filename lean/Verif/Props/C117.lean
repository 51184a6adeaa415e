import Verif.Spec.Nonce
import Verif.Proofs.Length
import Verif.Props.C102
import Mathlib.Data.Fintype.Pi
import Mathlib.Data.Fintype.CardEmbedding
import Mathlib.Data.Set.Card
import Mathlib.Algebra.BigOperators.Intervals
/-!
C117 Nonces from `set_random_nonce`: what they look like, and how many messages a receiver that takes every nonce once refuses because of them.
-/
namespace Verif
open Sfv Spec

/-! ### The nonce -/

theorem octets_length (r : Nonce.Random) : (Nonce.octets r).length = 32 := by simp [Nonce.octets]

theorem octets_inj : Function.Injective Nonce.octets := by
  intro r r' h
  have h := List.ofFn_injective h
  funext i
  have h := congrArg UInt8.toNat (congrFun h i)
  simp only [UInt8.toNat_ofNat'] at h
  have h1 := (r i).isLt
  have h2 := (r' i).isLt
  apply Fin.ext
  omega

theorem octets_surj (b : Bytes) (h : b.length = 32) : ∃ r, Nonce.octets r = b := by
  refine ⟨fun i => ⟨(b[i.1]'(by omega)).toNat, UInt8.toNat_lt _⟩, ?_⟩
  have : ∀ n (h : b.length = n), List.ofFn (fun i : Fin n => b[i.1]'(by omega)) = b := by
    rintro n rfl
    exact List.ofFn_getElem
  unfold Nonce.octets
  simp only [UInt8.ofNat_toNat]
  exact this 32 h

theorem encode_inj {b b' : Bytes} (h : Base64.encode b = Base64.encode b') : b = b' := by
  have h1 := Base64.decode_encode true b
  rw [h, Base64.decode_encode true b'] at h1
  injection h1 with h1
  exact h1.symm

/-- C117: the nonce is a text of 44 characters that needs no escapes, every parameter but the nonce is as before, and the nonce tells the random
octets: two outcomes give the same parameters only if they are the same. Every 32 octets are an outcome. -/
theorem C117_nonce (p : SigParams) : (∀ r, ∃ c, (p.setRandomNonce (Nonce.octets r)) = { p with nonce := some c } ∧ c.length = 44 ∧ SafeText c ∧
      ∀ strict, Base64.decode strict c = some (Nonce.octets r)) ∧
    (∀ r r', (p.setRandomNonce (Nonce.octets r)).nonce = (p.setRandomNonce (Nonce.octets r')).nonce ↔ r = r') ∧
    (∀ b : Bytes, b.length = 32 → ∃ r, Nonce.octets r = b) := by
  refine ⟨fun r => ⟨Base64.encode (Nonce.octets r), rfl, ?_, base64_safe _, fun s => Base64.decode_encode s _⟩, fun r r' => ⟨fun h => ?_, fun h => by rw [h]⟩,
    octets_surj⟩
  · rw [len_encode, octets_length]
  · injection h with h
    exact octets_inj (encode_inj h)

theorem random_safe {p : SigParams} (h : SafeParams p) (r : Nonce.Random) : SafeParams (p.setRandomNonce (Nonce.octets r)) :=
  { h with nonce := by intro s e; injection e with e; subst e; exact base64_safe _ }

/-! ### Sending -/

/-- What can be sent with a nonce: the headers are such as crate http makes them, there is no signature yet, the signature does not cover itself,
it is for this key id and has an expiry that is not over when the message arrives. -/
structure GoodOutgoing (id : Option Str) (o : Nonce.Outgoing) : Prop where
  wf : WfHeaders o.m.headers
  rf : ∀ r, o.rf = some r → WfHeaders r.headers
  input : fieldLines o.m.headers (c! "signature-input") = []
  signature : fieldLines o.m.headers (c! "signature") = []
  self : NotSelf o.p
  keyid : o.p.keyid = id
  expires : ∃ e, o.p.expires = some e ∧ o.now ≤ e

/-- C117: with a signer that always signs, whether a message can be sent does not depend on the random octets. -/
theorem C117_succeeds {sk : SigningKey} (hs : ∀ d, ∃ s, sk.sign d = .ok s) {id : Option Str} {o : Nonce.Outgoing} (ho : GoodOutgoing id o)
    {r : Nonce.Random} (h : (Nonce.sent sk o r).2 = .ok ()) (r' : Nonce.Random) : (Nonce.sent sk o r').2 = .ok () := by
  have h : Guard.send o.m [(Nonce.params o r, sk, o.name)] o.rf = ((Nonce.sent sk o r).1, .ok ()) := by
    rw [← h]; rfl
  obtain ⟨h1, hs1, h2, _⟩ := (C101_sends ho.wf ho.rf _ _).1 h
  cases h2 with
  | @cons _ sh _ _ g1 g2 =>
    obtain ⟨_, _, t, ⟨vs, b1, b2⟩, _⟩ := g1
    obtain ⟨s, hs⟩ := hs (utf8 (baseText (Nonce.params o r').covered vs (Nonce.params o r').disp))
    have : Guard.send o.m [(Nonce.params o r', sk, o.name)] o.rf =
        (o.m.headers ++ [(⟨o.name.getD (c! "sig"), s, Nonce.params o r'⟩ : SigHeaders)].flatMap sigLines, .ok ()) := by
      refine (C101_sends ho.wf ho.rf _ _).2 ⟨⟨h1.signatures, ?_, ?_, List.nodup_singleton _⟩, _, .cons ⟨rfl, rfl, _, ⟨vs, b1, rfl⟩, hs⟩ .nil, rfl⟩
      · intro x hx
        rw [List.mem_singleton] at hx
        subst hx
        obtain ⟨a1, a2⟩ := h1.safe (Nonce.params o r, sk, o.name) (List.mem_singleton.2 rfl)
        have a2 : LegalKey (o.name.getD (c! "sig")) := a2
        exact ⟨random_safe (p := Nonce.params o r) a1 r', a2⟩
      · intro x hx
        rw [List.mem_singleton] at hx
        subst hx
        exact h1.here (Nonce.params o r, sk, o.name) (List.mem_singleton.2 rfl)
    unfold Nonce.sent
    rw [this]

theorem arrival_passes {sk : SigningKey} {vk : VerifyingKey} (hk : KeyPair sk vk) (hlk : LibraryKey vk) {id : Option Str} {o : Nonce.Outgoing}
    (ho : GoodOutgoing id o) {r : Nonce.Random} (h : (Nonce.sent sk o r).2 = .ok ()) :
    Replay.careful vk id (Nonce.arrival sk o r) = some (o.name.getD (c! "sig"), Nonce.params o r) := by
  obtain ⟨e, h1, h2⟩ := ho.expires
  rw [← ho.keyid]
  exact C102_honest (p := Nonce.params o r) hk hlk ho.wf ho.rf ho.input ho.signature ho.self
    (by intro e' he; have he : o.p.expires = some e' := he; rw [h1] at he; injection he with he; subst he; exact h2)
    (h := by unfold Nonce.sent at h; rw [← h]; rfl)

/-! ### All messages -/

theorem taken_all {look : Replay.Arrival → Option (Str × SigParams)} (as : List Replay.Arrival) (s : Replay.Memory)
    (h : ∀ a ∈ as, ∃ x c e, look a = some x ∧ x.2.nonce = some c ∧ x.2.expires = some e ∧ ∀ y ∈ s, y.1 ≠ c)
    (hd : as.Pairwise (fun a b => ∀ x y, look a = some x → look b = some y → x.2.nonce ≠ y.2.nonce)) :
    (Replay.taken look s as).map (fun z => z.1) = as := by
  induction as generalizing s with
  | nil => rw [Replay.taken]; rfl
  | cons a t ih =>
    obtain ⟨x, c, e, h1, h2, h3, h4⟩ := h a (by simp)
    obtain ⟨d1, d2⟩ := List.pairwise_cons.1 hd
    have hst : Replay.step look s a = ((c, e) :: s.filter (fun y => decide (a.now ≤ y.2)), some x) := by
      unfold Replay.step
      rw [h1]
      simp only [remember_new h2 h3 h4]
    unfold Replay.taken
    rw [hst]
    simp only [List.map_cons]
    rw [ih _ ?_ d2]
    intro b hb
    obtain ⟨y, c', e', g1, g2, g3, g4⟩ := h b (by simp [hb])
    refine ⟨y, c', e', g1, g2, g3, ?_⟩
    intro z hz
    rcases List.mem_cons.1 hz with rfl | hz
    · rintro rfl
      exact d1 b hb x y h1 g1 (by rw [h2, g2])
    · exact g4 z (List.mem_filter.1 hz).1

section
variable {q : ℕ} {sk : SigningKey} {vk : VerifyingKey} {id : Option Str} {o : Fin q → Nonce.Outgoing}

/-- C117: messages whose random octets are all different are all taken, whatever they are and in whatever order they arrive. -/
theorem C117_distinct (hk : KeyPair sk vk) (hlk : LibraryKey vk) (ho : ∀ i, GoodOutgoing id (o i)) {f : Fin q → Nonce.Random}
    (hs : ∀ i, (Nonce.sent sk (o i) (f i)).2 = .ok ()) (hf : Function.Injective f) :
    Nonce.AllTaken vk id (List.ofFn fun i => Nonce.arrival sk (o i) (f i)) := by
  refine taken_all _ _ ?_ ?_
  · intro a ha
    obtain ⟨i, rfl⟩ := List.mem_ofFn.1 ha
    obtain ⟨e, h1, h2⟩ := (ho i).expires
    exact ⟨_, _, e, arrival_passes hk hlk (ho i) (hs i), rfl, h1, by simp⟩
  · rw [List.pairwise_ofFn]
    intro i j hij x y hx hy
    rw [arrival_passes hk hlk (ho i) (hs i)] at hx
    rw [arrival_passes hk hlk (ho j) (hs j)] at hy
    injection hx with hx; injection hy with hy
    subst hx; subst hy
    intro h
    exact absurd (hf (((C117_nonce (o i).p).2.1 _ _).1 h)) (ne_of_lt hij)

/-- C117: if the clock does not go back, two messages with the same random octets and the same expiry are not both taken. -/
theorem C117_repeated (hk : KeyPair sk vk) (hlk : LibraryKey vk) (ho : ∀ i, GoodOutgoing id (o i)) {f : Fin q → Nonce.Random}
    (hs : ∀ i, (Nonce.sent sk (o i) (f i)).2 = .ok ()) (hc : ∀ i j, i < j → (o i).now ≤ (o j).now) {i j : Fin q} (hij : i < j)
    (he : (o i).p.expires = (o j).p.expires) (hf : f i = f j) :
    ¬ Nonce.AllTaken vk id (List.ofFn fun i => Nonce.arrival sk (o i) (f i)) := by
  intro h
  have pass := fun i => arrival_passes hk hlk (ho i) (hs i)
  have ht : Replay.Timely (Replay.careful vk id) (List.ofFn fun i => Nonce.arrival sk (o i) (f i)) := by
    intro a ha x hx e hxe
    obtain ⟨i, rfl⟩ := List.mem_ofFn.1 ha
    rw [pass i] at hx
    injection hx with hx
    subst hx
    obtain ⟨e', h1, h2⟩ := (ho i).expires
    have hxe : (o i).p.expires = some e := hxe
    rw [h1] at hxe
    injection hxe with hxe
    subst hxe
    exact h2
  have once := C102_once _ ht (by unfold Replay.Ordered; rw [List.pairwise_ofFn]; exact fun i j h => hc i j h) []
  have look : ∀ z ∈ Replay.taken (Replay.careful vk id) [] (List.ofFn fun i => Nonce.arrival sk (o i) (f i)), Replay.careful vk id z.1 = some z.2 :=
    fun z hz => (taken_mem hz).2
  unfold Nonce.AllTaken at h
  revert h once look
  generalize Replay.taken (Replay.careful vk id) [] (List.ofFn fun i => Nonce.arrival sk (o i) (f i)) = T
  intro h once look
  have hl : T.length = q := by have := congrArg List.length h; simpa using this
  have at' : ∀ n : Fin q, (T[n.1]'(by omega)).2 = ((o n).name.getD (c! "sig"), Nonce.params (o n) (f n)) := by
    intro n
    have h1 : (T[n.1]'(by omega)).1 = Nonce.arrival sk (o n) (f n) := by
      have : (T.map (fun z => z.1))[n.1]'(by simp; omega) = (List.ofFn fun i => Nonce.arrival sk (o i) (f i))[n.1]'(by simp) := by
        simp only [h]
      simpa using this
    have h2 := look _ (List.getElem_mem (by omega : n.1 < T.length))
    rw [h1, pass n] at h2
    injection h2 with h2
    exact h2.symm
  refine List.pairwise_iff_getElem.1 once i.1 j.1 (by omega) (by omega) hij ?_
  rw [at' i, at' j]
  exact ⟨by simp only [Nonce.params, SigParams.setRandomNonce, hf], he⟩

/-- C117: for messages that expire at the same time, all are taken exactly if the random octets are all different. -/
theorem C117_exactly (hk : KeyPair sk vk) (hlk : LibraryKey vk) (ho : ∀ i, GoodOutgoing id (o i)) {f : Fin q → Nonce.Random}
    (hs : ∀ i, (Nonce.sent sk (o i) (f i)).2 = .ok ()) (hc : ∀ i j, i < j → (o i).now ≤ (o j).now)
    (he : ∀ i j, (o i).p.expires = (o j).p.expires) :
    Nonce.AllTaken vk id (List.ofFn fun i => Nonce.arrival sk (o i) (f i)) ↔ Function.Injective f := by
  refine ⟨fun h i j hij => ?_, C117_distinct hk hlk ho hs⟩
  by_contra hne
  rcases lt_or_gt_of_ne hne with hlt | hlt
  · exact C117_repeated hk hlk ho hs hc hlt (he i j) hij h
  · exact C117_repeated hk hlk ho hs hc hlt (he j i) hij.symm h

/-! ### Counting -/

theorem card_random : Fintype.card Nonce.Random = 2 ^ 256 := by
  rw [Fintype.card_fun, Fintype.card_fin, Fintype.card_fin]
  norm_num

theorem pair_card {V : Type} [Fintype V] [DecidableEq V] {q : ℕ} {i j : Fin q} (h : i ≠ j) :
    Fintype.card V * (Finset.univ.filter fun f : Fin q → V => f i = f j).card ≤ Fintype.card V ^ q := by
  have : ((Finset.univ : Finset V) ×ˢ (Finset.univ.filter fun f : Fin q → V => f i = f j)).card ≤ (Finset.univ : Finset (Fin q → V)).card := by
    refine Finset.card_le_card_of_injOn (fun x => Function.update x.2 j x.1) (by intro x _; simp) ?_
    rintro ⟨v, f⟩ hf ⟨w, g⟩ hg e
    simp only [Finset.coe_product, Finset.coe_univ, Finset.coe_filter, Finset.mem_univ, true_and, Set.mem_prod, Set.mem_univ, Set.mem_ofPred_eq] at hf hg
    simp only at e
    have e1 : v = w := by have := congrFun e j; simpa using this
    have e2 : ∀ n, n ≠ j → f n = g n := by
      intro n hn
      have := congrFun e n
      simpa [Function.update_of_ne hn] using this
    subst e1
    congr 1
    funext n
    by_cases hn : n = j
    · subst hn; rw [← hf, ← hg, e2 i h]
    · exact e2 n hn
  rw [Finset.card_product, Finset.card_univ, Finset.card_univ, Fintype.card_fun, Fintype.card_fin] at this
  exact this

theorem birthday {V : Type} [Fintype V] [DecidableEq V] (q : ℕ) :
    {f : Fin q → V | ¬ Function.Injective f}.ncard * (2 * Fintype.card V) ≤ q * (q - 1) * Fintype.card V ^ q := by
  have hsub : {f : Fin q → V | ¬ Function.Injective f} ⊆
      ((Finset.univ : Finset (Fin q)).biUnion fun j => (Finset.Iio j).biUnion fun i => Finset.univ.filter fun f : Fin q → V => f i = f j : Finset (Fin q → V)) := by
    intro f hf
    simp only [Set.mem_ofPred_eq, Function.Injective, not_forall] at hf
    obtain ⟨a, b, h1, h2⟩ := hf
    simp only [Finset.coe_biUnion, Set.mem_iUnion, Finset.mem_coe, Finset.mem_Iio, Finset.mem_univ, Finset.mem_filter, true_and, exists_prop]
    rcases lt_or_gt_of_ne h2 with h | h
    · exact ⟨b, a, h, by simpa using h1⟩
    · exact ⟨a, b, h, by simpa using h1.symm⟩
  have h1 := (Set.ncard_le_ncard hsub (Finset.finite_toSet _)).trans (le_of_eq (Set.ncard_coe_finset _))
  have h2 : ∀ j : Fin q, ((Finset.Iio j).biUnion fun i => Finset.univ.filter fun f : Fin q → V => f i = f j).card * Fintype.card V ≤ j.1 * Fintype.card V ^ q := by
    intro j
    refine (Nat.mul_le_mul_right _ Finset.card_biUnion_le).trans ?_
    rw [Finset.sum_mul]
    refine (Finset.sum_le_sum (g := fun _ => Fintype.card V ^ q) fun i hi => ?_).trans ?_
    · rw [mul_comm]; exact pair_card (ne_of_lt (Finset.mem_Iio.1 hi))
    · rw [Finset.sum_const, Fin.card_Iio, smul_eq_mul]
  calc _ ≤ (∑ j : Fin q, ((Finset.Iio j).biUnion fun i => Finset.univ.filter fun f : Fin q → V => f i = f j).card) * (2 * Fintype.card V) :=
        Nat.mul_le_mul_right _ (h1.trans Finset.card_biUnion_le)
    _ = (∑ j : Fin q, ((Finset.Iio j).biUnion fun i => Finset.univ.filter fun f : Fin q → V => f i = f j).card * Fintype.card V) * 2 := by
        rw [← Finset.sum_mul]; ring
    _ ≤ (∑ j : Fin q, j.1 * Fintype.card V ^ q) * 2 := Nat.mul_le_mul_right _ (Finset.sum_le_sum fun j _ => h2 j)
    _ = ((∑ j ∈ Finset.range q, j) * 2) * Fintype.card V ^ q := by rw [← Finset.sum_mul, Fin.sum_univ_eq_sum_range (fun n => n) q]; ring
    _ = _ := by rw [Finset.sum_range_id_mul_two]

/-- C117: of all outcomes of the random number generator for `q` messages, at most the part `q * (q - 1) / (2 * 2 ^ 256)` leads to a message that is
refused. The messages are chosen beforehand and are sent by a signer that always signs. -/
theorem C117_chance (hk : KeyPair sk vk) (hlk : LibraryKey vk) (hsk : ∀ d, ∃ s, sk.sign d = .ok s) (ho : ∀ i, GoodOutgoing id (o i))
    {r : Nonce.Random} (hs : ∀ i, (Nonce.sent sk (o i) r).2 = .ok ()) :
    {f : Fin q → Nonce.Random | ¬ Nonce.AllTaken vk id (List.ofFn fun i => Nonce.arrival sk (o i) (f i))}.ncard * (2 * 2 ^ 256) ≤
      q * (q - 1) * (2 ^ 256) ^ q := by
  have h := birthday (V := Nonce.Random) q
  rw [card_random] at h
  refine le_trans (Nat.mul_le_mul_right _ (Set.ncard_le_ncard ?_ (Set.toFinite _))) h
  intro f hf hinj
  exact hf (C117_distinct hk hlk ho (fun i => C117_succeeds hsk (ho i) (hs i) (f i)) hinj)

/-- C117: for messages that expire at the same time and arrive in order, the number of outcomes for which all are taken is exactly
`2 ^ 256 * (2 ^ 256 - 1) * …`, with `q` factors. -/
theorem C117_number (hk : KeyPair sk vk) (hlk : LibraryKey vk) (hsk : ∀ d, ∃ s, sk.sign d = .ok s) (ho : ∀ i, GoodOutgoing id (o i))
    {r : Nonce.Random} (hs : ∀ i, (Nonce.sent sk (o i) r).2 = .ok ()) (hc : ∀ i j, i < j → (o i).now ≤ (o j).now)
    (he : ∀ i j, (o i).p.expires = (o j).p.expires) :
    {f : Fin q → Nonce.Random | Nonce.AllTaken vk id (List.ofFn fun i => Nonce.arrival sk (o i) (f i))}.ncard = (2 ^ 256).descFactorial q := by
  have e : {f : Fin q → Nonce.Random | Nonce.AllTaken vk id (List.ofFn fun i => Nonce.arrival sk (o i) (f i))} =
      Set.range (fun g : Fin q ↪ Nonce.Random => (g : Fin q → Nonce.Random)) := by
    ext f
    rw [Set.mem_ofPred_eq, C117_exactly hk hlk ho (fun i => C117_succeeds hsk (ho i) (hs i) (f i)) hc he]
    exact ⟨fun h => ⟨⟨f, h⟩, rfl⟩, by rintro ⟨g, rfl⟩; exact g.injective⟩
  rw [e, Set.ncard_eq_toFinset_card', Set.toFinset_range, Finset.card_image_of_injective _ DFunLike.coe_injective, Finset.card_univ,
    Fintype.card_embedding_eq, Fintype.card_fin, card_random]

/-! ### Among messages of others -/

/-- C117: whatever else arrives. The key accepts only what was signed as above, and the random octets were all different. Then a message that
passes verification with the parameters of one of the signings is taken, unless a copy was taken before: a message with exactly the same
parameters, and the same values of all covered components. -/
theorem C117_among_others (hlk : LibraryKey vk) {f : Fin q → Nonce.Random} (hf : Function.Injective f)
    (hS : OnlySigned vk fun y => ∃ i, y = ⟨(o i).m, (o i).rf, Nonce.params (o i) (f i)⟩)
    (hc : ∀ i, CarefulSigning ⟨(o i).m, (o i).rf, Nonce.params (o i) (f i)⟩) {pre post : List Replay.Arrival} (hw : ∀ a ∈ pre, FineArrival a)
    {a : Replay.Arrival} {n : Str} {i : Fin q} (ha : Replay.careful vk id a = some (n, Nonce.params (o i) (f i)))
    (he : (o i).p.expires ≠ none) :
    (∃ rest, Replay.taken (Replay.careful vk id) [] (pre ++ a :: post) =
      Replay.taken (Replay.careful vk id) [] pre ++ (a, n, Nonce.params (o i) (f i)) :: rest) ∨
    ∃ z ∈ Replay.taken (Replay.careful vk id) [] pre, z.2.2 = Nonce.params (o i) (f i) ∧
      ∀ c ∈ (o i).p.covered, ∃ v, HasValue z.1.m z.1.rf c v ∧ HasValue (o i).m (o i).rf c v := by
  by_cases h : ∃ z ∈ Replay.taken (Replay.careful vk id) [] pre, z.2.2.nonce = (Nonce.params (o i) (f i)).nonce
  · obtain ⟨z, hz, hn⟩ := h
    obtain ⟨y, ⟨j, rfl⟩, hp, hv⟩ := taken_signed hlk hS (by rintro x ⟨j, rfl⟩; exact hc j) id hw z hz
    simp only at hp hv
    rw [← hp] at hn
    have hij : j = i := hf (((C117_nonce (o i).p).2.1 _ _).1 hn)
    subst hij
    exact Or.inr ⟨z, hz, hp.symm, hv⟩
  · obtain ⟨e, he⟩ := Option.ne_none_iff_exists'.1 he
    refine Or.inl (C102_taken pre post a ha (c := Base64.encode (Nonce.octets (f i))) rfl (e := e) he ?_)
    intro y hy hn
    exact h ⟨y, hy, hn⟩

end

/-! ### Cases -/

/-- A request to send, that expires at time 100. -/
def c117Out (now : UInt64) : Nonce.Outgoing := { m := .req exReq, p := { c102Signing.p with nonce := none }, now := now }

def c117Secret : SigningKey := (SecretKey.ecdsaP256Sha256 (P := toyPrims) [1]).signing []

theorem c117_pair : KeyPair c117Secret c102P256 := toy_secret_pair (.ecdsaP256Sha256 [1]) []

theorem c117_signs (d : Bytes) : ∃ s, c117Secret.sign d = .ok s := ⟨_, rfl⟩

theorem c117_good {now : UInt64} (h : now ≤ 100) : GoodOutgoing (some (c! "k")) (c117Out now) where
  wf := exReq_wf
  rf := by intro r h; cases h
  input := (by decide : fieldLines (Msg.req exReq).headers (c! "signature-input") = [])
  signature := (by decide : fieldLines (Msg.req exReq).headers (c! "signature") = [])
  self := by
    intro i hi _
    simp only [c117Out, c102Signing, List.mem_cons, List.not_mem_nil, or_false] at hi
    subst hi
    exact ⟨by simp, by simp⟩
  keyid := rfl
  expires := ⟨100, rfl, h⟩

set_option maxRecDepth 20000 in
theorem c117_sent (now : UInt64) (r : Nonce.Random) : (Nonce.sent c117Secret (c117Out now) r).2 = .ok () := by
  have h : (Nonce.sent c117Secret (c117Out 0) (fun _ => 0)).2 = .ok () := by decide +kernel
  exact C117_succeeds c117_signs (c117_good (now := 0) (by decide)) h r

-- a message is sent with every outcome, its nonce reads back as the octets
example (r : Nonce.Random) : ∃ c, (Nonce.params (c117Out 7) r).nonce = some c ∧ c.length = 44 ∧ Base64.decode true c = some (Nonce.octets r) := by
  obtain ⟨c, h1, h2, _, h3⟩ := (C117_nonce (c117Out 7).p).1 r
  exact ⟨c, by unfold Nonce.params; rw [h1], h2, h3 true⟩
set_option maxRecDepth 20000 in
example : (Nonce.params (c117Out 7) (fun i => if i = 31 then 1 else 0)).nonce = some (c! "AAAAAAAAAAAAAAAAAAAAAAAAAAAAAAAAAAAAAAAAAAE=") := by decide +kernel

-- three messages at the times 10, 20 and 30: how many outcomes there are for which all three are taken, and a bound for the others
example : {f : Fin 3 → Nonce.Random | Nonce.AllTaken c102P256 (some (c! "k"))
    (List.ofFn fun i => Nonce.arrival c117Secret (c117Out (UInt64.ofNat (10 * i.1 + 10))) (f i))}.ncard = 2 ^ 256 * (2 ^ 256 - 1) * (2 ^ 256 - 2) := by
  rw [C117_number (o := fun i => c117Out (UInt64.ofNat (10 * i.1 + 10))) (r := fun _ => 0) c117_pair (.ofPublic _) c117_signs (fun i => c117_good (by revert i; decide)) (fun i => c117_sent _ _)
    (by decide) (fun _ _ => rfl)]
  norm_num [Nat.descFactorial]
example : {f : Fin 3 → Nonce.Random | ¬ Nonce.AllTaken c102P256 (some (c! "k"))
    (List.ofFn fun i => Nonce.arrival c117Secret (c117Out (UInt64.ofNat (10 * i.1 + 10))) (f i))}.ncard * (2 * 2 ^ 256) ≤ 6 * (2 ^ 256) ^ 3 :=
  C117_chance (r := fun _ => 0) c117_pair (.ofPublic _) c117_signs (fun i => c117_good (by revert i; decide)) (fun i => c117_sent _ _)

-- different octets: both messages are taken; the same octets: not both
example : Nonce.AllTaken c102P256 (some (c! "k")) (List.ofFn fun i : Fin 2 => Nonce.arrival c117Secret (c117Out 7) (fun n => if n = 0 then ⟨i.1, by omega⟩ else 9)) :=
  C117_distinct c117_pair (.ofPublic _) (fun _ => c117_good (by decide)) (fun i => c117_sent _ _) (by
    intro i j h
    have h := congrFun h 0
    simp only [if_true, Fin.mk.injEq] at h
    exact Fin.ext h)
example : ¬ Nonce.AllTaken c102P256 (some (c! "k")) (List.ofFn fun _ : Fin 2 => Nonce.arrival c117Secret (c117Out 7) (fun _ => 9)) :=
  C117_repeated (o := fun _ => c117Out 7) (f := fun _ _ => 9) (i := 0) (j := 1) c117_pair (.ofPublic _) (fun _ => c117_good (by decide)) (fun i => c117_sent _ _)
    (fun _ _ _ => UInt64.le_refl _) (by decide) rfl rfl

/-- The base of the request with the nonce of 32 zeros. -/
def c117Text : Str :=
  c! "\"@method\": POST\n\"@signature-params\": (\"@method\");expires=100;nonce=\"AAAAAAAAAAAAAAAAAAAAAAAAAAAAAAAAAAAAAAAAAAA=\";alg=\"b\";keyid=\"k\""

/-- A key of the library, over a scheme that accepts nothing but this base. -/
def c117Key : VerifyingKey :=
  PublicKey.verifying (P := { toyPrims with p256 := { toyScheme 64 with verify := fun _ d _ => d == utf8 c117Text } }) (.ecdsaP256Sha256 ([1] : Bytes))

/-- The signed request when it arrives, with this label. -/
def c117Arrival (now : UInt64) (label : Str) : Replay.Arrival where
  now := now
  m := .req { exReq with headers :=
    [(c! "signature-input", utf8 (label ++ c! "=(\"@method\");expires=100;nonce=\"AAAAAAAAAAAAAAAAAAAAAAAAAAAAAAAAAAAAAAAAAAA=\";alg=\"b\";keyid=\"k\"")),
    (c! "signature", utf8 (label ++ c! "=:" ++ Base64.encode (List.replicate 64 1) ++ [':']))] }

theorem c117_fine (now : UInt64) (label : Str) : FineArrival (c117Arrival now label) := by
  refine ⟨exWf _ ?_, by intro r h; cases h⟩
  intro kv hkv
  simp only [List.mem_cons, List.not_mem_nil, or_false] at hkv
  rcases hkv with rfl | rfl
  · exact (⟨by decide, by decide, by decide⟩ : WfName (c! "signature-input"))
  · exact (⟨by decide, by decide, by decide⟩ : WfName (c! "signature"))

set_option maxRecDepth 20000 in
theorem c117_only : OnlySigned c117Key fun y => ∃ _ : Fin 1, y = ⟨(c117Out 7).m, (c117Out 7).rf, Nonce.params (c117Out 7) (fun _ => 0)⟩ := by
  intro d s h
  refine ⟨_, ⟨0, rfl⟩, c117Text, ?_, ?_⟩
  · exact (buildBase_spec (m := .req exReq) exReq_wf (by intro r h; cases h) c117Text).1
      ⟨⟨[⟨⟨.derived .method, []⟩, .plain (c! "POST")⟩], Nonce.params (c117Out 7) (fun _ => 0)⟩, by decide +kernel, by decide +kernel⟩
  · unfold c117Key at h
    simp only [PublicKey.verifying, PublicKey.verify] at h
    split at h
    · cases h
    · simp only [verifyRes, toyScheme] at h
      split at h
      · rename_i e
        exact beq_iff_eq.1 e
      · cases h

set_option maxRecDepth 20000 in
theorem c117_careful : CarefulSigning ⟨(c117Out 7).m, (c117Out 7).rf, Nonce.params (c117Out 7) (fun _ => 0)⟩ where
  msg := exWf _ exReq_wf
  req := by intro r h; cases h
  safe := (C101_params _).1 (by decide +kernel)
  here := by decide +kernel

set_option maxRecDepth 20000 in
-- the signed message after any others: it is taken, or a copy was taken before
example (pre : List Replay.Arrival) (hw : ∀ a ∈ pre, FineArrival a) :
    (∃ rest, Replay.taken (Replay.careful c117Key (some (c! "k"))) [] (pre ++ [c117Arrival 50 (c! "sig")]) =
      Replay.taken (Replay.careful c117Key (some (c! "k"))) [] pre ++ (c117Arrival 50 (c! "sig"), c! "sig", Nonce.params (c117Out 7) (fun _ => 0)) :: rest) ∨
    ∃ z ∈ Replay.taken (Replay.careful c117Key (some (c! "k"))) [] pre, z.2.2 = Nonce.params (c117Out 7) (fun _ => 0) ∧
      ∀ c ∈ (c117Out 7).p.covered, ∃ v, HasValue z.1.m z.1.rf c v ∧ HasValue (c117Out 7).m (c117Out 7).rf c v :=
  C117_among_others (q := 1) (o := fun _ => c117Out 7) (f := fun _ _ => 0) (i := 0) (.ofPublic _) (Function.injective_of_subsingleton _) c117_only
    (fun _ => c117_careful) hw (by decide +kernel) (by decide)

set_option maxRecDepth 20000 in
-- both happen: a copy under another label arrives first
example : (Replay.taken (Replay.careful c117Key (some (c! "k"))) [] [c117Arrival 50 (c! "sig")]).length = 1 ∧
    (Replay.taken (Replay.careful c117Key (some (c! "k"))) [] [c117Arrival 40 (c! "other"), c117Arrival 50 (c! "sig")]).map (fun z => z.1.now) = [40] := by
  decide +kernel

end Verif
