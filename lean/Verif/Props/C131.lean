import Verif.Spec.Chunked
import Verif.Props.C127
/-!
C131: signed requests whose bodies come in chunks, and proxies that change how a body is carried.
-/
namespace Verif
open Sfv Spec Arrival Http1

/-! ### Chunks are unambiguous -/

theorem hex_bounds {c : Char} (h : HexChar c) : (48 ≤ c.toNat ∧ c.toNat ≤ 57) ∨ (97 ≤ c.toNat ∧ c.toNat ≤ 102) ∨ (65 ≤ c.toNat ∧ c.toNat ≤ 70) := by
  rcases h with h | h | h
  · exact Or.inl h
  · exact Or.inr (Or.inl h)
  · exact Or.inr (Or.inr h)

theorem start_unique {α : Type} {P : α → Prop} : ∀ {a a' e e' : List α}, (∀ x ∈ a, P x) → (∀ x ∈ a', P x) → (∀ x ∈ e.head?, ¬ P x) → (∀ x ∈ e'.head?, ¬ P x) →
    a ++ e = a' ++ e' → a = a'
  | [], [], _, _, _, _, _, _, _ => rfl
  | [], y :: a', e, e', _, h2, h3, _, h => by
    rw [List.nil_append] at h
    exact absurd (h2 y (by simp)) (h3 y (by rw [h]; rfl))
  | x :: a, [], e, e', h1, _, _, h4, h => by
    rw [List.nil_append] at h
    exact absurd (h1 x (by simp)) (h4 x (by rw [← h]; rfl))
  | x :: a, y :: a', e, e', h1, h2, h3, h4, h => by
    simp only [List.cons_append, List.cons.injEq] at h
    rw [h.1, start_unique (fun z hz => h1 z (by simp [hz])) (fun z hz => h2 z (by simp [hz])) h3 h4 h.2]

/-- An octet of a size. -/
def HexByte (b : UInt8) : Prop := (48 ≤ b.toNat ∧ b.toNat ≤ 57) ∨ (97 ≤ b.toNat ∧ b.toNat ≤ 102) ∨ (65 ≤ b.toNat ∧ b.toNat ≤ 70)

theorem hex_bytes {t : Str} (h : ∀ c ∈ t, HexChar c) : ∀ b ∈ utf8 t, HexByte b := by
  intro b hb
  obtain ⟨c, hc, e⟩ := utf8_mem (fun c hc => by have := hex_bounds (h c hc); omega) hb
  have := hex_bounds (h c hc)
  unfold HexByte
  omega

theorem ext_start {ext : Bytes} (h : ∀ b ∈ ext.head?, b = 59 ∨ Ows b) : ∀ b ∈ ext.head?, ¬ HexByte b := by
  intro b hb
  rcases h b hb with rfl | rfl | rfl <;> (unfold HexByte; decide)

theorem chunkLine_unique {l : Bytes} {n n' : Nat} (h : ChunkLine l n) (h' : ChunkLine l n') : n = n' := by
  obtain ⟨t, ext, rfl, ⟨_, h1, rfl⟩, h2, _⟩ := h
  obtain ⟨t', ext', e, ⟨_, h1', rfl⟩, h2', _⟩ := h'
  rw [utf8_inj (start_unique (hex_bytes h1) (hex_bytes h1') (ext_start h2) (ext_start h2') e)]

theorem chunkLine_cr {l : Bytes} {n : Nat} (h : ChunkLine l n) : (13 : UInt8) ∉ l := by
  obtain ⟨t, ext, rfl, ⟨_, h1, _⟩, _, h2⟩ := h
  intro hm
  rcases List.mem_append.1 hm with hm | hm
  · exact absurd (hex_bytes h1 _ hm) (by unfold HexByte; decide)
  · exact absurd (h2 _ hm) (by simp [ValueByte])

/-- C131: octets in chunks are one body only, and end at one place. -/
theorem C131_chunks {w w' b b' x x' : Bytes} (h : Chunked w b) (h' : Chunked w' b') (e : w ++ x = w' ++ x') : b = b' ∧ w = w' ∧ x = x' := by
  suffices hs : b = b' ∧ x = x' from ⟨hs.1, List.append_cancel_right (hs.2 ▸ e), hs.2⟩
  induction h generalizing w' b' with
  | last h1 h2 =>
    cases h' with
    | last h1' h2' =>
      simp only [List.append_assoc, List.cons_append] at e
      obtain ⟨_, e2⟩ := cut_at (chunkLine_cr h1) (chunkLine_cr h1') e
      simp only [List.cons.injEq, true_and] at e2
      exact ⟨rfl, (lines_unique h2 h2' e2).2⟩
    | chunk h1' h2' _ =>
      simp only [List.append_assoc, List.cons_append] at e
      obtain ⟨e1, _⟩ := cut_at (chunkLine_cr h1) (chunkLine_cr h1') e
      have := chunkLine_unique h1 (e1 ▸ h1')
      exact absurd (List.length_eq_zero_iff.1 this.symm) h2'
  | chunk h1 h2 h3 ih =>
    cases h' with
    | last h1' h2' =>
      simp only [List.append_assoc, List.cons_append] at e
      obtain ⟨e1, _⟩ := cut_at (chunkLine_cr h1) (chunkLine_cr h1') e
      have := chunkLine_unique h1 (e1 ▸ h1')
      exact absurd (List.length_eq_zero_iff.1 this) h2
    | chunk h1' h2' h3' =>
      simp only [List.append_assoc, List.cons_append] at e
      obtain ⟨e1, e2⟩ := cut_at (chunkLine_cr h1) (chunkLine_cr h1') e
      simp only [List.cons.injEq, true_and] at e2
      obtain ⟨e3, e4⟩ := List.append_inj e2 (chunkLine_unique h1 (e1 ▸ h1'))
      simp only [List.cons.injEq, true_and] at e4
      obtain ⟨e5, e6⟩ := ih h3' e4
      exact ⟨by rw [e3, e5], e6⟩

theorem hexDigit_char : ∀ n < 16, HexChar (Nat.digitChar n) ∧ hexValue (Nat.digitChar n) = n := by decide

theorem toDigits_chunkSize (n : Nat) : ChunkSize (Nat.toDigits 16 n) n := by
  refine ⟨Nat.toDigits_ne_nil, ?_, ?_⟩
  · intro c hc
    induction n using Nat.strongRecOn with
    | _ n ih =>
      by_cases hn : n < 16
      · rw [Nat.toDigits_of_lt_base hn, List.mem_singleton] at hc
        rw [hc]; exact (hexDigit_char n hn).1
      · have hd : 0 < n / 16 := by omega
        have e : n = 16 * (n / 16) + n % 16 := by omega
        rw [e, ← Nat.toDigits_append_toDigits (by decide) hd (by omega), List.mem_append] at hc
        rcases hc with hc | hc
        · exact ih (n / 16) (by omega) hc
        · rw [Nat.toDigits_of_lt_base (by omega), List.mem_singleton] at hc
          rw [hc]; exact (hexDigit_char _ (by omega)).1
  · induction n using Nat.strongRecOn with
    | _ n ih =>
      by_cases hn : n < 16
      · rw [Nat.toDigits_of_lt_base hn]
        simp [(hexDigit_char n hn).2]
      · have hd : 0 < n / 16 := by omega
        have e : n = 16 * (n / 16) + n % 16 := by omega
        conv_rhs => rw [e, ← Nat.toDigits_append_toDigits (by decide) hd (by omega)]
        rw [List.foldl_append, ← ih (n / 16) (by omega), Nat.toDigits_of_lt_base (by omega : n % 16 < 16)]
        simp only [List.foldl_cons, List.foldl_nil, (hexDigit_char _ (by omega : n % 16 < 16)).2]
        exact e

theorem hexChar_iff (c : Char) : HexChar c ↔ c ∈ c! "0123456789abcdefABCDEF" := by
  constructor
  · intro h
    have hb := hex_bounds h
    have e : c = Char.ofNat c.toNat := by simp
    have key : ∀ n < 103, (48 ≤ n ∧ n ≤ 57) ∨ (97 ≤ n ∧ n ≤ 102) ∨ (65 ≤ n ∧ n ≤ 70) → Char.ofNat n ∈ c! "0123456789abcdefABCDEF" := by decide
    rw [e]
    exact key _ (by omega) hb
  · revert c
    decide

theorem hexValue_idx : ∀ c ∈ c! "0123456789abcdefABCDEF", hexValue c = (c! "0123456789abcdef").idxOf c.toLower := by decide

/-- C131: which texts are sizes, and of which number. Capitals count as small letters, and zeros in front do not matter. -/
theorem C131_sizes (t : Str) (n : Nat) : ChunkSize t n ↔ t ≠ [] ∧ (∀ c ∈ t, c ∈ c! "0123456789abcdefABCDEF") ∧
    n = Nat.ofDigits 16 (t.reverse.map fun c => (c! "0123456789abcdef").idxOf c.toLower) := by
  unfold ChunkSize
  refine and_congr_right fun hne => ?_
  rw [forall_congr' fun c => imp_congr_right fun _ => hexChar_iff c]
  refine and_congr_right fun h => ?_
  suffices e : t.foldl (fun a c => 16 * a + hexValue c) 0 = Nat.ofDigits 16 (t.reverse.map fun c => (c! "0123456789abcdef").idxOf c.toLower) by rw [e]
  clear n hne
  induction t using List.reverseRecOn with
  | nil => rfl
  | append_singleton t c ih =>
    rw [List.foldl_append, List.reverse_append, List.reverse_singleton, List.singleton_append, List.map_cons, Nat.ofDigits_cons,
      ← ih (fun x hx => h x (by simp [hx])), List.foldl_cons, List.foldl_nil, hexValue_idx c (h c (by simp))]
    omega

-- sizes in both cases, with a zero
example : ChunkSize (c! "0aF") 175 ∧ ChunkSize (c! "1A") 26 := ⟨(C131_sizes _ _).2 ⟨by decide, by decide, by decide⟩, (C131_sizes _ _).2 ⟨by decide, by decide, by decide⟩⟩

/-- C131: a body that is cut into chunks in any way is read as this body. -/
theorem C131_written {l : List Bytes} (hl : ∀ d ∈ l, d ≠ []) : Chunked (chunks l) l.flatten := by
  induction l with
  | nil => exact .last (l := utf8 (c! "0")) (ls := []) (h := []) ⟨c! "0", [], by simp, ⟨by simp, by decide, rfl⟩, by simp, by simp⟩ .nil
  | cons d l ih =>
    exact .chunk ⟨_, [], by simp, toDigits_chunkSize _, by simp, by simp⟩ (hl d (by simp)) (ih (fun x hx => hl x (by simp [hx])))

/-! ### Streams -/

theorem carried_unique {h : Headers} {w w' b b' x x' : Bytes} (hw : Carried h w b) (hw' : Carried h w' b') (e : w ++ x = w' ++ x') : b = b' ∧ x = x' := by
  rcases hw with ⟨h1, rfl⟩ | ⟨_, ⟨t, h2, _⟩, h3⟩ <;> rcases hw' with ⟨h1', rfl⟩ | ⟨_, ⟨t', h2', _⟩, h3'⟩
  · exact List.append_inj e (bodyLength_unique h1 h1')
  · rw [h1.1] at h2'; cases h2'
  · rw [h1'.1] at h2; cases h2
  · obtain ⟨e1, _, e2⟩ := C131_chunks h3 h3' e
    exact ⟨e1, e2⟩

/-- C131: all readers of a connection see the same requests with the same bodies. -/
theorem C131_unique {b : Bytes} {l l' : List Request} (h : Stream b l) (h' : Stream b l') : l = l' := by
  induction h generalizing l' with
  | nil =>
    generalize hb : ([] : Bytes) = b at h'
    cases h' with
    | nil => rfl
    | cons h1 => exact absurd (List.append_eq_nil_iff.1 hb.symm).1 (head_nonempty h1)
  | @cons c w rest body r l h1 h2 h3 _ ih =>
    generalize hb : c ++ (w ++ rest) = b at h'
    cases h' with
    | nil => exact absurd (List.append_eq_nil_iff.1 hb).1 (head_nonempty h1)
    | @cons c' w' rest' body' r' l' h1' h2' h3' h4' =>
      obtain ⟨e1, e2, e3, _, e5⟩ := C126_unique h1 h1' hb
      obtain ⟨e6, e7⟩ := carried_unique h3 (e3 ▸ h3') e5
      subst e6 e7
      have er : r = r' := by
        cases r; cases r'
        simp only at e1 e2 e3 h2 h2'
        rw [e1, e2, e3, h2, h2']
      rw [er, ih h4']

/-- C131: the connections of C127 are among these. -/
theorem C131_lengths {b : Bytes} {l : List Request} (h : Requests b l) : Stream b l := by
  induction h with
  | nil => exact .nil
  | cons h1 h2 h3 _ ih => exact .cons h1 h2 (Or.inl ⟨h3, rfl⟩) ih

/-- C131: what every reading has. No request has both Transfer-Encoding and Content-Length; one with a Content-Length has a body of this length, one with neither has
none, and with Transfer-Encoding the body comes in chunks. -/
theorem C131_shape {b : Bytes} {l : List Request} (h : Stream b l) : ∀ r ∈ l,
    (Wire.linesOf r.headers (c! "transfer-encoding") = [] ∨ Wire.linesOf r.headers (c! "content-length") = []) ∧
    (∀ n, Wire.linesOf r.headers (c! "content-length") = [utf8 (decimal n)] → ∃ body, r.body = .data body ∧ body.length = n) ∧
    (Wire.linesOf r.headers (c! "transfer-encoding") = [] → Wire.linesOf r.headers (c! "content-length") = [] → r.body = .data []) ∧
    (Wire.linesOf r.headers (c! "transfer-encoding") ≠ [] → (∃ t : Str, Wire.linesOf r.headers (c! "transfer-encoding") = [utf8 t] ∧ t.map Char.toLower = c! "chunked") ∧
      ∃ x c w z body, Head c r.method r.uri r.headers ∧ b = x ++ (c ++ (w ++ z)) ∧ Chunked w body ∧ r.body = .data body) := by
  induction h with
  | nil => simp
  | @cons c wire rest body r l h1 h2 h3 _ ih =>
    intro q hq
    rcases List.mem_cons.1 hq with rfl | hq
    · rcases h3 with ⟨⟨t0, h3⟩, rfl⟩ | ⟨l0, ⟨t, t0, ht⟩, hc⟩
      · refine ⟨Or.inl t0, fun n hn => ⟨wire, h2, (C127_length t0 hn _).1 ⟨t0, h3⟩⟩, fun _ hl => ?_, fun h => absurd t0 h⟩
        rcases h3 with ⟨_, e⟩ | ⟨t, e, _⟩
        · rw [h2, List.length_eq_zero_iff.1 e]
        · rw [hl] at e; cases e
      · exact ⟨Or.inr l0, fun n hn => by rw [l0] at hn; (cases hn), fun h => by rw [t0] at h; (cases h),
          fun _ => ⟨⟨t, t0, ht⟩, [], c, wire, rest, body, h1, rfl, hc, h2⟩⟩
    · obtain ⟨a1, a2, a3, a4⟩ := ih q hq
      refine ⟨a1, a2, a3, fun h => ?_⟩
      obtain ⟨e, x, c', w, z, body', g1, g2, g3⟩ := a4 h
      exact ⟨e, c ++ (wire ++ x), c', w, z, body', g1, by rw [g2]; simp, g3⟩

/-- What can be signed and sent. -/
structure Http1.Sending.Good (s : Sending) : Prop extends s.toOutgoing.Fit where
  carried : Carried (s.extra ++ s.before.headers) s.wire s.body

theorem chunked_outer {t : Str} (h : t.map Char.toLower = c! "chunked") : NoOuter (utf8 t) := by
  have key : ∀ c : Char, c.toLower ∈ c! "chunked" → c.toNat < 128 ∧ c.toNat ≠ 32 ∧ c.toNat ≠ 9 := by
    intro c hc
    by_cases hu : 65 ≤ c.toNat ∧ c.toNat ≤ 90
    · omega
    · have e : c.toLower = c := by
        unfold Char.toLower
        rw [dif_neg]
        intro h'
        exact hu ⟨h'.1, h'.2⟩
      rw [e] at hc
      simp only [List.mem_cons, List.not_mem_nil, or_false] at hc
      rcases hc with rfl | rfl | rfl | rfl | rfl | rfl | rfl <;> decide
  have hmem : ∀ c ∈ t, c.toLower ∈ c! "chunked" := fun c hc => h ▸ List.mem_map_of_mem hc
  have key2 : ∀ b ∈ utf8 t, ¬ Ows b := by
    intro b hb ho
    obtain ⟨c, hc, e⟩ := utf8_mem (fun c hc => (key c (hmem c hc)).1) hb
    obtain ⟨k1, k2, k3⟩ := key c (hmem c hc)
    rcases ho with rfl | rfl
    · have : (32 : UInt8).toNat = 32 := rfl
      omega
    · have : (9 : UInt8).toNat = 9 := rfl
      omega
  exact ⟨fun b hb => key2 b (List.mem_of_head? hb), fun b hb => key2 b (List.mem_of_getLast? hb)⟩

theorem carried_way {h h' : Headers} (hh : List.Forall₂ LineOnWay h h') {w b : Bytes} (hc : Carried h w b) : Carried h' w b := by
  rcases hc with ⟨h1, rfl⟩ | ⟨h1, ⟨t, h2, h3⟩, h4⟩
  · exact Or.inl ⟨bodyLength_way hh h1, rfl⟩
  · refine Or.inr ⟨?_, ⟨t, ?_, h3⟩, h4⟩
    · rw [onWay_lines hh, h1]
      intro kv hkv e
      have := mem_linesOf hkv e
      rw [h1] at this; cases this
    · rw [onWay_lines hh, h2]
      intro kv hkv e
      have hm := mem_linesOf hkv e
      rw [h2, List.mem_singleton] at hm
      rw [hm]
      exact chunked_outer h3

theorem carried_signed {h sigs : Headers} (hs : ∀ kv ∈ sigs, kv.1 = c! "signature-input" ∨ kv.1 = c! "signature") {w b : Bytes} (hc : Carried h w b) :
    Carried (h ++ sigs) w b := by
  have key : ∀ f : Str, (c! "signature-input").map Char.toLower ≠ f.map Char.toLower → (c! "signature").map Char.toLower ≠ f.map Char.toLower →
      Wire.linesOf (h ++ sigs) f = Wire.linesOf h f := by
    intro f h1 h2
    have : Wire.linesOf sigs f = [] := by
      unfold Wire.linesOf
      rw [List.filter_eq_nil_iff.2, List.map_nil]
      intro kv hkv
      rcases hs kv hkv with e | e <;> rw [e] <;> simpa using by assumption
    rw [linesOf_append, this, List.append_nil]
  unfold Carried BodyLength
  rw [key _ (by decide) (by decide), key _ (by decide) (by decide)]
  exact hc

theorem sending_signed {s : Sending} (h : s.Good) : Carried (s.extra ++ s.signed.headers) s.wire s.body := by
  obtain ⟨sigs, e, _, _, _, _, c5⟩ := good_parts h.toFit
  have e' : s.extra ++ s.signed.headers = (s.extra ++ s.before.headers) ++ sigs := by
    show s.extra ++ s.lines = _
    rw [e, List.append_assoc]
  rw [e']
  exact carried_signed c5 h.carried

/-- C131: signing keeps the borders between requests, also of those whose bodies come in chunks. -/
theorem C131_stream {l : List Sending} (hl : ∀ s ∈ l, s.Good) {rs : List Request} (h : Stream (l.flatMap Sending.octets) rs) :
    List.Forall₂ (fun s r' => ReadAs s.toOutgoing r') l rs := by
  induction l generalizing rs with
  | nil =>
    have := C131_unique h .nil
    rw [this]; exact .nil
  | cons s l ih =>
    have hg := hl s (by simp)
    obtain ⟨g1, g2, g3⟩ := fit_signed hg.toFit
    obtain ⟨h', w1, w2⟩ := C126_head g1 g2 g3
    rw [List.flatMap_cons] at h
    generalize hb : s.octets ++ l.flatMap Sending.octets = b at h
    rw [Sending.octets, List.append_assoc] at hb
    cases h with
    | nil => exact absurd (List.append_eq_nil_iff.1 hb).1 (head_nonempty w2)
    | @cons c w rest body r' rs h1 h2 h3 h4 =>
      obtain ⟨e1, e2, e3, _, e5⟩ := C126_unique h1 w2 hb.symm
      obtain ⟨e6, e7⟩ := carried_unique (e3 ▸ h3) (carried_way w1 (sending_signed hg)) e5
      subst e7
      exact .cons (fit_read hg.toFit w1 e1 e2 e3 (by rw [h2, e6])) (ih (fun x hx => hl x (by simp [hx])) h4)

/-- C131: and there is such a reading. -/
theorem C131_readable {l : List Sending} (hl : ∀ s ∈ l, s.Good) : ∃ rs, Stream (l.flatMap Sending.octets) rs := by
  induction l with
  | nil => exact ⟨[], .nil⟩
  | cons s l ih =>
    obtain ⟨rs, h⟩ := ih (fun x hx => hl x (by simp [hx]))
    have hg := hl s (by simp)
    obtain ⟨g1, g2, g3⟩ := fit_signed hg.toFit
    obtain ⟨h', w1, w2⟩ := C126_head g1 g2 g3
    have := Stream.cons (r := ⟨_, _, h', .data s.body⟩) w2 rfl (carried_way w1 (sending_signed hg)) h
    rw [List.flatMap_cons, Sending.octets, List.append_assoc]
    exact ⟨_, this⟩

/-- C131: each request of the connection is verified with the result that its client gets. -/
theorem C131_verify {l : List Sending} (hl : ∀ s ∈ l, s.Good) {rs : List Request} (h : Stream (l.flatMap Sending.octets) rs) :
    List.Forall₂ (fun s r' => s.toOutgoing.Kept → ∀ now keys, verifySignatures now (.req r') keys none = verifySignatures now (.req s.signed) keys none) l rs := by
  replace h := C131_stream hl h
  induction h with
  | nil => exact .nil
  | @cons s r' l rs h1 _ ih =>
    exact .cons (fun hk now keys => readAs_verify (hl s (by simp)).toFit h1 hk now keys) (ih (fun x hx => hl x (by simp [hx])))

/-- C131: the check of the body gives the result it has at the client, however the body was cut. -/
theorem C131_digest {l : List Sending} (hl : ∀ s ∈ l, s.Good) {rs : List Request} (h : Stream (l.flatMap Sending.octets) rs) :
    List.Forall₂ (fun s r' => c! "content-digest" ∉ changed s.extra s.before.headers → s.before.body = .data s.body →
      ((∃ x, r'.verifyContentDigest = .ok x) ↔ ∃ x, s.signed.verifyContentDigest = .ok x) ∧
      ∀ e, r'.verifyContentDigest = .err e ↔ s.signed.verifyContentDigest = .err e) l rs := by
  replace h := C131_stream hl h
  induction h with
  | nil => exact .nil
  | @cons s r' l rs h1 _ ih =>
    exact .cons (fun hk hb => readAs_digest (hl s (by simp)).toFit h1 hk hb) (ih (fun x hx => hl x (by simp [hx])))

/-! ### Proxies -/

theorem reframed_value {r r' : Request} (h : Reframed r r') {i : CId} (hc : Clear [c! "transfer-encoding", c! "content-length"] i) (v : Str) :
    Wire.ValueIn (.req r') i v ↔ Wire.ValueIn (.req r) i v := by
  obtain ⟨n, ps⟩ := i
  unfold Wire.ValueIn
  cases n with
  | field f => simp only [Wire.FieldValue, Wire.LinesText, h.fields f (hc.1 f rfl)]
  | derived d =>
    simp only
    refine and_congr_right fun _ => ?_
    unfold Wire.RequestValue
    simp only [h.method, h.uri, Wire.SigParamsValue, h.fields (c! "signature-input") (by decide)]

/-- C131: a proxy may carry the body in another way. Signatures that cover neither Transfer-Encoding nor Content-Length are verified with the same result, and so is
the digest of the body. -/
theorem C131_reframe {r r' : Request} (h : Reframed r r') (hw : WfHeaders r.headers) (hw' : WfHeaders r'.headers) :
    ((∀ k, Wire.Carries r.headers k → ∀ kv ∈ k, ∀ i ∈ kv.2.params.covered, Clear [c! "transfer-encoding", c! "content-length"] i) →
      ∀ now keys, verifySignatures now (.req r') keys none = verifySignatures now (.req r) keys none ∧
        ∀ k id, verifySignature now (.req r') k id none = verifySignature now (.req r) k id none) ∧
    ((∃ x, r'.verifyContentDigest = .ok x) ↔ ∃ x, r.verifyContentDigest = .ok x) ∧ ∀ e, r'.verifyContentDigest = .err e ↔ r.verifyContentDigest = .err e := by
  refine ⟨fun hc now keys => ?_, ?_⟩
  · have he := extract_of_lines (m := .req r) (m' := .req r') hw hw' (h.fields (c! "signature-input") (by decide)).symm (h.fields (c! "signature") (by decide)).symm
    obtain ⟨g1, g2⟩ := verify_congr_base (m := .req r) (m' := .req r') hw hw' (rf := none) (rf' := none) (by simp) (by simp) he (fun l hl kv hkv t => by
      have hcl := hc l (wireCarries_iff.2 ((extractSignatureHeaders_ok (m := .req r) hw l).1 hl)) kv hkv
      rw [← wireBaseOf_iff, ← wireBaseOf_iff]
      refine wireBase_congr (fun i hi v => ?_) t
      have := reframed_value h (hcl i hi) v
      unfold Wire.HasValue
      by_cases hq : CParam.req ∈ i.params <;> simp [hq, this]) now keys
    exact ⟨g1.symm, fun k id => (g2 k id).symm⟩
  · have e := extractDigest_lines hw hw' (h.fields (c! "content-digest") (by decide))
    unfold Request.verifyContentDigest verifyDigest
    rw [e, h.body]
    cases hx : extractDigest r.headers with
    | ok te =>
      cases hb : r.body with
      | fail => simp [bind, Res.bind]
      | data b =>
        by_cases hd : isEqualDigest (deriveDigest b te.1) te.2 = true
        · simp [bind, Res.bind, hd]
        · simp [bind, Res.bind, hd]
    | err e => simp [bind, Res.bind]
    | panic => simp [bind, Res.bind]

/-! ### Examples -/

namespace Ex131
open Ex124 Ex126 Ex127

theorem wfNames131 {h : Headers} (hn : ∀ kv ∈ h, kv.1 ∈ [c! "content-length", c! "transfer-encoding", c! "host", c! "signature", c! "signature-input"]) : WfHeaders h := by
  intro kv hkv
  have := hn kv hkv
  simp only [List.mem_cons, List.not_mem_nil, or_false] at this
  rcases this with e | e | e | e | e <;> rw [e] <;> exact ⟨by decide, by decide, by decide⟩

def hello : List Bytes := [utf8 (c! "Hel"), utf8 (c! "lo, this is it")]

-- what is written
example : chunks hello = utf8 (c! "3\r\nHel\r\ne\r\nlo, this is it\r\n0\r\n\r\n") := by decide +kernel

-- an extension and a trailer
example : Chunked (utf8 (c! "03;a=b\r\nHel\r\n0\r\nx: y\r\n\r\n")) (utf8 (c! "Hel")) := by
  have h1 : Chunked (utf8 (c! "0") ++ 13 :: 10 :: linesBytes [utf8 (c! "x: y")]) [] :=
    .last ⟨c! "0", [], by decide, ⟨by decide, by decide, rfl⟩, by decide, by decide⟩
      (.cons (.mk (name := c! "x") (v := utf8 (c! " y")) (w := utf8 (c! "y")) ⟨by decide, fun c hc => tchar_of_isTchar (by revert c; decide)⟩ (by unfold ValueByte; decide)
        ⟨[32], [], by decide, by unfold Ows; decide, by decide, by decide⟩) .nil)
  have h2 := Chunked.chunk (l := utf8 (c! "03;a=b")) (data := utf8 (c! "Hel"))
    ⟨c! "03", utf8 (c! ";a=b"), by decide, ⟨by decide, by decide, by decide⟩, by intro b hb; left; cases hb; rfl, by unfold ValueByte; decide⟩ (by decide) h1
  exact h2

def teLine : Headers := [(c! "transfer-encoding", utf8 (c! "Chunked"))]
def clLine : Headers := [(c! "content-length", utf8 (decimal 17))]

/-- A signed request in chunks. -/
def sending : Sending :=
  let r : Request := { sent with headers := teLine, body := .data hello.flatten }
  ⟨⟨hostLine, r, hello.flatten, [methodSigner], (setSignatures (.req r) [methodSigner] none).1⟩, chunks hello⟩

theorem sendingGood : sending.Good where
  sendable := ⟨(sendable []).method, (sendable []).path, (sendable []).mark, (sendable []).pathChars, (sendable []).queryChars⟩
  wf := wfNames131 (by decide +kernel)
  ok := lines_ok (by decide +kernel)
  signs := by decide +kernel
  labels := by intro x hx; rw [List.mem_singleton.1 hx]; intro c hc; cases hc; decide
  carried := Or.inr ⟨by decide +kernel, ⟨c! "Chunked", by decide +kernel, by decide⟩, C131_written (by decide +kernel)⟩

/-- The hypotheses of the theorems: two such requests. -/
example : ∃ x y, Stream ([sending, sending].flatMap Sending.octets) [x, y] ∧ x.body = .data (utf8 (c! "Hello, this is it")) ∧ y.method = c! "GET" := by
  have hl : ∀ s ∈ [sending, sending], s.Good := by simpa using sendingGood
  obtain ⟨rs, h⟩ := C131_readable hl
  have := C131_stream hl h
  cases this with
  | @cons _ x _ _ a b =>
    cases b with
    | @cons _ y _ _ c d =>
      cases d
      exact ⟨x, y, h, a.2.2.1, c.1⟩

/-- A request with its length, and the same in chunks. -/
def withLength : Request := { sent with headers := clLine, body := .data hello.flatten }
def proxied (h : Headers) : Request := { withLength with headers := teLine ++ h.filter (fun kv => kv.1 ≠ c! "content-length") }

theorem proxied_reframed (h : Headers) : Reframed { withLength with headers := h } (proxied h) where
  method := rfl
  uri := rfl
  body := rfl
  fields := by
    intro f hf
    simp only [List.mem_cons, List.not_mem_nil, or_false, not_or] at hf
    show Wire.linesOf (teLine ++ h.filter _) f = Wire.linesOf h f
    have h1 : Wire.linesOf teLine f = [] := by
      unfold Wire.linesOf teLine
      rw [List.filter_cons_of_neg, List.filter_nil, List.map_nil]
      have e : (c! "transfer-encoding").map Char.toLower = c! "transfer-encoding" := by decide
      simpa [e] using fun h => hf.1 h.symm
    rw [linesOf_append, h1, List.nil_append]
    unfold Wire.linesOf
    rw [List.filter_filter]
    congr 1
    refine List.filter_congr fun kv hkv => ?_
    by_cases e : kv.1.map Char.toLower = f.map Char.toLower
    · have : kv.1 ≠ c! "content-length" := by
        intro e2
        rw [e2] at e
        exact hf.2 (e.symm.trans (by decide))
      simp [e, this]
    · simp [e]

/-- A signature over the method, and one over the length too. -/
def bySigner (ids : List CId) : Headers := (setSignatures (.req withLength) [(exParams ids, toySign 1, none)] none).1

-- the hypotheses of `C131_reframe`: the signature over the method stays valid
example : (proxied (bySigner [⟨.derived .method, []⟩])).verifySignature 0 (toyVerify 1) none = .ok (c! "sig") := by decide +kernel
example : WfHeaders (bySigner [⟨.derived .method, []⟩]) ∧ WfHeaders (proxied (bySigner [⟨.derived .method, []⟩])).headers :=
  ⟨wfNames131 (by decide +kernel), wfNames131 (by decide +kernel)⟩

end Ex131

open Ex131 in
/-- C131: a signature over Content-Length does not survive such a proxy. -/
theorem C131_covered : ∃ r r' : Request, Reframed r r' ∧ WfHeaders r.headers ∧ WfHeaders r'.headers ∧ r.verifySignature 0 (toyVerify 1) none = .ok (c! "sig") ∧
    r'.verifySignature 0 (toyVerify 1) none ≠ .ok (c! "sig") :=
  let ids : List CId := [⟨.derived .method, []⟩, ⟨.field (c! "content-length"), []⟩]
  ⟨{ withLength with headers := bySigner ids }, proxied (bySigner ids), proxied_reframed _, wfNames131 (by decide +kernel),
    wfNames131 (by decide +kernel), by decide +kernel, by decide +kernel⟩

end Verif
