import Verif.Spec.Http1
import Verif.Props.C124
import Verif.Props.C65
/-!
C126: a signed request is written to the wire and read again.
-/
namespace Verif
open Sfv Spec Arrival Http1

/-! ### The grammar is unambiguous -/

theorem cut_at {α : Type} {s : α} : ∀ {a a' x x' : List α}, s ∉ a → s ∉ a' → a ++ s :: x = a' ++ s :: x' → a = a' ∧ x = x'
  | [], [], _, _, _, _, h => ⟨rfl, by simpa using h⟩
  | [], c :: a', _, _, _, h', h => by simp at h; exact absurd h.1 (by intro e; exact h' (by simp [e]))
  | c :: a, [], _, _, h', _, h => by simp at h; exact absurd h.1.symm (by intro e; exact h' (by simp [e]))
  | c :: a, d :: a', x, x', h1, h2, h => by
    simp only [List.cons_append, List.cons.injEq] at h
    obtain ⟨e1, e2⟩ := cut_at (fun hm => h1 (by simp [hm])) (fun hm => h2 (by simp [hm])) h.2
    exact ⟨by rw [h.1, e1], e2⟩

theorem tchar_visible {c : Char} (h : TChar c) : 33 ≤ c.toNat ∧ c.toNat ≤ 126 ∧ c.toNat ≠ 58 := by
  rcases h with h | h | h
  · rcases h with ⟨h1, h2⟩ | ⟨h1, h2⟩
    · have a : 97 ≤ c.toNat := h1
      have b : c.toNat ≤ 122 := h2
      omega
    · have a : 65 ≤ c.toNat := h1
      have b : c.toNat ≤ 90 := h2
      omega
  · have a : 48 ≤ c.toNat := h.1
    have b : c.toNat ≤ 57 := h.2
    omega
  · revert c
    decide

theorem utf8_mem {s : Str} (h : ∀ c ∈ s, c.toNat < 128) {b : UInt8} (hb : b ∈ utf8 s) : ∃ c ∈ s, b.toNat = c.toNat := by
  rw [utf8_ascii h] at hb
  obtain ⟨c, hc, rfl⟩ := List.mem_map.1 hb
  exact ⟨c, hc, char_u8 (h c hc)⟩

theorem token_bytes {s : Str} (h : Token s) : ∀ b ∈ utf8 s, 33 ≤ b.toNat ∧ b.toNat ≤ 126 ∧ b.toNat ≠ 58 := by
  intro b hb
  obtain ⟨c, hc, e⟩ := utf8_mem (fun c hc => by have := tchar_visible (h.2 c hc); omega) hb
  have := tchar_visible (h.2 c hc)
  omega

theorem visible_bytes {s : Str} (h : ∀ c ∈ s, Visible c) : ∀ b ∈ utf8 s, 33 ≤ b.toNat ∧ b.toNat ≤ 126 := by
  intro b hb
  obtain ⟨c, hc, e⟩ := utf8_mem (fun c hc => by have := (h c hc).2; omega) hb
  have := h c hc
  unfold Visible at this
  omega

/-- The blanks at the ends taken away. -/
def stripOws (v : Bytes) : Bytes := ((v.dropWhile (fun b => decide (Ows b))).reverse.dropWhile (fun b => decide (Ows b))).reverse

theorem dropOws {x w : Bytes} (hx : ∀ b ∈ x, Ows b) (hw : ∀ b ∈ w.head?, ¬ Ows b) : (x ++ w).dropWhile (fun b => decide (Ows b)) = w := by
  induction x with
  | nil =>
    cases w with
    | nil => rfl
    | cons b w => rw [List.nil_append, List.dropWhile_cons_of_neg (by simpa using hw b rfl)]
  | cons b x ih =>
    rw [List.cons_append, List.dropWhile_cons_of_pos (by simpa using hx b (by simp))]
    exact ih (fun c hc => hx c (by simp [hc]))

theorem stripped_eq {v w : Bytes} (h : Stripped v w) : w = stripOws v := by
  obtain ⟨x, y, rfl, hx, hy, hw⟩ := h
  unfold stripOws
  by_cases e : w = []
  · subst e
    have : (x ++ [] ++ y).dropWhile (fun b => decide (Ows b)) = [] := by
      have := dropOws (x := x ++ y) (w := []) (fun b hb => by rcases List.mem_append.1 hb with h | h; exact hx b h; exact hy b h) (by simp)
      simpa using this
    rw [this]; rfl
  · have h1 : (x ++ w ++ y).dropWhile (fun b => decide (Ows b)) = w ++ y := by
      rw [List.append_assoc]
      refine dropOws hx ?_
      intro b hb
      cases w with
      | nil => exact absurd rfl e
      | cons c w => exact hw.1 b hb
    rw [h1, List.reverse_append, dropOws (fun b hb => hy b (List.mem_reverse.1 hb)) (by rw [List.head?_reverse]; exact hw.2), List.reverse_reverse]

theorem stripped_exists (v : Bytes) : Stripped v (stripOws v) := by
  have key : ∀ v : Bytes, ∃ x w, v = x ++ w ∧ (∀ b ∈ x, Ows b) ∧ ∀ b ∈ w.head?, ¬ Ows b := by
    intro v
    induction v with
    | nil => exact ⟨[], [], rfl, by simp, by simp⟩
    | cons c v ih =>
      by_cases hc : Ows c
      · obtain ⟨x, w, rfl, hx, hw⟩ := ih
        exact ⟨c :: x, w, rfl, by simpa [hc] using hx, hw⟩
      · exact ⟨[], c :: v, rfl, by simp, by simpa using hc⟩
  obtain ⟨x, w, rfl, hx, hw⟩ := key v
  obtain ⟨y, u, e, hy, hu⟩ := key w.reverse
  have e' : w = u.reverse ++ y.reverse := by rw [← List.reverse_append, ← e, List.reverse_reverse]
  have hs : Stripped (x ++ w) u.reverse := by
    refine ⟨x, y.reverse, by rw [e', List.append_assoc], hx, fun b hb => hy b (List.mem_reverse.1 hb), ?_, by simpa using hu⟩
    intro b hb
    apply hw
    rw [e']
    cases h : u.reverse with
    | nil => rw [h] at hb; cases hb
    | cons c t => rw [h] at hb; exact hb
  rwa [← stripped_eq hs]

theorem stripped_self {v w : Bytes} (h : NoOuter v) (hs : Stripped v w) : w = v := by
  rw [stripped_eq hs, ← stripped_eq ⟨[], [], by simp, by simp, by simp, h⟩]

theorem fieldLine_bytes {l : Bytes} {kv : Str × Bytes} (h : FieldLine l kv) : (13 : UInt8) ∉ l ∧ l ≠ [] := by
  cases h with
  | mk ht hv hs =>
    refine ⟨fun hm => ?_, by simp⟩
    rcases List.mem_append.1 hm with h | h
    · have := (token_bytes ht _ h).1
      simp at this
    · rcases List.mem_cons.1 h with h | h
      · cases h
      · have := hv _ h
        simp [ValueByte] at this

theorem fieldLine_unique {l : Bytes} {kv kv' : Str × Bytes} (h : FieldLine l kv) (h' : FieldLine l kv') : kv = kv' := by
  cases h with
  | @mk n v w ht hv hs =>
    generalize hl : utf8 n ++ 58 :: v = l at h'
    cases h' with
    | @mk n' v' w' ht' hv' hs' =>
      have no : ∀ {s : Str}, Token s → (58 : UInt8) ∉ utf8 s := fun h hm => absurd rfl (token_bytes h _ hm).2.2
      obtain ⟨e1, e2⟩ := cut_at (no ht) (no ht') hl
      rw [utf8_inj e1]
      subst e2
      rw [stripped_eq hs, stripped_eq hs']

theorem lines_unique : ∀ {ls ls' : List Bytes} {h h' : Headers} {x x' : Bytes}, List.Forall₂ FieldLine ls h → List.Forall₂ FieldLine ls' h' →
    linesBytes ls ++ x = linesBytes ls' ++ x' → h = h' ∧ x = x'
  | [], [], _, _, _, _, .nil, .nil, e => ⟨rfl, by simpa [linesBytes] using e⟩
  | [], l :: ls, _, _, _, _, .nil, .cons hl _, e => by
    obtain ⟨h1, h2⟩ := fieldLine_bytes hl
    cases l with
    | nil => exact absurd rfl h2
    | cons c l =>
      simp only [linesBytes, List.cons_append, List.cons.injEq] at e
      exact absurd (by simp [e.1]) h1
  | l :: ls, [], _, _, _, _, .cons hl _, .nil, e => by
    obtain ⟨h1, h2⟩ := fieldLine_bytes hl
    cases l with
    | nil => exact absurd rfl h2
    | cons c l =>
      simp only [linesBytes, List.cons_append, List.cons.injEq] at e
      exact absurd (by simp [e.1]) h1
  | l :: ls, l' :: ls', _, _, x, x', .cons hl ht, .cons hl' ht', e => by
    simp only [linesBytes, List.append_assoc, List.cons_append] at e
    obtain ⟨e1, e2⟩ := cut_at (fieldLine_bytes hl).1 (fieldLine_bytes hl').1 e
    simp only [List.cons.injEq, true_and] at e2
    obtain ⟨e3, e4⟩ := lines_unique ht ht' e2
    subst e1
    exact ⟨by rw [fieldLine_unique hl hl', e3], e4⟩

theorem origin_unique {t : Str} {u u' : Uri} (h : OriginTarget t u) (h' : OriginTarget t u') : u = u' := by
  obtain ⟨s, a, p, q⟩ := u
  obtain ⟨s', a', p', q'⟩ := u'
  obtain ⟨h1, h2, h3, _, h4, _⟩ := h
  obtain ⟨h1', h2', h3', _, h4', _⟩ := h'
  simp only at h1 h2 h1' h2' h4 h4'
  subst h1 h2 h1' h2'
  have e := h3.symm.trans h3'
  simp only [Wire.queryText] at e
  cases q with
  | none =>
    cases q' with
    | none => simp only [List.append_nil] at e; rw [e]
    | some q' => exact absurd (by simp only [List.append_nil] at e; rw [e]; simp) h4
  | some q =>
    cases q' with
    | none => exact absurd (by simp only [List.append_nil] at e; rw [← e]; simp) h4'
    | some q' =>
      obtain ⟨e1, e2⟩ := cut_at h4 h4' e
      rw [e1, e2]

/-- C126: a stream of octets is the head of one request only, so all readers agree on method, URI, header lines and on where the body starts. -/
theorem C126_unique {b b' x x' : Bytes} {m m' : Str} {u u' : Uri} {h h' : Headers} (hb : Head b m u h) (hb' : Head b' m' u' h') (e : b ++ x = b' ++ x') :
    m = m' ∧ u = u' ∧ h = h' ∧ b = b' ∧ x = x' := by
  obtain ⟨t, ls, rfl, h1, h2, h3⟩ := hb
  obtain ⟨t', ls', rfl, h1', h2', h3'⟩ := hb'
  have no : ∀ {s : Str}, Token s → (32 : UInt8) ∉ utf8 s := fun h hm => absurd (token_bytes h _ hm).1 (by decide)
  have no' : ∀ {s : Str}, (∀ c ∈ s, Visible c) → (32 : UInt8) ∉ utf8 s := fun h hm => absurd (visible_bytes h _ hm).1 (by decide)
  have e0 := e
  simp only [headBytes, List.append_assoc, List.cons_append] at e
  obtain ⟨e1, e2⟩ := cut_at (no h1) (no h1') e
  obtain ⟨e3, e4⟩ := cut_at (no' h2.chars) (no' h2'.chars) e2
  have e5 := List.append_cancel_left e4
  simp only [List.cons.injEq, true_and] at e5
  obtain ⟨e6, e7⟩ := lines_unique h3 h3' e5
  have e8 := utf8_inj e3
  subst e8 e7
  exact ⟨utf8_inj e1, origin_unique h2 h2', e6, List.append_cancel_right e0, rfl⟩

/-! ### What is written is read -/

theorem tchar_of_isTchar {c : Char} (h : isTchar c = true) : TChar c := by
  by_cases h1 : isAlph c = true
  · refine Or.inl ?_
    simp only [isAlph, Bool.or_eq_true, Bool.and_eq_true, decide_eq_true_eq] at h1
    exact h1
  by_cases h2 : isDig c = true
  · refine Or.inr (Or.inl ?_)
    simp only [isDig, Bool.and_eq_true, decide_eq_true_eq] at h2
    exact h2
  refine Or.inr (Or.inr ?_)
  rw [Bool.not_eq_true] at h1 h2
  simp only [isTchar, h1, h2, Bool.false_or, Bool.or_eq_true, beq_iff_eq, or_assoc] at h
  simpa only [List.mem_cons, List.not_mem_nil, or_false] using h

theorem wfName_token {n : Str} (h : WfName n) : Token n := ⟨h.1, fun c hc => tchar_of_isTchar (h.2.2 c hc).1⟩

/-- How a header line changes on the way. -/
def LineOnWay (kv kv' : Str × Bytes) : Prop := kv'.1 = kv.1 ∧ Stripped kv.2 kv'.2

theorem stripped_blank {v w : Bytes} (h : Stripped v w) : Stripped (32 :: v) w := by
  obtain ⟨x, y, rfl, hx, hy, hw⟩ := h
  exact ⟨32 :: x, y, rfl, by simpa [Ows] using hx, hy, hw⟩

/-- A way to write names of fields: some letters may be capitals. -/
def Writes (c : Str → Str) : Prop := ∀ n, WfName n → Token (c n) ∧ (c n).map Char.toLower = n

theorem lines_written {c : Str → Str} (hc : Writes c) : ∀ {h : Headers}, WfHeaders h → SendableLines h →
    ∃ h', List.Forall₂ LineOnWay h h' ∧ List.Forall₂ FieldLine (h.map fun kv => utf8 (c kv.1) ++ 58 :: 32 :: kv.2) h'
  | [], _, _ => ⟨[], .nil, .nil⟩
  | (n, v) :: h, hw, hs => by
    obtain ⟨h', h1, h2⟩ := lines_written hc (h := h) (fun kv hkv => hw kv (by simp [hkv])) (fun kv hkv => hs kv (by simp [hkv]))
    obtain ⟨hn, hl⟩ := hc n (hw (n, v) (by simp))
    refine ⟨(n, stripOws v) :: h', .cons ⟨rfl, stripped_exists v⟩ h1, .cons ?_ h2⟩
    have := FieldLine.mk hn (v := 32 :: v) (by
      intro b hb
      rcases List.mem_cons.1 hb with rfl | hb
      · exact Or.inr (by decide)
      · exact hs (n, v) (by simp) b hb) (stripped_blank (stripped_exists v))
    rwa [hl] at this

variable {r r' : Request} {extra : Headers}

/-- C126: the letter case in which names of fields are written makes no difference to any reader. -/
theorem C126_case {c : Str → Str} (hc : Writes c) (hr : Sendable r) (hw : WfHeaders (extra ++ r.headers)) (hs : SendableLines (extra ++ r.headers)) :
    ∃ h', List.Forall₂ LineOnWay (extra ++ r.headers) h' ∧ Head (headBytes r.method ((originForm r.uri).pathData ++ Wire.queryText r.uri) ((extra ++ r.headers).map fun kv => utf8 (c kv.1) ++ 58 :: 32 :: kv.2))
      r.method (originForm r.uri) h' := by
  obtain ⟨h', h1, h2⟩ := lines_written hc hw hs
  refine ⟨h', h1, _, _, rfl, hr.method, ⟨rfl, rfl, rfl, ?_, ?_, ?_⟩, h2⟩
  · rcases hr.path with e | e
    · simp [originForm, e]
    · have : r.uri.pathData ≠ [] := by intro h; rw [h] at e; cases e
      simp [originForm, this, e]
  · by_cases e : r.uri.pathData = []
    · simp [originForm, e]
    · simpa [originForm, e] using hr.mark
  · intro c hc
    rcases List.mem_append.1 hc with h | h
    · by_cases e : r.uri.pathData = []
      · simp only [originForm, e, if_true, List.mem_singleton] at h
        subst h; unfold Visible; decide
      · simp only [originForm, e, if_false] at h
        exact hr.pathChars c h
    · unfold Wire.queryText at h
      cases hq : r.uri.query with
      | none => rw [hq] at h; cases h
      | some q =>
        rw [hq] at h
        rcases List.mem_cons.1 h with rfl | h
        · unfold Visible; decide
        · exact hr.queryChars q hq c h

/-- C126: what a client writes is the head of a request with its method, its URI in origin form and its lines without outer blanks. -/
theorem C126_head (hr : Sendable r) (hw : WfHeaders (extra ++ r.headers)) (hs : SendableLines (extra ++ r.headers)) :
    ∃ h', List.Forall₂ LineOnWay (extra ++ r.headers) h' ∧ Head (written extra r) r.method (originForm r.uri) h' :=
  C126_case (c := id) (fun _ hn => ⟨wfName_token hn, hn.lower⟩) hr hw hs

theorem reads_eq (hr : Sendable r) (hw : WfHeaders (extra ++ r.headers)) (hs : SendableLines (extra ++ r.headers)) {body : Bytes}
    (h : Reads (written extra r ++ body) r') :
    r'.method = r.method ∧ r'.uri = originForm r.uri ∧ List.Forall₂ LineOnWay (extra ++ r.headers) r'.headers := by
  obtain ⟨c, rest, h1, h2⟩ := h
  obtain ⟨h', h3, h4⟩ := C126_head hr hw hs
  obtain ⟨e1, e2, e3, _⟩ := C126_unique h1 h4 h2
  exact ⟨e1, e2, e3 ▸ h3⟩

theorem onWay_wf {h h' : Headers} (hh : List.Forall₂ LineOnWay h h') (hw : WfHeaders h) : WfHeaders h' := by
  induction hh with
  | nil => exact hw
  | cons h1 _ ih =>
    intro kv hkv
    rcases List.mem_cons.1 hkv with rfl | hkv
    · rw [h1.1]; exact hw _ (by simp)
    · exact ih (fun kv hkv => hw kv (by simp [hkv])) kv hkv

theorem onWay_lines {h h' : Headers} (hh : List.Forall₂ LineOnWay h h') {f : Str} (hf : ∀ kv ∈ h, kv.1.map Char.toLower = f.map Char.toLower → NoOuter kv.2) :
    Wire.linesOf h' f = Wire.linesOf h f := by
  induction hh with
  | nil => rfl
  | @cons kv kv' h h' h1 _ ih =>
    have ih := ih (fun kv hkv => hf kv (by simp [hkv]))
    unfold Wire.linesOf at *
    by_cases e : kv.1.map Char.toLower = f.map Char.toLower
    · rw [List.filter_cons_of_pos (by simpa [h1.1] using e), List.filter_cons_of_pos (by simpa using e), List.map_cons, List.map_cons, ih,
        stripped_self (hf kv (by simp) e) h1.2]
    · rw [List.filter_cons_of_neg (by simpa [h1.1] using e), List.filter_cons_of_neg (by simpa using e), ih]

/-- C126: so what any server reads from the stream is what `Arrives` says. -/
theorem C126_arrives (hr : Sendable r) (hw : WfHeaders (extra ++ r.headers)) (hs : SendableLines (extra ++ r.headers)) {body : Bytes}
    (h : Reads (written extra r ++ body) r') : Arrives (changed extra r.headers) r r' := by
  obtain ⟨h1, h2, h3⟩ := reads_eq hr hw hs h
  refine ⟨h1, h2, fun f hf => ?_⟩
  have out : ∀ kv ∈ extra, kv.1.map Char.toLower ≠ f.map Char.toLower := by
    intro kv hkv e
    have hn : kv.1.map Char.toLower = kv.1 := (hw kv (by simp [hkv])).lower
    exact hf (by rw [← e, hn]; exact List.mem_map_of_mem (by simp [hkv]))
  rw [onWay_lines h3]
  · unfold Wire.linesOf
    rw [List.filter_append, List.filter_eq_nil_iff.2 (fun kv hkv => by simpa using out kv hkv), List.nil_append]
  · intro kv hkv e
    rcases List.mem_append.1 hkv with hk | hk
    · exact absurd e (out kv hk)
    · by_contra hn
      have hl : kv.1.map Char.toLower = kv.1 := (hw kv (by simp [hk])).lower
      exact hf (by rw [← e, hl]; exact List.mem_map_of_mem (by simp [hk, hn]))

/-! ### Signed requests -/

/-- A label that does not start with a blank. -/
def LabelStart (x : Signer) : Prop := ∀ c ∈ (x.2.2.getD (c! "sig")).head?, c ≠ ' ' ∧ c ≠ '\t'

/-- The last character is visible. -/
def EndsVisible (s : Str) : Prop := ∃ t c, s = t ++ [c] ∧ Visible c

theorem ends_append {s t : Str} (h : EndsVisible t) : EndsVisible (s ++ t) := by
  obtain ⟨x, c, rfl, hc⟩ := h
  exact ⟨s ++ x, c, by rw [List.append_assoc], hc⟩

theorem visible_byte {c : Char} (h : Visible c) : ∃ b, String.utf8EncodeChar c = [b] ∧ ¬ Ows b := by
  have h1 : c.toNat < 128 := by have := h.2; omega
  refine ⟨_, utf8Char_ascii h1, fun hb => ?_⟩
  have e := char_u8 h1
  have := h.1
  rcases hb with hb | hb <;> rw [hb] at e
  · have : (32 : UInt8).toNat = 32 := rfl
    omega
  · have : (9 : UInt8).toNat = 9 := rfl
    omega

theorem high_byte {c : Char} (h : 128 ≤ c.toNat) : ∀ b ∈ String.utf8EncodeChar c, 128 ≤ b.toNat := by
  have h1 : ¬ c.val.toNat ≤ 0x7f := by have : c.val.toNat = c.toNat := rfl; omega
  intro b hb
  unfold String.utf8EncodeChar at hb
  simp only [h1, if_false] at hb
  split at hb
  · simp only [List.mem_cons, List.not_mem_nil, or_false] at hb
    rcases hb with rfl | rfl <;> rw [UInt8.toNat_ofNat'] <;> omega
  · split at hb
    · simp only [List.mem_cons, List.not_mem_nil, or_false] at hb
      rcases hb with rfl | rfl | rfl <;> rw [UInt8.toNat_ofNat'] <;> omega
    · simp only [List.mem_cons, List.not_mem_nil, or_false] at hb
      rcases hb with rfl | rfl | rfl | rfl <;> rw [UInt8.toNat_ofNat'] <;> omega

theorem start_byte {c : Char} (h : c ≠ ' ' ∧ c ≠ '\t') : ∀ b ∈ String.utf8EncodeChar c, ¬ Ows b := by
  intro b hb ho
  by_cases hc : c.toNat < 128
  · rw [utf8Char_ascii hc, List.mem_singleton] at hb
    have e := char_u8 hc
    rw [← hb] at e
    rcases ho with rfl | rfl
    · exact h.1 (Char.toNat_inj.1 e.symm)
    · exact h.2 (Char.toNat_inj.1 e.symm)
  · have := high_byte (by omega) b hb
    rcases ho with rfl | rfl
    · exact absurd this (by decide)
    · exact absurd this (by decide)

theorem utf8_outer {c : Char} {s : Str} (hc : c ≠ ' ' ∧ c ≠ '\t') (hs : EndsVisible (c :: s)) : NoOuter (utf8 (c :: s)) := by
  constructor
  · intro d hd
    have hne : String.utf8EncodeChar c ≠ [] := by
      unfold String.utf8EncodeChar
      dsimp only
      split
      · simp
      · split
        · simp
        · split <;> simp
    have : utf8 (c :: s) = String.utf8EncodeChar c ++ utf8 s := by unfold utf8; rw [List.flatMap_cons]
    rw [this, List.head?_append_of_ne_nil _ hne] at hd
    exact start_byte hc d (List.mem_of_mem_head? hd)
  · obtain ⟨t, e, he, hv⟩ := hs
    obtain ⟨b', hb', hn'⟩ := visible_byte hv
    intro d hd
    have : utf8 (c :: s) = utf8 t ++ [b'] := by rw [he]; unfold utf8; rw [List.flatMap_append, List.flatMap_singleton, hb']
    rw [this, List.getLast?_concat] at hd
    cases hd
    exact hn'

theorem ends_decimal (n : Nat) : EndsVisible (decimal n) := by
  have h1 : decimal n ≠ [] := by unfold decimal; exact Nat.toDigits_ne_nil
  refine ⟨(decimal n).dropLast, (decimal n).getLast h1, (List.dropLast_append_getLast h1).symm, ?_⟩
  have h2 : ((decimal n).getLast h1).isDigit = true := Nat.isDigit_of_mem_toDigits (by decide) (by decide) (List.getLast_mem h1)
  rw [Char.isDigit_iff_toNat] at h2
  have h3 : '0'.toNat = 48 := rfl
  have h4 : '9'.toNat = 57 := rfl
  exact ⟨by omega, by omega⟩

theorem ends_quoted (s : Str) : EndsVisible (quoted s) := ⟨_, '"', rfl, by unfold Visible; decide⟩

theorem ends_if {α : Type} {s : Str} {n : String} {f : α → Str} {o : Option α} (hs : EndsVisible s) (hf : ∀ a, EndsVisible (f a)) :
    EndsVisible (s ++ ifPresent n f o) := by
  cases o with
  | none => simpa [ifPresent] using hs
  | some a => exact ends_append (ends_append (hf a))

theorem params_last (p : SigParams) : EndsVisible (paramsText p) := by
  have h0 : ∀ x : Str, EndsVisible (x ++ ")".toList) := fun x => ⟨x, ')', rfl, by unfold Visible; decide⟩
  unfold paramsText
  exact ends_if (ends_if (ends_if (ends_if (ends_if (ends_if (h0 _) (fun a => ends_decimal _)) (fun a => ends_decimal _)) ends_quoted) ends_quoted)
    ends_quoted) ends_quoted

theorem label_line {lab t : Str} (hl : ∀ c ∈ lab.head?, c ≠ ' ' ∧ c ≠ '\t') (ht : EndsVisible t) : NoOuter (utf8 (lab ++ '=' :: t)) := by
  cases lab with
  | nil => exact utf8_outer (by decide) (ends_append (s := ['=']) ht)
  | cons c lab =>
    refine utf8_outer (hl c rfl) ?_
    have := ends_append (s := c :: (lab ++ ['='])) ht
    simpa using this

theorem wfSigNames : WfName (c! "signature-input") ∧ WfName (c! "signature") := ⟨⟨by decide, by decide, by decide⟩, ⟨by decide, by decide, by decide⟩⟩

/-- The lines that a signer adds. -/
theorem added_lines {m : Msg} {rf : Option Request} {x : Signer} {out : Headers} (h : Wire.Added m rf x out) (hl : LabelStart x) :
    out.length = 2 ∧ WfHeaders out ∧ SendableLines out ∧ ∀ kv ∈ out, NoOuter kv.2 := by
  obtain ⟨text, sig, t, _, _, hc, hk, rfl⟩ := h
  have ht : t = ':' :: base64 sig ++ [':'] := by cases hc; rfl
  refine ⟨rfl, ?_, ?_, ?_⟩
  · intro kv hkv
    simp only [List.mem_cons, List.not_mem_nil, or_false] at hkv
    rcases hkv with rfl | rfl
    · exact wfSigNames.1
    · exact wfSigNames.2
  · intro kv hkv
    simp only [List.mem_cons, List.not_mem_nil, or_false] at hkv
    rcases hkv with rfl | rfl
    · exact hk
    · intro b hb
      have e : ∀ x y : Str, utf8 (x ++ y) = utf8 x ++ utf8 y := fun x y => List.flatMap_append
      rw [e] at hb
      rcases List.mem_append.1 hb with hb | hb
      · exact hk b (by rw [e]; exact List.mem_append_left _ hb)
      · have hp : ∀ c ∈ '=' :: t, Printable c := by
          intro c hc
          rw [ht, ← Base64.encode_eq_spec] at hc
          simp only [List.mem_cons, List.cons_append, List.mem_append, List.not_mem_nil, or_false] at hc
          rcases hc with rfl | rfl | hc | rfl
          · decide
          · decide
          · exact encode_printable _ c hc
          · decide
        obtain ⟨c, hc, e⟩ := utf8_mem (fun c hc => by have := (hp c hc).2; omega) hb
        have := hp c hc
        right
        unfold Printable at this
        omega
  · intro kv hkv
    simp only [List.mem_cons, List.not_mem_nil, or_false] at hkv
    rcases hkv with rfl | rfl
    · exact label_line hl (params_last _)
    · exact label_line hl (ht ▸ ⟨_, ':', rfl, by unfold Visible; decide⟩)

theorem all_added {m : Msg} {rf : Option Request} {l : List Signer} {ls : List Headers} (h : List.Forall₂ (Wire.Added m rf) l ls) (hl : ∀ x ∈ l, LabelStart x) :
    ls.flatten.length = 2 * l.length ∧ WfHeaders ls.flatten ∧ SendableLines ls.flatten ∧ ∀ kv ∈ ls.flatten, NoOuter kv.2 := by
  induction h with
  | nil => exact ⟨rfl, (by intro kv h; cases h), (by intro kv h; cases h), (by intro kv h; cases h)⟩
  | cons h1 _ ih =>
    obtain ⟨a1, a2, a3, a4⟩ := added_lines h1 (hl _ (by simp))
    obtain ⟨b1, b2, b3, b4⟩ := ih (fun x hx => hl x (by simp [hx]))
    simp only [List.flatten_cons]
    refine ⟨by rw [List.length_append, a1, b1, List.length_cons]; omega, ?_, ?_, ?_⟩ <;> intro kv hkv <;> rcases List.mem_append.1 hkv with h | h
    · exact a2 kv h
    · exact b2 kv h
    · exact a3 kv h
    · exact b3 kv h
    · exact a4 kv h
    · exact b4 kv h

theorem wf_append {a b : Headers} (ha : WfHeaders a) (hb : WfHeaders b) : WfHeaders (a ++ b) := by
  intro kv hkv
  rcases List.mem_append.1 hkv with h | h
  · exact ha kv h
  · exact hb kv h

theorem lines_append {a b : Headers} (ha : SendableLines a) (hb : SendableLines b) : SendableLines (a ++ b) := by
  intro kv hkv
  rcases List.mem_append.1 hkv with h | h
  · exact ha kv h
  · exact hb kv h

theorem forall₂_parts {α β : Type} {R : α → β → Prop} : ∀ {a b : List α} {c : List β}, List.Forall₂ R (a ++ b) c →
    ∃ c1 c2, c = c1 ++ c2 ∧ List.Forall₂ R a c1 ∧ List.Forall₂ R b c2
  | [], _, c, h => ⟨[], c, rfl, .nil, h⟩
  | _ :: _, _, _, .cons h1 h2 => by
    obtain ⟨c1, c2, rfl, h3, h4⟩ := forall₂_parts h2
    exact ⟨_ :: c1, c2, rfl, .cons h1 h3, h4⟩

theorem onWay_same {h h' : Headers} (hh : List.Forall₂ LineOnWay h h') (hn : ∀ kv ∈ h, NoOuter kv.2) : h' = h := by
  induction hh with
  | nil => rfl
  | cons h1 _ ih =>
    rw [ih (fun kv hkv => hn kv (by simp [hkv]))]
    exact congrArg (· :: _) (Prod.ext h1.1 (stripped_self (hn _ (by simp)) h1.2))

/-- C126: signing never spoils a message. Whatever labels and texts the signers have, if signing succeeds and the request could be sent before, then it can be sent
after, every reader sees the lines that were there before, as many as before, and after them two lines for each signer, exactly as they were made. -/
theorem C126_no_injection {l : List Signer} {h : Headers} (hr : Sendable r) (hw : WfHeaders (extra ++ r.headers)) (hs : SendableLines (extra ++ r.headers))
    (hsign : setSignatures (.req r) l none = (h, .ok ())) (hl : ∀ x ∈ l, LabelStart x) {body : Bytes}
    (hread : Reads (written extra { r with headers := h } ++ body) r') :
    r'.method = r.method ∧ r'.uri = originForm r.uri ∧ ∃ front sigs, h = r.headers ++ sigs ∧ r'.headers = front ++ sigs ∧ sigs.length = 2 * l.length ∧
      List.Forall₂ LineOnWay (extra ++ r.headers) front := by
  have hwr : WfHeaders r.headers := fun kv hkv => hw kv (by simp [hkv])
  obtain ⟨ls, h1, rfl⟩ := (C65_sign (m := .req r) hwr (by simp) l h).1 hsign
  obtain ⟨c1, c2, c3, c4⟩ := all_added h1 hl
  have e : extra ++ (r.headers ++ ls.flatten) = (extra ++ r.headers) ++ ls.flatten := (List.append_assoc _ _ _).symm
  obtain ⟨a1, a2, a3⟩ := reads_eq (r := { r with headers := (Msg.req r).headers ++ ls.flatten }) (extra := extra) ⟨hr.method, hr.path, hr.mark, hr.pathChars, hr.queryChars⟩
    (e ▸ wf_append hw c2) (e ▸ lines_append hs c3) hread
  refine ⟨a1, a2, ?_⟩
  have a3 : List.Forall₂ LineOnWay ((extra ++ r.headers) ++ ls.flatten) r'.headers := e ▸ a3
  obtain ⟨front, sigs, e1, e2, e3⟩ := forall₂_parts a3
  rw [onWay_same e3 c4] at e1
  exact ⟨front, ls.flatten, rfl, e1, c1, e2⟩

/-- C126: from signing to verification over the wire. A client signs a request and writes it; whatever a server reads, it verifies with the result that the client
gets from the signed request, unless a signature covers a component that is lost (C124), a line that the client's program put in front, or a field that had blanks
at the end of a line. -/
theorem C126_deliver {l : List Signer} {h : Headers} (hr : Sendable r) (hw : WfHeaders (extra ++ r.headers)) (hs : SendableLines (extra ++ r.headers))
    (hu : Absolute r.uri) (hm : r.method ≠ c! "CONNECT") (hsign : setSignatures (.req r) l none = (h, .ok ())) (hl : ∀ x ∈ l, LabelStart x)
    (ht : Untouched (changed extra r.headers)) {body : Bytes} (hread : Reads (written extra { r with headers := h } ++ body) r')
    (hc : ∀ k, Wire.Carries h k → ∀ kv ∈ k, ∀ i ∈ kv.2.params.covered, Clear (changed extra r.headers) i ∧ ¬ Lost i)
    (now : UInt64) (keys : List (VerifyingKey × Option Str)) :
    verifySignatures now (.req r') keys none = verifySignatures now (.req { r with headers := h }) keys none ∧
    ∀ k id, verifySignature now (.req r') k id none = verifySignature now (.req { r with headers := h }) k id none := by
  have hwr : WfHeaders r.headers := fun kv hkv => hw kv (by simp [hkv])
  obtain ⟨ls, h1, rfl⟩ := (C65_sign (m := .req r) hwr (by simp) l h).1 hsign
  obtain ⟨c1, c2, c3, c4⟩ := all_added h1 hl
  have e : extra ++ ((Msg.req r).headers ++ ls.flatten) = (extra ++ r.headers) ++ ls.flatten := (List.append_assoc _ _ _).symm
  have hr1 : Sendable { r with headers := (Msg.req r).headers ++ ls.flatten } := ⟨hr.method, hr.path, hr.mark, hr.pathChars, hr.queryChars⟩
  have hw1 : WfHeaders (extra ++ ((Msg.req r).headers ++ ls.flatten)) := e ▸ wf_append hw c2
  have hs1 : SendableLines (extra ++ ((Msg.req r).headers ++ ls.flatten)) := e ▸ lines_append hs c3
  have ha := C126_arrives hr1 hw1 hs1 hread
  have hch : changed extra ((Msg.req r).headers ++ ls.flatten) = changed extra r.headers := by
    unfold changed
    have hnil : ls.flatten.filter (fun kv => decide ¬ NoOuter kv.2) = [] := List.filter_eq_nil_iff.2 (fun kv hkv => by simpa using c4 kv hkv)
    rw [List.filter_append, hnil, List.append_nil]
    rfl
  have ha : Arrives (changed extra r.headers) { r with headers := (Msg.req r).headers ++ ls.flatten } r' := hch ▸ ha
  obtain ⟨_, _, a3⟩ := reads_eq hr1 hw1 hs1 hread
  exact C124_verify (.request ha hu hm) ht (fun kv hkv => hw1 kv (List.mem_append_right _ hkv)) (onWay_wf a3 hw1) (by simp) (by simp)
    (fun k hk kv hkv i hi => ⟨(hc k hk kv hkv i hi).1, fun hx => (hc k hk kv hkv i hi).2 hx.1⟩) now keys

/-! ### Examples -/

namespace Ex126
open Ex124

def hostLine : Headers := [(c! "host", utf8 (c! "Example.com"))]

-- what is written
example : written hostLine sent = utf8 (c! "GET /a?b HTTP/1.1\r\nhost: Example.com\r\ndate: Tue\r\n\r\n") := by decide +kernel

instance (c : Char) : Decidable (Visible c) := by unfold Visible; infer_instance
instance (b : UInt8) : Decidable (ValueByte b) := by unfold ValueByte; infer_instance

theorem sendable (h : Headers) : Sendable { sent with headers := h } where
  method := show Token sent.method from ⟨by decide, fun c hc => tchar_of_isTchar (by revert c; decide)⟩
  path := Or.inr rfl
  mark := show '?' ∉ sent.uri.pathData by decide
  pathChars := show ∀ c ∈ sent.uri.pathData, Visible c by decide
  queryChars q hq := by cases hq; decide

/-- A message is read. -/
theorem reads_written {r : Request} {extra : Headers} (hr : Sendable r) (hw : WfHeaders (extra ++ r.headers)) (hs : SendableLines (extra ++ r.headers))
    (body : Bytes) (d : Body) : Reads (written extra r ++ body) ⟨r.method, originForm r.uri, (extra ++ r.headers).map (fun kv => (kv.1, stripOws kv.2)), d⟩ := by
  obtain ⟨h', h1, h2⟩ := C126_head hr hw hs
  refine ⟨_, body, ?_, rfl⟩
  have e : h' = (extra ++ r.headers).map (fun kv => (kv.1, stripOws kv.2)) := by
    have key : ∀ {a b : Headers}, List.Forall₂ LineOnWay a b → b = a.map (fun kv => (kv.1, stripOws kv.2)) := by
      intro a b h
      induction h with
      | nil => rfl
      | cons a _ ih => rw [List.map_cons, ← ih]; exact congrArg (· :: _) (Prod.ext a.1 (stripped_eq a.2))
    exact key h1
  rw [← e]
  exact h2

/-- Names with a capital in front, as some programs write them. -/
def capital (n : Str) : Str := match n with
  | [] => []
  | a :: n => a.toUpper :: n

theorem capitalWrites : Writes capital := by
  have key : ∀ k < 128, isTchar (Char.ofNat k) = true → (Char.ofNat k).toLower = Char.ofNat k →
      isTchar (Char.ofNat k).toUpper = true ∧ (Char.ofNat k).toUpper.toLower = Char.ofNat k := by decide +kernel
  intro n hn
  have ht := wfName_token hn
  cases n with
  | nil => exact absurd rfl hn.1
  | cons a n =>
    have hl : (a :: n).map Char.toLower = a :: n := hn.lower
    simp only [List.map_cons, List.cons.injEq] at hl
    have ha := tchar_visible (ht.2 a (by simp))
    have := key a.toNat (by omega) (by rw [Char.ofNat_toNat]; exact (hn.2.2 a (by simp)).1) (by rw [Char.ofNat_toNat]; exact hl.1)
    rw [Char.ofNat_toNat] at this
    refine ⟨⟨by simp [capital], ?_⟩, ?_⟩
    · intro c hc
      rcases List.mem_cons.1 hc with rfl | hc
      · exact tchar_of_isTchar this.1
      · exact ht.2 c (by simp [hc])
    · simp only [capital, List.map_cons, this.2, hl.2]

-- what is written then
example : headBytes (c! "GET") (c! "/a?b") ((hostLine ++ sent.headers).map fun kv => utf8 (capital kv.1) ++ 58 :: 32 :: kv.2) =
    utf8 (c! "GET /a?b HTTP/1.1\r\nHost: Example.com\r\nDate: Tue\r\n\r\n") := by decide +kernel

def safeSigner : Signer := (exParams safe, toySign 1, none)

theorem lines_ok {h : Headers} (hd : ∀ kv ∈ h, ∀ b ∈ kv.2, ValueByte b) : SendableLines h := hd

/-- The hypotheses of `C126_deliver`: a signed request with a body is written, read and verified. -/
example : ∃ r', Reads (written hostLine (signed safe) ++ utf8 (c! "body")) r' ∧ r'.headers.length = 4 ∧
    ∀ now keys, verifySignatures now (.req r') keys none = verifySignatures now (.req (signed safe)) keys none := by
  have hw0 : WfHeaders (hostLine ++ sent.headers) := wfNames (by decide +kernel)
  have hs0 : SendableLines (hostLine ++ sent.headers) := lines_ok (by decide +kernel)
  have hrd := reads_written (r := signed safe) (extra := hostLine) (sendable _) (wfNames (by decide +kernel)) (lines_ok (by decide +kernel)) (utf8 (c! "body")) (.data [])
  refine ⟨_, hrd, by decide +kernel, fun now keys => ?_⟩
  have hch : changed hostLine sent.headers = [c! "host"] := by decide +kernel
  refine (C126_deliver (r := sent) (extra := hostLine) (l := [safeSigner]) (h := (signed safe).headers) (sendable _) hw0 hs0 absolute (by decide) (by decide +kernel)
    (by intro x hx; rw [List.mem_singleton.1 hx]; intro c hc; cases hc; decide) (by rw [hch]; exact ⟨by decide, by decide⟩) hrd ?_ now keys).1
  rw [hch]
  intro k hk kv hkv i hi
  obtain ⟨h1, h2⟩ := safeCarried k hk kv hkv i hi
  exact ⟨h1, fun hx => h2 ⟨hx, Or.inl ⟨_, rfl⟩⟩⟩

/-- A line with a blank in front. -/
def blankReq : Request := { sent with headers := [(c! "date", utf8 (c! " Tue"))] }
def blankSigned : Request := (blankReq.setSignature (exParams [⟨.field (c! "date"), []⟩]) (toySign 1) none).1

/-- A label with a blank in front. -/
def tabSigned : Request := (sent.setSignature (exParams safe) (toySign 1) (some (c! "\tsig"))).1

-- what `LabelStart` is for: the line of this label changes on the way, and what cannot be read before can be read after
set_option maxRecDepth 20000 in
example : ∃ r', Reads (written hostLine tabSigned) r' ∧ r'.headers ≠ hostLine ++ tabSigned.headers ∧
    tabSigned.verifySignature 0 (toyVerify 1) none ≠ r'.verifySignature 0 (toyVerify 1) none := by
  have hrd := reads_written (r := tabSigned) (extra := hostLine) (sendable _) (wfNames (by decide +kernel)) (lines_ok (by decide +kernel)) [] (.data [])
  rw [List.append_nil] at hrd
  exact ⟨_, hrd, by decide +kernel, by decide +kernel⟩

end Ex126

open Ex124 Ex126 in
/-- C126: the blanks at the ends of a line are in the signed text but not read by the server, so a signature over such a line is lost on the way. (RFC 9421
section 2.1 takes them away before signing.) -/
theorem C126_blank : ∃ r', Reads (written hostLine blankSigned) r' ∧ blankSigned.verifySignature 0 (toyVerify 1) none = .ok (c! "sig") ∧
    r'.verifySignature 0 (toyVerify 1) none = .err .invalidSignature := by
  have hrd := reads_written (r := blankSigned) (extra := hostLine) (sendable _) (wfNames (by decide +kernel)) (lines_ok (by decide +kernel)) [] (.data [])
  rw [List.append_nil] at hrd
  exact ⟨_, hrd, by decide +kernel, by decide +kernel⟩

end Verif
