import Verif.Spec.Rfc9530
import Verif.Props.C72
import Verif.Props.C88
import Verif.Props.C63
import Verif.Proofs.WireValue
import Verif.Proofs.Chain
/-!
C106: Content-Digest of the library and of RFC 9530.
-/
namespace Verif
open Sfv Spec Grammar Rfc9530

section
variable {h : Headers} (hw : WfHeaders h)

theorem knows_label {reg : Registry} (hk : Knows reg) (t : DigestType) : reg (digestLabel t) = some (hashOf t) := by
  cases t
  · exact hk.sha256
  · exact hk.sha512

/-- The field of a message with one line. -/
theorem field_one {v : Bytes} (hv : Wire.linesOf h (c! "content-digest") = [v]) (d : Dict) :
    Digests h d ↔ ∃ s, hvToStr v = some s ∧ parseDict s = some d := by
  unfold Digests Wire.LinesText
  rw [hv]
  constructor
  · rintro ⟨ts, h1, _, h2⟩
    cases h1 with
    | cons a b =>
      cases b
      exact ⟨_, lineText_iff.1 a, (parseDict_iff _ _).2 (by simpa [Wire.commas] using h2)⟩
  · rintro ⟨s, h1, h2⟩
    exact ⟨[s], .cons (lineText_iff.2 h1) .nil, by simp, by simpa [Wire.commas] using (parseDict_iff _ _).1 h2⟩

theorem field_unique {d d' : Dict} (h1 : Digests h d) (h2 : Digests h d') : d = d' := by
  obtain ⟨ts, a1, _, a2⟩ := h1
  obtain ⟨ts', b1, _, b2⟩ := h2
  have := lineTexts_inj (linesText_iff.1 a1) (linesText_iff.1 b1)
  subst this
  have := ((parseDict_iff _ _).2 a2).symm.trans ((parseDict_iff _ _).2 b2)
  injection this

include hw

/-- C106: on a message with one line the library accepts exactly if the field has one member, under sha-256 or sha-512, and this is the hash of
the content. -/
theorem C106_exact {v : Bytes} (hv : Wire.linesOf h (c! "content-digest") = [v]) (b : Bytes) :
    (∃ x, verifyDigest h (.data b) = .ok x) ↔ ∃ t ps, Digests h [(digestLabel t, .item ⟨.bytes (hashOf t b), ps⟩)] := by
  have hl : lines h (c! "content-digest") = [v] := by rw [lines_fieldLines hw]; exact hv
  constructor
  · rintro ⟨⟨h', b'⟩, hx⟩
    obtain ⟨_, _, b2, t, v', e, hv', s, ps, hs, hd⟩ := (verifyDigest_ok _ _ _ _).1 hx
    injection e with e; subst e
    rw [hl] at hv'; injection hv' with hv'; subst hv'
    exact ⟨t, ps, (field_one hv _).2 ⟨s, hs, hd⟩⟩
  · rintro ⟨t, ps, hf⟩
    obtain ⟨s, hs, hd⟩ := (field_one hv _).1 hf
    exact ⟨(h, .data b), (verifyDigest_ok _ _ _ _).2 ⟨rfl, rfl, b, t, v, rfl, by rw [hl]; rfl, s, ps, hs, hd⟩⟩

/-- C106: then every recipient of RFC 9530 accepts as well. -/
theorem C106_sound {v : Bytes} (hv : Wire.linesOf h (c! "content-digest") = [v]) {b : Bytes} (hx : ∃ x, verifyDigest h (.data b) = .ok x)
    {reg : Registry} (hk : Knows reg) : Accepts reg h b := by
  obtain ⟨t, ps, hf⟩ := (C106_exact hw hv b).1 hx
  have r : Right reg [(digestLabel t, .item ⟨.bytes (hashOf t b), ps⟩)] b (digestLabel t) := ⟨_, ps, knows_label hk t, by simp [List.lookup]⟩
  refine ⟨_, hf, ⟨_, r⟩, ?_⟩
  intro l e he _
  rw [List.mem_singleton] at he
  injection he with e1 e2
  subst e1
  exact r

/-- C106: on a message with one line, and one member that the library knows, it decides as every recipient of RFC 9530 does. -/
theorem C106_agrees {v : Bytes} (hv : Wire.linesOf h (c! "content-digest") = [v]) {t : DigestType} {e : Entry} (hf : Digests h [(digestLabel t, e)])
    {reg : Registry} (hk : Knows reg) (b : Bytes) : (∃ x, verifyDigest h (.data b) = .ok x) ↔ Accepts reg h b := by
  refine ⟨fun hx => C106_sound hw hv hx hk, ?_⟩
  rintro ⟨d, hd, ⟨l, f, ps, hr, hm⟩, _⟩
  have := field_unique hf hd
  subst this
  refine (C106_exact hw hv b).2 ⟨t, ps, ?_⟩
  have : l = digestLabel t ∧ e = .item ⟨.bytes (f b), ps⟩ := by
    rw [List.lookup] at hm
    split at hm
    · rename_i hl; injection hm with hm; exact ⟨by simpa using hl, hm⟩
    · cases hm
  obtain ⟨rfl, rfl⟩ := this
  rw [knows_label hk t] at hr; injection hr with hr; subst hr
  exact hf

/-- C106: a field with several digests, or with one under another label, is refused, whatever it says. -/
theorem C106_refused {v : Bytes} (hv : Wire.linesOf h (c! "content-digest") = [v]) {d : Dict} (hf : Digests h d)
    (hd : ∀ t e, d ≠ [(digestLabel t, e)]) (body : Body) : verifyDigest h body = .err .invalidHeaderValue := by
  have hl : lines h (c! "content-digest") = [v] := by rw [lines_fieldLines hw]; exact hv
  obtain ⟨s, hs, hp⟩ := (field_one hv _).1 hf
  refine ((C20_errors h body).2 v (by rw [hl]; rfl)).2.1 (by rw [hs]; simp) ?_
  rintro t x ⟨s', ps, h1, h2⟩
  rw [hs] at h1; injection h1 with h1; subst h1
  rw [hp] at h2; injection h2 with h2
  exact hd t _ h2

/-- C106: with several lines the library looks at the first. Where the later ones are a dictionary as well, the digest under the same label in the
field is that of the last line that has one: the acceptance says nothing about it. -/
theorem C106_many {t1 : Str} {ts : List Str} (ht : Wire.LinesText h (c! "content-digest") (t1 :: ts)) (hne : ts ≠ []) {rest d : Dict}
    (hr : DictText rest (Wire.commas ts)) (hd : Digests h d) {b : Bytes} (hx : ∃ x, verifyDigest h (.data b) = .ok x) :
    ∃ t ps, DictText [(digestLabel t, .item ⟨.bytes (hashOf t b), ps⟩)] t1 ∧
      (rest.lookup (digestLabel t) = none → d.lookup (digestLabel t) = some (.item ⟨.bytes (hashOf t b), ps⟩)) ∧
      (∀ e, rest.lookup (digestLabel t) = some e → d.lookup (digestLabel t) = some e) ∧
      ∀ l, l ≠ digestLabel t → d.lookup l = rest.lookup l := by
  obtain ⟨⟨h', b'⟩, hx⟩ := hx
  obtain ⟨_, _, b2, t, v', e, hv', s, ps, hs, hp⟩ := (verifyDigest_ok _ _ _ _).1 hx
  injection e with e; subst e
  have hl : lines h (c! "content-digest") = Wire.linesOf h (c! "content-digest") := lines_fieldLines hw
  rw [hl] at hv'
  unfold Wire.LinesText at ht
  generalize hg : Wire.linesOf h (c! "content-digest") = ls at ht hv'
  cases ht with
  | @cons v _ vs _ a c =>
    injection hv' with hv'; subst hv'
    have := (lineText_iff.1 a).symm.trans hs
    injection this with this; subst this
    obtain ⟨ts', d1, _, d2⟩ := hd
    have e2 : ts' = t1 :: ts := lineTexts_inj (linesText_iff.1 d1) (linesText_iff.1 (by unfold Wire.LinesText; rw [hg]; exact .cons a c))
    subst e2
    have hj : parseDict (join (c! ", ") [t1, Wire.commas ts]) = some d := by
      rw [parseDict_iff]
      rw [commas_eq, join_cons _ _ hne] at d2
      rw [commas_eq]; simpa [join] using d2
    have key := fun k => lookup_joined (ts := [t1, Wire.commas ts]) (ds := [_, rest]) (.cons hp (.cons ((parseDict_iff _ _).2 hr) .nil)) (by simp) hj k
    refine ⟨t, ps, (parseDict_iff _ _).1 hp, ?_, ?_, ?_⟩
    · intro hn
      rw [key]; simp [List.lookup, hn]
    · intro e he
      rw [key]; simp [List.lookup, he]
    · intro l hl
      rw [key]
      have : (l == digestLabel t) = false := by simpa using hl
      cases hr' : rest.lookup l <;> simp [List.lookup, this, hr']

omit hw

/-- C106: what `set_content_digest` writes every recipient of RFC 9530 reads: it accepts the content and exactly those with the same hash. -/
theorem C106_set (t : DigestType) (h : Headers) (b : Bytes) : ∃ h', setDigest t h (.data b) = .ok (h', .data b) ∧
    (WfHeaders h → Digests h' [(digestLabel t, .item ⟨.bytes (hashOf t b), []⟩)] ∧
      ∀ reg, Knows reg → ∀ b', Accepts reg h' b' ↔ hashOf t b' = hashOf t b) := by
  refine ⟨_, setDigest_data t h b, fun hw => ?_⟩
  have hw' : WfHeaders (h.insert hContentDigest (utf8 (digestText t b))) := (fieldLines_insert_digest hw _).1
  have hv : Wire.linesOf (h.insert hContentDigest (utf8 (digestText t b))) (c! "content-digest") = [utf8 (digestText t b)] := by
    rw [linesOf_eq, ← lines_fieldLines hw', lines_insert]
  have hf : Digests (h.insert hContentDigest (utf8 (digestText t b))) [(digestLabel t, .item ⟨.bytes (hashOf t b), []⟩)] :=
    (field_one hv _).2 ⟨_, hvToStr_utf8 (digestText_printable t b), digestText_parse t b⟩
  refine ⟨hf, fun reg hk b' => ?_⟩
  rw [← C106_agrees hw' hv hf hk, C106_exact hw' hv]
  constructor
  · rintro ⟨t', ps, h2⟩
    have := field_unique hf h2
    simp only [List.cons.injEq, Prod.mk.injEq, and_true] at this
    obtain ⟨e1, e2⟩ := this
    have : t = t' := by cases t <;> cases t' <;> first | rfl | exact absurd e1 (by decide)
    subst this
    injection e2 with e2; injection e2 with e2 _; injection e2 with e2
    exact e2.symm
  · intro e
    exact ⟨t, [], by rw [e]; exact hf⟩

end

/-! ### Where they differ -/

/-- Two lines, or one. -/
def twoLines (a b : Str) : Headers := [(c! "content-digest", utf8 a), (c! "content-digest", utf8 b)]
def joinedLine (a b : Str) : Headers := [(c! "content-digest", utf8 (a ++ c! ", " ++ b))]

theorem wf_digest_lines {h : Headers} (hh : ∀ kv ∈ h, kv.1 = c! "content-digest") : WfHeaders h := by
  intro kv hkv
  rw [hh kv hkv]; exact ⟨by decide, by decide, by decide⟩

theorem twoLines_field {a b : Str} (ha : ∀ c ∈ a, Printable c) (hb : ∀ c ∈ b, Printable c) {d : Dict} (hd : parseDict (a ++ c! ", " ++ b) = some d) :
    Wire.LinesText (twoLines a b) (c! "content-digest") [a, b] ∧ Digests (twoLines a b) d ∧ Digests (joinedLine a b) d ∧
      Wire.linesOf (joinedLine a b) (c! "content-digest") = [utf8 (a ++ c! ", " ++ b)] := by
  have h1 : Wire.LinesText (twoLines a b) (c! "content-digest") [a, b] :=
    .cons (lineText_iff.2 (hvToStr_utf8 ha)) (.cons (lineText_iff.2 (hvToStr_utf8 hb)) .nil)
  have hab : ∀ c ∈ a ++ c! ", " ++ b, Printable c := by
    intro c hc
    rcases List.mem_append.1 hc with hc | hc
    · rcases List.mem_append.1 hc with hc | hc
      · exact ha c hc
      · simp only [List.mem_cons, List.not_mem_nil, or_false] at hc; rcases hc with rfl | rfl <;> decide
    · exact hb c hc
  refine ⟨h1, ⟨_, h1, by simp, (parseDict_iff _ _).1 ?_⟩, (field_one rfl _).2 ⟨_, hvToStr_utf8 hab, hd⟩, rfl⟩
  rw [commas_eq]; simpa [join] using hd

theorem twoLines_accepted (t : DigestType) (b : Bytes) (s : Str) : verifyDigest (twoLines (digestText t b) s) (.data b) = .ok (twoLines (digestText t b) s, .data b) :=
  (verifyDigest_ok _ _ _ _).2 ⟨rfl, rfl, b, t, _, rfl, rfl, _, [], hvToStr_utf8 (digestText_printable t b), digestText_parse t b⟩

/-- C106: for every content there is a message with it that the library accepts and no recipient of RFC 9530 does: a second line with another
digest. -/
theorem C106_first_line (b : Bytes) : ∃ h, WfHeaders h ∧ verifyDigest h (.data b) = .ok (h, .data b) ∧ ∀ reg, Knows reg → ¬ Accepts reg h b := by
  refine ⟨twoLines (digestText .sha256 b) (c! "sha-256=:AA==:"), wf_digest_lines (by simp [twoLines]), twoLines_accepted _ _ _, ?_⟩
  rintro reg hk ⟨d, hd, _, hall⟩
  have hp := parseDict_snoc (digestText_parse .sha256 b) (by simp) (k := c! "sha-256") (e := .item ⟨.bytes [0], []⟩) (by decide)
    ⟨trivial, by simp [LegalParams]⟩
  rw [show serMember (c! "sha-256", .item ⟨.bytes [0], []⟩) = c! "sha-256=:AA==:" by decide +kernel] at hp
  have := field_unique (twoLines_field (digestText_printable _ _) (by decide) hp).2.1 hd
  subst this
  obtain ⟨f, ps, h1, h2⟩ := hall (c! "sha-256") (.item ⟨.bytes [0], []⟩) (by simp [imInsert, digestLabel]) (by rw [hk.sha256]; rfl)
  rw [hk.sha256] at h1; injection h1 with h1; subst h1
  simp [imInsert, digestLabel] at h2
  have : ([0] : Bytes).length = (hashOf .sha256 b).length := by rw [h2.1]
  rw [show (hashOf .sha256 b).length = 32 from Sha2.sha256_length b] at this
  cases this

/-- C106: for every content there is a message with it that every recipient of RFC 9530 accepts and the library refuses: both digests in one line. In
two lines the library accepts it, so a proxy that joins lines turns an accepted message into a refused one. -/
theorem C106_two_digests (b : Bytes) : ∃ h h', WfHeaders h ∧ WfHeaders h' ∧ (∀ d, Digests h d ↔ Digests h' d) ∧
    (∀ reg, Knows reg → Accepts reg h b ∧ Accepts reg h' b) ∧ verifyDigest h (.data b) = .ok (h, .data b) ∧
    verifyDigest h' (.data b) = .err .invalidHeaderValue := by
  have hp := parseDict_concat (digestText_parse .sha256 b) (digestText_parse .sha512 b) (by simp) (by simp) (by simp [digestLabel])
  obtain ⟨_, f1, f2, f3⟩ := twoLines_field (digestText_printable .sha256 b) (digestText_printable .sha512 b) hp
  have w' : WfHeaders (joinedLine (digestText .sha256 b) (digestText .sha512 b)) := wf_digest_lines (by simp [joinedLine])
  have acc : ∀ h, Digests h ([(digestLabel .sha256, .item ⟨.bytes (hashOf .sha256 b), []⟩)] ++
      [(digestLabel .sha512, .item ⟨.bytes (hashOf .sha512 b), []⟩)]) → ∀ reg, Knows reg → Accepts reg h b := by
    intro h hf reg hk
    have r1 : Right reg ([(digestLabel .sha256, .item ⟨.bytes (hashOf .sha256 b), []⟩)] ++
      [(digestLabel .sha512, .item ⟨.bytes (hashOf .sha512 b), []⟩)]) b (digestLabel .sha256) := ⟨_, [], knows_label hk _, by simp⟩
    have r2 : Right reg ([(digestLabel .sha256, .item ⟨.bytes (hashOf .sha256 b), []⟩)] ++
      [(digestLabel .sha512, .item ⟨.bytes (hashOf .sha512 b), []⟩)]) b (digestLabel .sha512) :=
      ⟨_, [], knows_label hk _, by simp [List.lookup, digestLabel]⟩
    refine ⟨_, hf, ⟨_, r1⟩, ?_⟩
    intro l e he _
    simp only [List.cons_append, List.nil_append, List.mem_cons, List.not_mem_nil, or_false, Prod.mk.injEq] at he
    rcases he with ⟨rfl, _⟩ | ⟨rfl, _⟩
    · exact r1
    · exact r2
  refine ⟨_, _, wf_digest_lines (by simp [twoLines]), w', ?_, fun reg hk => ⟨acc _ f1 reg hk, acc _ f2 reg hk⟩, twoLines_accepted _ _ _, ?_⟩
  · intro d
    constructor
    · intro h; rw [← field_unique f1 h]; exact f2
    · intro h; rw [← field_unique f2 h]; exact f1
  · exact C106_refused w' f3 f2 (by intro t e h; simp at h) _

/-! ### Cases -/

/-- A registry with a third algorithm. -/
def exRegistry : Registry := fun l =>
  if l = c! "sha-256" then some (hashOf .sha256) else if l = c! "sha-512" then some (hashOf .sha512) else if l = c! "unixsum" then some (fun _ => []) else none

theorem exRegistry_knows : Knows exRegistry := ⟨rfl, rfl⟩

/-- A line with a parameter and spaces, which RFC 9530 allows: the library agrees with every recipient on all contents. -/
example (b : Bytes) : (∃ x, verifyDigest [(c! "content-digest", utf8 (c! "  sha-256=:AA==:;x=1  "))] (.data b) = .ok x) ↔
    Accepts exRegistry [(c! "content-digest", utf8 (c! "  sha-256=:AA==:;x=1  "))] b :=
  C106_agrees (wf_digest_lines (by simp)) (t := .sha256) (e := .item ⟨.bytes [0], [(c! "x", .int 1)]⟩) rfl ((field_one rfl _).2 ⟨c! "  sha-256=:AA==:;x=1  ", by decide +kernel, by decide +kernel⟩)
    exRegistry_knows b

/-- A line with the right digest. -/
example (b : Bytes) : Accepts exRegistry [(c! "content-digest", utf8 (digestText .sha512 b))] b :=
  C106_sound (wf_digest_lines (by simp)) rfl ⟨_, (verifyDigest_ok _ _ _ _).2 ⟨rfl, rfl, b, .sha512, _, rfl, rfl, _, [],
    hvToStr_utf8 (digestText_printable _ b), digestText_parse _ b⟩⟩ exRegistry_knows

/-- Two lines with different labels: the field has the digest of the first line, which the library has checked, and the one of the second, which it has
not. -/
example (b : Bytes) : ∃ h d, WfHeaders h ∧ Digests h d ∧ (∃ x, verifyDigest h (.data b) = .ok x) ∧
    d.lookup (c! "sha-256") = some (.item ⟨.bytes (hashOf .sha256 b), []⟩) ∧ d.lookup (c! "sha-512") = some (.item ⟨.bytes [0], []⟩) := by
  have hp := parseDict_snoc (digestText_parse .sha256 b) (by simp) (k := c! "sha-512") (e := .item ⟨.bytes [0], []⟩) (by decide)
    ⟨trivial, by simp [LegalParams]⟩
  rw [show serMember (c! "sha-512", .item ⟨.bytes [0], []⟩) = c! "sha-512=:AA==:" by decide +kernel] at hp
  obtain ⟨h1, h2, _⟩ := twoLines_field (digestText_printable .sha256 b) (by decide) hp
  have w : WfHeaders (twoLines (digestText .sha256 b) (c! "sha-512=:AA==:")) := wf_digest_lines (by simp [twoLines])
  obtain ⟨t, ps, g1, g2, g3, g4⟩ := C106_many w h1 (by simp) (rest := [(c! "sha-512", .item ⟨.bytes [0], []⟩)])
    ((parseDict_iff _ _).1 (by decide +kernel)) h2 ⟨_, twoLines_accepted .sha256 b _⟩
  have e := ((parseDict_iff _ _).2 g1).symm.trans (digestText_parse .sha256 b)
  simp only [Option.some.injEq, List.cons.injEq, Prod.mk.injEq, and_true] at e
  obtain ⟨e1, e2⟩ := e
  have : t = .sha256 := by cases t <;> first | rfl | exact absurd e1 (by decide)
  subst this
  injection e2 with e2; injection e2 with _ e2
  subst e2
  exact ⟨_, _, w, h2, ⟨_, twoLines_accepted .sha256 b _⟩, g2 (by decide), by rw [g4 _ (by decide)]; rfl⟩

/-- A label that the library does not know. -/
example (body : Body) : verifyDigest [(c! "content-digest", utf8 (c! "unixsum=::"))] body = .err .invalidHeaderValue :=
  C106_refused (wf_digest_lines (by simp)) rfl (d := [(c! "unixsum", .item ⟨.bytes [], []⟩)])
    ((field_one rfl _).2 ⟨c! "unixsum=::", by decide +kernel, by decide +kernel⟩) (by intro t e h; cases t <;> simp [digestLabel] at h) body

end Verif
