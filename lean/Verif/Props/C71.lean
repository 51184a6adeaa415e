import Verif.Proofs.UriText
import Verif.Proofs.Rfc
import Verif.Props.C09
import Verif.Props.C70
/-!
C71: requests and responses given as text. The parser of URIs reads exactly the grammar of `Spec/UriText.lean`, the messages that it and its
companions make satisfy the hypotheses on messages used by the other properties, and the derived components are read off the text.
-/
namespace Verif
open Spec Sfv

/-! ### URIs -/

/-- C71: a text is accepted as a URI exactly if it is short enough and has one of the four forms; the parts are those of the form. -/
theorem C71_uri (L : UriLib) (s : Str) (u : Uri) :
    Uri.parse L s = some u ↔ (utf8 s).length ≤ L.maxLen ∧ UriText L s u := parse_iff

/-- C71: a text has at most one reading. -/
theorem C71_unambiguous (L : UriLib) {s : Str} {u u' : Uri} (h : UriText L s u) (h' : UriText L s u') : u = u' := by
  let L' : UriLib := { L with maxLen := (utf8 s).length }
  have a : ∀ {v}, UriText L s v → UriText L' s v := by
    intro v hv
    cases hv with
    | asterisk => exact .asterisk
    | origin h1 h2 => exact .origin h1 ⟨h2.1, h2.2⟩
    | authority h1 h2 h3 => exact .authority h1 h2 ⟨h3.1, h3.2, h3.3, h3.4, h3.5, h3.6, h3.7⟩
    | absolute h1 h2 h3 h4 h5 => exact .absolute h1 h2 ⟨h3.1, h3.2, h3.3, h3.4, h3.5, h3.6, h3.7⟩ h4 ⟨h5.1, h5.2⟩
  have h1 := parse_iff.mpr ⟨le_refl _, a h⟩
  have h2 := parse_iff.mpr ⟨le_refl _, a h'⟩
  exact Option.some.inj (h1.symm.trans h2)

/-- C71: the fragment is dropped. -/
theorem C71_fragment (L : UriLib) {s f : Str} {u : Uri} (hs : '#' ∉ s) (h : Uri.parse L (s ++ '#' :: f) = some u) :
    Uri.parse L s = some u := by
  obtain ⟨h1, h2⟩ := parse_iff.mp h
  refine parse_iff.mpr ⟨?_, ?_⟩
  · have : (utf8 (s ++ '#' :: f)).length = (utf8 s).length + (utf8 ('#' :: f)).length := by simp [utf8]
    omega
  · have cut : ∀ {t : Str} {g : Option Str}, '#' ∉ t → s ++ '#' :: f = t ++ fragmentText g → s = t := by
      intro t g ht e
      have e1 : dropFragment (s ++ '#' :: f) = s := dropFragment_iff.mpr ⟨some f, rfl, hs⟩
      have e2 : dropFragment (s ++ '#' :: f) = t := dropFragment_iff.mpr ⟨g, e, ht⟩
      exact e1.symm.trans e2
    have noHash : ∀ {p : Str} {q : Option Str}, PathText L p q → '#' ∉ p ∧ '#' ∉ queryText q := by
      intro p q hp
      refine ⟨fun hm => (hp.path _ hm).2.2 rfl, fun hm => ?_⟩
      cases q with
      | none => cases hm
      | some q =>
        rcases List.mem_cons.mp hm with e | hm
        · cases e
        · exact (hp.query _ rfl _ hm).2 rfl
    generalize hg : s ++ '#' :: f = t at h2
    cases h2 with
    | asterisk =>
      have : '#' ∈ ['*'] := by rw [← hg]; simp
      simp at this
    | @origin p q g k1 k2 =>
      have n := noHash k2
      rw [cut (by simp [n]) hg]
      simpa [fragmentText] using UriText.origin (f := none) k1 k2
    | authority k1 k2 k3 =>
      exact absurd (authText_end k3 '#' (by rw [← hg]; simp)) (by decide)
    | @absolute n a p q g k1 k2 k3 k4 k5 =>
      have m := noHash k5
      have hn : '#' ∉ n := by
        intro hm
        rcases k1 with k1 | k1 | k1
        · have : Char.toLower '#' ∈ lower n := List.mem_map_of_mem hm
          rw [k1] at this; revert this; decide
        · have : Char.toLower '#' ∈ lower n := List.mem_map_of_mem hm
          rw [k1] at this; revert this; decide
        · exact (L.scheme_clean _ (k1.2.2 _ hm)).2.2.2 rfl
      have ha : '#' ∉ a := fun hm => absurd (authText_end k3 '#' hm) (by decide)
      rw [cut (by simp [m, hn, ha]) hg]
      simpa [fragmentText] using UriText.absolute (f := none) k1 k2 k3 k4 k5

/-! ### Messages -/

theorem methodOfText_tchar {s m : Str} (h : methodOfText s = some m) : m = s ∧ ∀ c ∈ m, isTchar c = true := by
  unfold methodOfText at h
  split at h
  · rename_i hc; cases h; exact ⟨rfl, by simpa using hc.2⟩
  · cases h

theorem tchar_ascii {c : Char} (h : isTchar c = true) : c.toNat < 128 := by
  have := (Rfc.tchar_safe h).1
  unfold Printable at this
  omega

theorem lower_tchar {c : Char} (h : isTchar c = true) : isTchar c.toLower = true ∧ ¬ ('A' ≤ c.toLower ∧ c.toLower ≤ 'Z') := by
  have key : ∀ n : Fin 128, isTchar (Char.ofNat n) = true →
      isTchar (Char.ofNat n).toLower = true ∧ ¬ ('A' ≤ (Char.ofNat n).toLower ∧ (Char.ofNat n).toLower ≤ 'Z') := by decide +kernel
  have := key ⟨c.toNat, tchar_ascii h⟩
  rw [show Char.ofNat (⟨c.toNat, tchar_ascii h⟩ : Fin 128) = c from Char.ofNat_toNat c] at this
  exact this h

theorem wfName_lower {n k : Str} (h : hdrKey n = some k) : WfName k ∧ k = lower n := by
  unfold hdrKey at h
  split at h
  · rename_i hc
    cases h
    refine ⟨⟨by simpa [lower] using hc.1, by rw [lower_length]; exact hc.2.1, fun c hm => ?_⟩, rfl⟩
    obtain ⟨d, hd, rfl⟩ := List.mem_map.mp hm
    exact lower_tchar (List.all_eq_true.mp hc.2.2 d hd)
  · cases h

theorem headersOfText_spec : ∀ {ls : List (Str × Bytes)} {h : Headers}, headersOfText ls = some h →
    WfHeaders h ∧ (∀ kv ∈ h, kv.2.all hvByteOk = true) ∧ h = ls.map (fun kv => (lower kv.1, kv.2))
  | [], h, e => by cases e; exact ⟨nofun, nofun, rfl⟩
  | (n, v) :: t, h, e => by
    unfold headersOfText at e
    cases hk : hdrKey n with
    | none => rw [hk] at e; cases e
    | some k =>
      rw [hk] at e
      have e : (if v.all hvByteOk then (headersOfText t).bind fun h => some ((k, v) :: h) else none) = some h := e
      split at e
      · rename_i hv
        cases ht : headersOfText t with
        | none => rw [ht] at e; cases e
        | some h' =>
          rw [ht] at e
          cases e
          obtain ⟨i1, i2, i3⟩ := headersOfText_spec ht
          obtain ⟨w1, w2⟩ := wfName_lower hk
          refine ⟨fun kv hkv => ?_, fun kv hkv => ?_, by rw [i3, w2]; rfl⟩
          · rcases List.mem_cons.mp hkv with rfl | hkv
            · exact w1
            · exact i1 kv hkv
          · rcases List.mem_cons.mp hkv with rfl | hkv
            · exact hv
            · exact i2 kv hkv
      · cases e

theorem oneLine_of {s : Str} (h : ∀ c ∈ s, 32 < c.toNat) : OneLine s := fun hm => absurd (h _ hm) (by decide)

theorem uriText_oneLine {L : UriLib} {s : Str} {u : Uri} (h : UriText L s u) : OneLineUri u := by
  have pq : ∀ {p : Str} {q : Option Str}, PathText L p q → OneLine p ∧ ∀ t, q = some t → OneLine t := fun h =>
    ⟨oneLine_of fun c hc => L.path_clean c (h.path c hc).1, fun t ht => oneLine_of fun c hc => L.query_clean c (h.query t ht c hc).1⟩
  have au : ∀ {a : Str}, AuthText L a → OneLine a := fun h => oneLine_of fun c hc => by
    rcases (h.chars c hc).2 with h | h
    · exact L.auth_clean c h
    · simp at h
      rcases h with rfl | rfl | rfl | rfl | rfl <;> decide
  cases h with
  | asterisk => exact ⟨nofun, nofun, by decide, nofun⟩
  | origin h1 h2 => exact ⟨nofun, nofun, (pq h2).1, (pq h2).2⟩
  | authority h1 h2 h3 => exact ⟨nofun, by rintro _ ⟨⟩; exact au h3, by simp [OneLine], nofun⟩
  | @absolute n a p q f h1 h2 h3 h4 h5 =>
    refine ⟨?_, by rintro _ ⟨⟩; exact au h3, (pq h5).1, (pq h5).2⟩
    rintro _ ⟨⟩
    unfold canonScheme
    split
    · rename_i h
      rcases h with h | h <;> (rw [h]; decide)
    · rename_i h
      rcases h1 with h1 | h1 | h1
      · exact absurd (Or.inl h1) h
      · exact absurd (Or.inr h1) h
      · exact oneLine_of fun c hc => (L.scheme_clean c (h1.2.2 c hc)).1

theorem request_ofText {L : UriLib} {method target : Str} {lines : List (Str × Bytes)} {body : Body} {r : Request} :
    Request.ofText L method target lines body = some r ↔
      methodOfText method = some r.method ∧ Uri.parse L target = some r.uri ∧ headersOfText lines = some r.headers ∧ body = r.body := by
  unfold Request.ofText
  constructor
  · intro h
    simp only [Option.bind_eq_bind, Option.bind_eq_some_iff] at h
    obtain ⟨m, h1, u, h2, hh, h3, h4⟩ := h
    cases h4
    exact ⟨h1, h2, h3, rfl⟩
  · rintro ⟨h1, h2, h3, rfl⟩
    rw [h1, h2, h3]; rfl

/-- C71: a request made from text is well-formed: the hypotheses on requests of the other properties hold. The header lines are kept in order,
with names in lower case. -/
theorem C71_request_wf (L : UriLib) {method target : Str} {lines : List (Str × Bytes)} {body : Body} {r : Request}
    (h : Request.ofText L method target lines body = some r) :
    WfRequest r ∧ r.method = method ∧ r.headers = lines.map (fun kv => (lower kv.1, kv.2)) ∧ r.body = body := by
  obtain ⟨h1, h2, h3, h4⟩ := request_ofText.mp h
  obtain ⟨m1, m2⟩ := methodOfText_tchar h1
  obtain ⟨w1, _, w3⟩ := headersOfText_spec h3
  refine ⟨⟨w1, fun hm => absurd (m2 _ hm) (by decide), uriText_oneLine (parse_iff.mp h2).2⟩, m1, w3, h4.symm⟩

/-- C71: so is a response. -/
theorem C71_response_wf {status : Nat} {lines : List (Str × Bytes)} {body : Body} {r : Response}
    (h : Response.ofText status lines body = some r) :
    WfHeaders r.headers ∧ r.status = status ∧ (natStr r.status).length = 3 ∧ r.headers = lines.map (fun kv => (lower kv.1, kv.2)) ∧
      r.body = body := by
  unfold Response.ofText at h
  split at h
  · rename_i hs
    simp only [Option.bind_eq_bind, Option.bind_eq_some_iff] at h
    obtain ⟨hh, h3, h4⟩ := h
    cases h4
    obtain ⟨w1, _, w3⟩ := headersOfText_spec h3
    refine ⟨w1, rfl, ?_, w3, rfl⟩
    have := natStr_length (k := 2) (n := status) (by omega)
    have := natStr_length_ge (k := 2) (n := status) (by omega)
    show (natStr status).length = 3
    omega
  · cases h

/-- A header line a message can be built with: the name a token of at most 65535 characters, the value without control characters
other than tabs. -/
structure HeaderText (kv : Str × Bytes) : Prop where
  nonempty : kv.1 ≠ []
  short : kv.1.length ≤ 65535
  token : ∀ c ∈ kv.1, isTchar c = true
  value : ∀ b ∈ kv.2, 32 ≤ b.toNat ∧ b.toNat ≠ 127 ∨ b.toNat = 9

theorem headersOfText_iff : ∀ {ls : List (Str × Bytes)} {h : Headers}, headersOfText ls = some h ↔
    (∀ kv ∈ ls, HeaderText kv) ∧ h = ls.map fun kv => (lower kv.1, kv.2)
  | [], h => by simp [headersOfText, eq_comm]
  | (n, v) :: t, h => by
    have hv : v.all hvByteOk = true ↔ ∀ b ∈ v, 32 ≤ b.toNat ∧ b.toNat ≠ 127 ∨ b.toNat = 9 := by simp [hvByteOk]
    by_cases hh : HeaderText (n, v)
    · have e : headersOfText ((n, v) :: t) = (headersOfText t).bind fun h => some ((lower n, v) :: h) := by
        have hk : hdrKey n = some (lower n) := by
          unfold hdrKey
          rw [if_pos ⟨hh.1, hh.2, List.all_eq_true.2 hh.3⟩]
        rw [headersOfText, hk]
        exact if_pos (hv.2 hh.4)
      rw [e, Option.bind_eq_some_iff]
      constructor
      · rintro ⟨h', a, b⟩
        obtain ⟨c, rfl⟩ := headersOfText_iff.1 a
        injection b with b
        exact ⟨List.forall_mem_cons.2 ⟨hh, c⟩, b.symm⟩
      · rintro ⟨a, rfl⟩
        exact ⟨_, headersOfText_iff.2 ⟨(List.forall_mem_cons.1 a).2, rfl⟩, rfl⟩
    · refine ⟨fun e => absurd ?_ hh, fun e => absurd (e.1 _ (by simp)) hh⟩
      unfold headersOfText hdrKey at e
      split at e
      · rename_i hc
        have e : (if v.all hvByteOk then (headersOfText t).bind fun h => some ((lower n, v) :: h) else none) = some h := e
        split at e
        · rename_i hb
          exact ⟨hc.1, hc.2.1, List.all_eq_true.1 hc.2.2, hv.1 hb⟩
        · cases e
      · cases e

/-- C71: exactly which texts make which request. -/
theorem C71_request_exact (L : UriLib) (method target : Str) (lines : List (Str × Bytes)) (body : Body) (r : Request) :
    Request.ofText L method target lines body = some r ↔
      (method ≠ [] ∧ ∀ c ∈ method, isTchar c = true) ∧ ((utf8 target).length ≤ L.maxLen ∧ UriText L target r.uri) ∧
      (∀ kv ∈ lines, HeaderText kv) ∧
      r.method = method ∧ r.headers = lines.map (fun kv => (lower kv.1, kv.2)) ∧ r.body = body := by
  rw [request_ofText, parse_iff, headersOfText_iff]
  unfold methodOfText
  constructor
  · rintro ⟨h1, h2, ⟨h3, h4⟩, h5⟩
    split at h1
    · rename_i hc
      injection h1 with h1
      exact ⟨⟨hc.1, List.all_eq_true.1 hc.2⟩, h2, h3, h1.symm, h4, h5.symm⟩
    · cases h1
  · rintro ⟨h1, h2, h3, h4, h5, h6⟩
    exact ⟨by rw [if_pos ⟨h1.1, List.all_eq_true.2 h1.2⟩, h4], h2, ⟨h3, h5⟩, h6.symm⟩

/-- C71: and which a response. -/
theorem C71_response_exact (status : Nat) (lines : List (Str × Bytes)) (body : Body) (r : Response) :
    Response.ofText status lines body = some r ↔
      (100 ≤ status ∧ status ≤ 999) ∧ (∀ kv ∈ lines, HeaderText kv) ∧
      r.status = status ∧ r.headers = lines.map (fun kv => (lower kv.1, kv.2)) ∧ r.body = body := by
  unfold Response.ofText
  split
  · rename_i hs
    simp only [Option.bind_eq_bind, Option.bind_eq_some_iff, headersOfText_iff]
    constructor
    · rintro ⟨h, ⟨a, rfl⟩, b⟩
      injection b with b
      subst b
      exact ⟨⟨hs.1, by omega⟩, a, rfl, rfl, rfl⟩
    · rintro ⟨_, a, b, c, d⟩
      refine ⟨_, ⟨a, rfl⟩, ?_⟩
      cases r
      cases b; cases c; cases d
      rfl
  · rename_i hs
    exact ⟨nofun, fun h => absurd ⟨h.1.1, by omega⟩ hs⟩

example : (Response.ofText 200 [(c! "Content-Type", utf8 (c! "text/plain"))] (.data [])).isSome = true ∧
    Response.ofText 99 [] (.data []) = none ∧ Response.ofText 1000 [] (.data []) = none ∧
    Response.ofText 200 [(c! "x", [10])] (.data []) = none := by decide +kernel

/-- C71: the lines of a field are the lines whose name agrees up to letter case, in order. -/
theorem C71_field_lines (L : UriLib) {method target : Str} {lines : List (Str × Bytes)} {body : Body} {r : Request}
    (h : Request.ofText L method target lines body = some r) (name : Str) :
    fieldLines r.headers name = (lines.filter (fun kv => lower kv.1 = lower name)).map Prod.snd := by
  obtain ⟨w, _, h1, _⟩ := C71_request_wf L h
  have low : ∀ kv ∈ lines, lower (lower kv.1) = lower kv.1 := fun kv hkv =>
    WfName.lower (w.headers (lower kv.1, kv.2) (by rw [h1]; exact List.mem_map_of_mem hkv))
  rw [h1]
  clear h h1 w
  unfold fieldLines
  induction lines with
  | nil => rfl
  | cons kv t ih =>
    have i := ih fun kv hkv => low kv (List.mem_cons_of_mem _ hkv)
    simp only [List.map_cons, List.filter_cons, low kv List.mem_cons_self]
    split
    · simp only [List.map_cons, i]
    · exact i

/-! ### Derived components -/

/-- A path as shown: never empty. -/
def shownPath (p : Str) : Str := if p = [] then c! "/" else p

section
variable {L : UriLib} {method target : Str} {lines : List (Str × Bytes)} {body : Body} {r : Request}

theorem uri_of_text (h : Request.ofText L method target lines body = some r) {u : Uri} (hu : UriText L target u) : r.uri = u :=
  C71_unambiguous L (parse_iff.mp (request_ofText.mp h).2.1).2 hu

theorem lower_canonScheme (n : Str) : (canonScheme n).map Char.toLower = lower n := by
  unfold canonScheme
  split
  · rename_i h
    rcases h with h | h <;> (rw [h]; decide)
  · rfl

/-- C71, absolute form (clients, proxies): the derived components are read off the text `scheme://authority path?query#fragment`. -/
theorem C71_absolute (h : Request.ofText L method target lines body = some r) {n a p : Str} {q f : Option Str}
    (hn : SchemeText L n) (ha : a ≠ []) (hA : AuthText L a) (hp : p = [] ∨ p.head? = some '/') (hP : PathText L p q)
    (ht : target = n ++ c! "://" ++ a ++ p ++ queryText q ++ fragmentText f) (v : Str) :
    (Extracts (.req r) none ⟨.derived .targetUri, []⟩ v ↔ v = canonScheme n ++ c! "://" ++ a ++ shownPath p ++ queryText q) ∧
    (Extracts (.req r) none ⟨.derived .authority, []⟩ v ↔ v = lower a) ∧
    (Extracts (.req r) none ⟨.derived .scheme, []⟩ v ↔ v = lower n) ∧
    (Extracts (.req r) none ⟨.derived .path, []⟩ v ↔ v = shownPath p) ∧
    (Extracts (.req r) none ⟨.derived .query, []⟩ v ↔ v = '?' :: q.getD []) ∧
    (Extracts (.req r) none ⟨.derived .requestTarget, []⟩ v ↔ v =
      if method = c! "CONNECT" then a else if method = c! "OPTIONS" then c! "*" else shownPath p ++ queryText q) := by
  obtain ⟨w, hm, -, -⟩ := C71_request_wf L h
  have hu := uri_of_text h (u := ⟨some (canonScheme n), some a, p, q⟩) (by rw [ht]; exact .absolute hn ha hA hp hP)
  have hpath : r.uri.path = shownPath p := by rw [hu]; simp [Uri.path, shownPath]
  obtain ⟨_, e2, e3, e4, e5, e6, e7⟩ := C30_request w.headers v
  rw [e2, e3, e4, e5, e6, e7, hpath, hm]
  have hpq : r.uri.pathAndQuery = some (shownPath p ++ queryText q) := by
    rw [hu]
    unfold Uri.pathAndQuery Uri.pqData shownPath
    rcases hp with rfl | hp
    · cases q <;> simp [queryText]
    · cases p with
      | nil => cases hp
      | cons c t => cases hp; cases q <;> simp [queryText]
  have hs : r.uri.toStr = canonScheme n ++ c! "://" ++ a ++ shownPath p ++ queryText q := by
    unfold Uri.toStr
    rw [hpath, hu]
    cases q <;> rfl
  have hsp : shownPath p ≠ [] := by unfold shownPath; split <;> simp_all
  rw [hpq, hs, hu]
  simp only [Option.getD_some, lower_canonScheme, if_neg hsp]
  exact ⟨trivial, Iff.rfl, trivial, trivial, trivial, trivial⟩

/-- C71, origin form (what a server receives): scheme and authority are empty, whatever the Host field says. -/
theorem C71_origin (h : Request.ofText L method target lines body = some r) {p : Str} {q f : Option Str}
    (hp : p.head? = some '/') (hP : PathText L p q) (ht : target = p ++ queryText q ++ fragmentText f) (v : Str) :
    (Extracts (.req r) none ⟨.derived .targetUri, []⟩ v ↔ v = p ++ queryText q) ∧
    (Extracts (.req r) none ⟨.derived .authority, []⟩ v ↔ v = []) ∧
    (Extracts (.req r) none ⟨.derived .scheme, []⟩ v ↔ v = []) ∧
    (Extracts (.req r) none ⟨.derived .path, []⟩ v ↔ v = p) ∧
    (Extracts (.req r) none ⟨.derived .query, []⟩ v ↔ v = '?' :: q.getD []) ∧
    (Extracts (.req r) none ⟨.derived .requestTarget, []⟩ v ↔ v =
      if method = c! "CONNECT" then [] else if method = c! "OPTIONS" then c! "*" else p ++ queryText q) := by
  obtain ⟨w, hm, -, -⟩ := C71_request_wf L h
  have hu := uri_of_text h (u := ⟨none, none, p, q⟩) (by rw [ht]; exact .origin hp hP)
  obtain ⟨t, rfl⟩ : ∃ t, p = '/' :: t := by
    cases p with
    | nil => cases hp
    | cons c t => cases hp; exact ⟨t, rfl⟩
  have hpath : r.uri.path = '/' :: t := by rw [hu]; cases q <;> simp [Uri.path, Uri.pqData]
  obtain ⟨_, e2, e3, e4, e5, e6, e7⟩ := C30_request w.headers v
  rw [e2, e3, e4, e5, e6, e7, hpath, hm]
  have hpq : r.uri.pathAndQuery = some ('/' :: t ++ queryText q) := by
    rw [hu]; cases q <;> simp [Uri.pathAndQuery, Uri.pqData, queryText]
  have hs : r.uri.toStr = '/' :: t ++ queryText q := by
    unfold Uri.toStr
    rw [hpath, hu]
    cases q <;> rfl
  rw [hpq, hs, hu]
  exact ⟨Iff.rfl, Iff.rfl, Iff.rfl, by simp, Iff.rfl, Iff.rfl⟩

/-- C71, authority form (CONNECT). -/
theorem C71_authority (h : Request.ofText L method target lines body = some r) (h1 : target ≠ []) (h2 : target ≠ c! "*")
    (hA : AuthText L target) (v : Str) :
    (Extracts (.req r) none ⟨.derived .targetUri, []⟩ v ↔ v = target) ∧
    (Extracts (.req r) none ⟨.derived .authority, []⟩ v ↔ v = lower target) ∧
    (Extracts (.req r) none ⟨.derived .scheme, []⟩ v ↔ v = []) ∧
    (Extracts (.req r) none ⟨.derived .path, []⟩ v ↔ v = c! "/") ∧
    (Extracts (.req r) none ⟨.derived .query, []⟩ v ↔ v = c! "?") ∧
    (Extracts (.req r) none ⟨.derived .requestTarget, []⟩ v ↔ v =
      if method = c! "CONNECT" then target else if method = c! "OPTIONS" then c! "*" else []) := by
  obtain ⟨w, hm, -, -⟩ := C71_request_wf L h
  have hu := uri_of_text h (u := ⟨none, some target, [], none⟩) (.authority h1 h2 hA)
  obtain ⟨_, e2, e3, e4, e5, e6, e7⟩ := C30_request w.headers v
  rw [e2, e3, e4, e5, e6, e7, hm, hu]
  refine ⟨?_, Iff.rfl, Iff.rfl, Iff.rfl, Iff.rfl, Iff.rfl⟩
  simp [Uri.toStr, Uri.path, Uri.pqData]

/-- C71, asterisk form. -/
theorem C71_asterisk (h : Request.ofText L method (c! "*") lines body = some r) (v : Str) :
    (Extracts (.req r) none ⟨.derived .targetUri, []⟩ v ↔ v = c! "*") ∧
    (Extracts (.req r) none ⟨.derived .authority, []⟩ v ↔ v = []) ∧
    (Extracts (.req r) none ⟨.derived .scheme, []⟩ v ↔ v = []) ∧
    (Extracts (.req r) none ⟨.derived .path, []⟩ v ↔ v = c! "*") ∧
    (Extracts (.req r) none ⟨.derived .query, []⟩ v ↔ v = c! "?") ∧
    (Extracts (.req r) none ⟨.derived .requestTarget, []⟩ v ↔ v = if method = c! "CONNECT" then [] else c! "*") := by
  obtain ⟨w, hm, -, -⟩ := C71_request_wf L h
  have hu := uri_of_text h (u := ⟨none, none, ['*'], none⟩) .asterisk
  obtain ⟨_, e2, e3, e4, e5, e6, e7⟩ := C30_request w.headers v
  rw [e2, e3, e4, e5, e6, e7, hm, hu]
  refine ⟨Iff.rfl, Iff.rfl, Iff.rfl, Iff.rfl, Iff.rfl, ?_⟩
  simp [Uri.pathAndQuery, Uri.pqData]

end

/-! ### What @target-uri determines -/

/-- The URI with its path as shown. -/
def shown (u : Uri) : Uri := { u with pathData := u.path }

theorem shown_text {L : UriLib} {s : Str} {u : Uri} (h : UriText L s u) : UriText L u.toStr (shown u) := by
  cases h with
  | asterisk => exact .asterisk
  | @origin p q f h1 h2 =>
    obtain ⟨t, rfl⟩ : ∃ t, p = '/' :: t := by
      cases p with
      | nil => cases h1
      | cons c t => cases h1; exact ⟨t, rfl⟩
    have e1 : Uri.path ⟨none, none, '/' :: t, q⟩ = '/' :: t := by cases q <;> simp [Uri.path, Uri.pqData]
    have := UriText.origin (f := none) h1 h2
    unfold shown Uri.toStr
    rw [e1]
    cases q <;> simpa [queryText, fragmentText] using this
  | @authority _ h1 h2 h3 =>
    have := UriText.authority h1 h2 h3
    simpa [shown, Uri.toStr, Uri.path, Uri.pqData] using this
  | @absolute n a p q f h1 h2 h3 h4 h5 =>
    have e1 : Uri.path ⟨some (canonScheme n), some a, p, q⟩ = shownPath p := by simp [Uri.path, shownPath]
    have c1 : SchemeText L (canonScheme n) ∧ canonScheme (canonScheme n) = canonScheme n := by
      by_cases hc : lower n = c! "http" ∨ lower n = c! "https"
      · have e : canonScheme n = lower n := if_pos hc
        rw [e]
        rcases hc with hc | hc
        · rw [hc]; exact ⟨Or.inl (by decide), by decide⟩
        · rw [hc]; exact ⟨Or.inr (Or.inl (by decide)), by decide⟩
      · have e : canonScheme n = n := if_neg hc
        rw [e]; exact ⟨h1, e⟩
    have h4' : shownPath p = [] ∨ (shownPath p).head? = some '/' := by
      right
      unfold shownPath
      rcases h4 with rfl | h4
      · rfl
      · rw [if_neg (by rintro rfl; cases h4)]; exact h4
    have h5' : PathText L (shownPath p) q := by
      unfold shownPath
      split
      · refine ⟨fun c hc => ?_, h5.query⟩
        obtain rfl : c = '/' := by simpa using hc
        exact ⟨L.path_slash, by decide, by decide⟩
      · exact h5
    have := UriText.absolute (f := none) c1.1 h2 h3 h4' h5'
    unfold shown Uri.toStr
    rw [e1]
    rw [c1.2] at this
    cases q <;> simpa [queryText, fragmentText] using this

/-- C71: reading the shown URI again gives the same URI. -/
theorem C71_reparse (L : UriLib) {s : Str} {u : Uri} (h : Uri.parse L s = some u) (hl : (utf8 u.toStr).length ≤ L.maxLen) :
    Uri.parse L u.toStr = some (shown u) := parse_iff.mpr ⟨hl, shown_text (parse_iff.mp h).2⟩

/-- C71: URIs that are shown alike are alike. -/
theorem C71_target_uri_injective (L : UriLib) {s s' : Str} {u u' : Uri} (h : Uri.parse L s = some u) (h' : Uri.parse L s' = some u')
    (e : u.toStr = u'.toStr) : shown u = shown u' :=
  C71_unambiguous L (shown_text (parse_iff.mp h).2) (e ▸ shown_text (parse_iff.mp h').2)

theorem shown_pathAndQuery {L : UriLib} {s : Str} {u : Uri} (h : UriText L s u) : (shown u).pathAndQuery = u.pathAndQuery := by
  cases h with
  | asterisk => rfl
  | @origin p q f h1 h2 =>
    cases p with
    | nil => cases h1
    | cons c t => cases q <;> simp [shown, Uri.path, Uri.pqData, Uri.pathAndQuery]
  | authority h1 h2 h3 => simp [shown, Uri.path, Uri.pqData, Uri.pathAndQuery]
  | @absolute n a p q f h1 h2 h3 h4 h5 =>
    rcases h4 with rfl | h4
    · cases q <;> simp [shown, Uri.path, Uri.pqData, Uri.pathAndQuery]
    · cases p with
      | nil => cases h4
      | cons c t => cases q <;> simp [shown, Uri.path, Uri.pqData, Uri.pathAndQuery]

/-- C71: requests with the same @target-uri agree in all other components that come from the URI, and with the same method in
@request-target. -/
theorem C71_target_uri_binds (L : UriLib) {r r' : Request} {method target method' target' : Str} {lines lines' : List (Str × Bytes)}
    {body body' : Body} (h : Request.ofText L method target lines body = some r)
    (h' : Request.ofText L method' target' lines' body' = some r') {v : Str}
    (e : Extracts (.req r) none ⟨.derived .targetUri, []⟩ v) (e' : Extracts (.req r') none ⟨.derived .targetUri, []⟩ v)
    {d : Derived} (hd : d ∈ [.authority, .scheme, .path, .query, .queryParam] ∨ (d = .requestTarget ∧ method = method'))
    (ps : List CParam) (w : Str) :
    Extracts (.req r) none ⟨.derived d, ps⟩ w ↔ Extracts (.req r') none ⟨.derived d, ps⟩ w := by
  obtain ⟨w1, m1, -, -⟩ := C71_request_wf L h
  obtain ⟨w2, m2, -, -⟩ := C71_request_wf L h'
  have t1 := ((C30_request w1.headers v).2.2.2.2.2.1).1 e
  have t2 := ((C30_request w2.headers v).2.2.2.2.2.1).1 e'
  have hs := C71_target_uri_injective L (request_ofText.mp h).2.1 (request_ofText.mp h').2.1 (t1.symm.trans t2)
  have hpq : r.uri.pathAndQuery = r'.uri.pathAndQuery := by
    rw [← shown_pathAndQuery (parse_iff.mp (request_ofText.mp h).2.1).2, hs, shown_pathAndQuery (parse_iff.mp (request_ofText.mp h').2.1).2]
  have s1 : r.uri.scheme = r'.uri.scheme := by have := congrArg Uri.scheme hs; exact this
  have s2 : r.uri.authority = r'.uri.authority := by have := congrArg Uri.authority hs; exact this
  have s3 : r.uri.path = r'.uri.path := by have := congrArg Uri.pathData hs; exact this
  have s4 : r.uri.query = r'.uri.query := by have := congrArg Uri.query hs; exact this
  have key : RequestValue r d ps w ↔ RequestValue r' d ps w := by
    rcases hd with hd | ⟨rfl, hd⟩
    · simp only [List.mem_cons, List.not_mem_nil, or_false] at hd
      rcases hd with rfl | rfl | rfl | rfl | rfl <;> simp only [RequestValue, s1, s2, s3, s4]
    · simp only [RequestValue, s2, hpq, m1, m2, hd]
  rw [extracts_iff (m := .req r) w1.headers (by simp), extracts_iff (m := .req r') w2.headers (by simp)]
  unfold HasValue
  split
  · exact ⟨fun ⟨_, _, _, h, _⟩ => (by cases h), fun ⟨_, _, _, h, _⟩ => (by cases h)⟩
  · exact and_congr_right fun _ => key

/-! ### Verification -/

/-- C71: what a public key from a PEM text accepts, for a request given as text. -/
theorem C71_verify_pem (H : Hashes) (U : UriLib) (L : Libs) (rsa : Bool) {alg : Alg} {pem : Str} {pk : PublicKey L.prims}
    (h : PublicKey.fromPem rsa alg pem = .ok pk) :
    ∃ der b K, PemText L.rsa.der (c! "PUBLIC KEY") der pem ∧ PublicFile L.rsa.der alg b der ∧ Holds L alg b K ∧
      ∀ (now : UInt64) (method target : Str) (lines : List (Str × Bytes)) (body : Body) (r : Request) (id : Option Str) (n : Str),
        Request.ofText U method target lines body = some r → Bounded (.req r) none →
        (r.verifySignature now pk.verifying id = .ok n ↔
          ∃ l, Wire.Carries r.headers l ∧ (∀ kv ∈ l, ¬ Fatal K now (.req r) none id kv.2) ∧
            ∃ l1 h l2, l = l1 ++ (n, h) :: l2 ∧ Proper H L K now (.req r) none id h ∧ ∀ kv ∈ l1, ¬ Proper H L K now (.req r) none id kv.2) := by
  obtain ⟨der, b, K, h1, h2, h3, h4⟩ := C70_verify_pem H L rsa h
  exact ⟨der, b, K, h1, h2, h3, fun now method target lines body r id n hr hb =>
    h4 now (.req r) none id n (C71_request_wf U hr).1.headers (by simp) hb⟩

/-- C71: if the key accepts only what its holder signed, the holder signed requests given as text, and the accepted signature covers
@target-uri, then the holder signed a request for the same URI. -/
theorem C71_uri_authentic (L : UriLib) {now : UInt64} {vk : VerifyingKey} {S : Signing → Prop} (hS : OnlySigned vk S)
    (hwf : ∀ x, S x → (∃ method target lines body r', Request.ofText L method target lines body = some r' ∧ x.m = .req r') ∧ x.rf = none ∧
      OneLineParams x.p ∧ SafeParams x.p)
    {method target : Str} {lines : List (Str × Bytes)} {body : Body} {r : Request} (hr : Request.ofText L method target lines body = some r)
    (hsafe : ∀ l, Carries r.headers l → ∀ kv ∈ l, SafeParams kv.2.params) {id : Option Str} {n : Str}
    (h : r.verifySignature now vk id = .ok n)
    (hcov : ∀ l, Carries r.headers l → ∀ sh, (n, sh) ∈ l → ⟨.derived .targetUri, []⟩ ∈ sh.params.covered) :
    ∃ x r', S x ∧ x.m = .req r' ∧ shown r'.uri = shown r.uri := by
  have wr := (C71_request_wf L hr).1
  have wx : ∀ x, S x → x.Wf ∧ SafeParams x.p := fun x hx => by
    obtain ⟨⟨_, _, _, _, r', h1, h2⟩, h3, h4, h5⟩ := hwf x hx
    exact ⟨⟨by rw [h2]; exact (C71_request_wf L h1).1, by rw [h3]; simp, h4⟩, h5⟩
  obtain ⟨l, sh, h1, h2, x, hx, _, h4⟩ := C09_safe (m := .req r) (rf := none) hS wx wr (by simp) hsafe h
  obtain ⟨v, v1, v2⟩ := h4 _ (hcov l h1 sh h2)
  obtain ⟨⟨_, _, _, _, r', g1, g2⟩, g3, -, -⟩ := hwf x hx
  refine ⟨x, r', hx, g2, ?_⟩
  rw [g2, g3] at v2
  have u1 := ((C30_request wr.headers v).2.2.2.2.2.1).1 ((extracts_iff (m := .req r) wr.headers (by simp) _ _).2 v1)
  have wr' := (C71_request_wf L g1).1
  have u2 := ((C30_request wr'.headers v).2.2.2.2.2.1).1 ((extracts_iff (m := .req r') wr'.headers (by simp) _ _).2 v2)
  exact C71_target_uri_injective L (request_ofText.mp g1).2.1 (request_ofText.mp hr).2.1 (u2.symm.trans u1)

/-! ### Examples -/

/-- The target of httpsig-hyper/examples/hyper-request.rs 24, shortened, with a fragment and a scheme in capitals. -/
def exTarget : Str := c! "HTTPS://user%40x@Example.com:8080/parameters?var=this%20is#top"

example : Uri.parse httpLib exTarget =
    some ⟨some (c! "https"), some (c! "user%40x@Example.com:8080"), c! "/parameters", some (c! "var=this%20is")⟩ := by decide +kernel

example : (Uri.parse httpLib exTarget).map Uri.toStr = some (c! "https://user%40x@Example.com:8080/parameters?var=this%20is") := by
  decide +kernel

example : Uri.parse httpLib (c! "http://[::1]:80?x") = some ⟨some (c! "http"), some (c! "[::1]:80"), [], some (c! "x")⟩ := by decide +kernel
example : Uri.parse httpLib (c! "ftp://h") = some ⟨some (c! "ftp"), some (c! "h"), [], none⟩ := by decide +kernel
example : Uri.parse httpLib (c! "/a?b?c") = some ⟨none, none, c! "/a", some (c! "b?c")⟩ := by decide +kernel
example : Uri.parse httpLib (c! "example.com:443") = some ⟨none, some (c! "example.com:443"), [], none⟩ := by decide +kernel
example : Uri.parse httpLib (c! "*") = some ⟨none, none, c! "*", none⟩ := by decide +kernel
example : Uri.parse httpLib (c! "example.com/a") = none := by decide +kernel
example : Uri.parse httpLib (c! "http://a:1:2/") = none := by decide +kernel
example : Uri.parse httpLib (c! "http://a%20b/") = none := by decide +kernel
example : Uri.parse httpLib (c! "http://user@/") = none := by decide +kernel
example : Uri.parse httpLib (c! "/a b") = none := by decide +kernel
example : Uri.parse httpLib (c! "/a\nb") = none := by decide +kernel
example : Uri.parse httpLib (c! "http:///a") = none := by decide +kernel

example : Request.ofText httpLib (c! "GET") (c! "/a?b") [(c! "Host", utf8 (c! "h")), (c! "X-A", utf8 (c! "1"))] (.data []) =
    some ⟨c! "GET", ⟨none, none, c! "/a", some (c! "b")⟩, [(c! "host", utf8 (c! "h")), (c! "x-a", utf8 (c! "1"))], .data []⟩ := by
  decide +kernel

/-- A method or a header name with a space, and a value with a line break, are refused. -/
example : Request.ofText httpLib (c! "GE T") (c! "/") [] (.data []) = none ∧
    Request.ofText httpLib (c! "GET") (c! "/") [(c! "x y", [])] (.data []) = none ∧
    Request.ofText httpLib (c! "GET") (c! "/") [(c! "x", [13, 10])] (.data []) = none := by decide +kernel

/-- The shared premise of the theorems on the absolute form. -/
example : SchemeText httpLib (c! "HTTPS") ∧ AuthText httpLib (c! "example.com:8080") ∧ PathText httpLib (c! "/p") (some (c! "q")) := by
  refine ⟨Or.inr (Or.inl (by decide)), (authorityOk_iff (by decide)).mp (by decide +kernel), ⟨by decide, ?_⟩⟩
  rintro _ ⟨⟩
  decide

/-- Parameters that cover @target-uri. -/
def tParams : SigParams := { covered := [⟨.derived .targetUri, []⟩], keyid := some (c! "k") }

theorem tParams_safe : SafeParams tParams where
  created := by intro t h; cases h
  expires := by intro t h; cases h
  nonce := by intro t h; cases h
  alg := by intro t h; cases h
  keyid := by intro t h; injection h with h; subst h; decide
  tag := by intro t h; cases h
  ids := by
    intro i hi
    rw [List.mem_singleton.1 hi]
    exact ⟨⟨by simp, by simp, by simp, by intro f h; cases h⟩, (by intro f h; cases h), by simp, by simp⟩
  distinct := by simp [tParams]

/-- The request that is signed. -/
def tReq : Request := ⟨c! "GET", ⟨some (c! "https"), some (c! "h"), c! "/a", some (c! "b")⟩, [(c! "date", utf8 (c! "Tue"))], .data []⟩

/-- A signed request with a key that accepts only what was signed: it meets every hypothesis of `C71_uri_authentic`. -/
example : ∃ (S : Signing → Prop) (vk : VerifyingKey) (lines : List (Str × Bytes)) (r : Request), OnlySigned vk S ∧ (∃ x, S x) ∧
    (∀ x, S x → (∃ method target lines body r', Request.ofText httpLib method target lines body = some r' ∧ x.m = .req r') ∧ x.rf = none ∧
      OneLineParams x.p ∧ SafeParams x.p) ∧
    Request.ofText httpLib (c! "GET") (c! "HTTPS://h/a?b#f") lines (.data []) = some r ∧
    (∀ l, Carries r.headers l → ∀ kv ∈ l, SafeParams kv.2.params) ∧
    r.verifySignature 0 vk (some (c! "k")) = .ok (c! "sig") ∧
    (∀ l, Carries r.headers l → ∀ sh, (c! "sig", sh) ∈ l → ⟨.derived .targetUri, []⟩ ∈ sh.params.covered) := by
  have hw : WfHeaders tReq.headers := by
    intro kv hkv
    rw [List.mem_singleton.1 hkv]; exact ⟨by decide, by decide, by decide⟩
  let S : Signing → Prop := (· = ⟨.req tReq, none, tParams⟩)
  obtain ⟨t, ht⟩ : ∃ t, BaseOf (.req tReq) none tParams t := by
    refine ⟨_, [tReq.uri.toStr], .cons ?_ .nil, rfl⟩
    unfold HasValue
    rw [if_neg (by simp)]
    exact ⟨nofun, rfl⟩
  have hsb : SignedBy (.req tReq) none (tParams, idealSign S, none) ⟨c! "sig", [1], tParams⟩ := by
    refine ⟨rfl, rfl, t, ht, ?_⟩
    unfold idealSign
    simp only
    rw [if_pos ⟨_, rfl, t, ht, rfl⟩]
  have hset := (setSignatures_ok (m := .req tReq) (rf := none) hw (by simp) [(tParams, idealSign S, none)] _).2
    ⟨[⟨c! "sig", [1], tParams⟩], .cons hsb .nil, by decide, rfl⟩
  have hns : NotSelf tParams := by
    intro i hi _
    rw [List.mem_singleton.1 hi]
    exact ⟨by simp, by intro f h; cases h⟩
  have hver := sign_then_verify (now := 0) (m := .req tReq) (rf := none) hw (by simp) rfl rfl tParams_safe hns (name := none) (by decide)
    (ideal_pair S) hset (by intro e h; cases h) (id := some (c! "k")) (Or.inr rfl)
  obtain ⟨hs, g1, g2, g3, _⟩ := signed_state (m := .req tReq) (rf := none) hw (by simp) rfl rfl (l := [(tParams, idealSign S, none)]) (by simp)
    (by intro x hx; rw [List.mem_singleton.1 hx]; exact ⟨tParams_safe, (by decide : LegalKey (c! "sig")), hns⟩) (by simp) hset
  have all : ∀ l, Carries (tReq.headers ++ [(⟨c! "sig", [1], tParams⟩ : SigHeaders)].flatMap sigLines) l → ∀ kv ∈ l, kv.2.params = tParams := by
    intro l hl kv hkv
    rw [carries_unique g2 hl g3] at hkv
    obtain ⟨sh', hm', e⟩ := List.mem_map.1 hkv
    subst e
    obtain ⟨x, hx, hb'⟩ := forall₂_mem_right g1 _ hm'
    rw [List.mem_singleton.1 hx] at hb'
    exact hb'.params
  refine ⟨S, idealVerify S, tReq.headers ++ [(⟨c! "sig", [1], tParams⟩ : SigHeaders)].flatMap sigLines,
    { tReq with headers := tReq.headers ++ [(⟨c! "sig", [1], tParams⟩ : SigHeaders)].flatMap sigLines }, ideal_only S, ⟨_, rfl⟩, ?_, ?_, ?_, hver, ?_⟩
  · rintro x rfl
    exact ⟨⟨c! "GET", c! "https://h/a?b", [(c! "Date", utf8 (c! "Tue"))], .data [], tReq, by decide +kernel, rfl⟩, rfl, safe_one_line tParams_safe,
      tParams_safe⟩
  · decide +kernel
  · intro l hl kv hkv; rw [all l hl kv hkv]; exact tParams_safe
  · intro l hl sh hsh; rw [show sh.params = tParams from all l hl _ hsh]; exact List.mem_singleton.2 rfl

end Verif
