import Verif.Proofs.Ids
import Verif.Model.SigBase
/-! Signature parameters and signature headers: text form and parsing. -/
namespace Verif
open Sfv Spec

theorem disp_ne_nil (i : CId) : i.disp ≠ [] := by
  obtain ⟨u, hu⟩ := disp_shape i; rw [hu]; simp

theorem joinIds_fold (l : List CId) (acc : Str) (h : acc ≠ []) :
    l.foldl (fun acc v => if acc = [] then v.disp else acc ++ ' ' :: v.disp) acc =
      acc ++ l.flatMap (fun i => ' ' :: i.disp) := by
  induction l generalizing acc with
  | nil => simp
  | cons a t ih =>
    simp only [List.foldl_cons, h, if_false, List.flatMap_cons]
    rw [ih _ (by simp)]
    simp

theorem joinIds_eq (l : List CId) : joinIds l = join [' '] (l.map CId.disp) := by
  cases l with
  | nil => rfl
  | cons a t =>
    unfold joinIds
    simp only [List.foldl_cons, if_true]
    rw [joinIds_fold _ _ (disp_ne_nil a)]
    induction t generalizing a with
    | nil => simp
    | cons b t ih =>
      rw [List.map_cons, join_cons _ _ (by simp), ← ih b]
      simp

/-- One timestamp as a parameter list. -/
def kvNum (name : Str) : Option UInt64 → Params
  | none => []
  | some t => [(name, .int t.toNat)]

def kvText (name : Str) : Option Str → Params
  | none => []
  | some s => [(name, .str s)]

/-- The structured field parameters that stand for signature parameters. -/
def paramsKV (p : SigParams) : Params :=
  kvNum (c! "created") p.created ++ kvNum (c! "expires") p.expires ++ kvText (c! "nonce") p.nonce ++
    kvText (c! "alg") p.alg ++ kvText (c! "keyid") p.keyid ++ kvText (c! "tag") p.tag

def paramsEntry (p : SigParams) : Entry := .inner ⟨p.covered.map idItem, paramsKV p⟩

theorem dispNum_eq (name : Str) (o : Option UInt64) : dispNum name o = serParams (kvNum name o) := by
  cases o with
  | none => rfl
  | some t => simp [dispNum, kvNum, serParams, serParam, serBare, serInt]

theorem dispText_eq (name : Str) {o : Option Str} (h : ∀ s, o = some s → SafeText s) :
    dispText name o = serParams (kvText name o) := by
  cases o with
  | none => rfl
  | some t => simp [dispText, kvText, serParams, serParam, serBare, escStr_safe (h t rfl)]

theorem serParams_append (a b : Params) : serParams (a ++ b) = serParams a ++ serParams b := by simp [serParams]

theorem params_disp_eq {p : SigParams} (h : SafeParams p) : p.disp = serEntry (paramsEntry p) := by
  unfold SigParams.disp
  simp only [serEntry, paramsEntry, serInner, paramsKV, serParams_append]
  rw [joinIds_eq, dispNum_eq, dispNum_eq, dispText_eq _ h.nonce, dispText_eq _ h.alg, dispText_eq _ h.keyid, dispText_eq _ h.tag,
    List.map_map]
  congr 3
  apply List.map_congr_left
  intro i hi
  exact disp_eq_ser (h.ids i hi)

theorem paramsKV_legal {p : SigParams} (h : SafeParams p) : LegalParams (paramsKV p) := by
  constructor
  · obtain ⟨c, e, n, a, k, t, ids⟩ := p
    cases c <;> cases e <;> cases n <;> cases a <;> cases k <;> cases t <;> simp [paramsKV, kvNum, kvText]
  · have num : ∀ {name : Str} {o : Option UInt64}, LegalKey name → (∀ t, o = some t → t.toNat < 10 ^ 15) →
        ∀ kv ∈ kvNum name o, LegalKey kv.1 ∧ LegalBare kv.2 := by
      intro name o hk ho kv hkv
      cases o with
      | none => simp [kvNum] at hkv
      | some t =>
        simp [kvNum] at hkv; subst hkv
        refine ⟨hk, ?_⟩
        show (t.toNat : Int).natAbs < 10 ^ 15
        rw [Int.natAbs_natCast]; exact ho t rfl
    have txt : ∀ {name : Str} {o : Option Str}, LegalKey name → (∀ t, o = some t → SafeText t) →
        ∀ kv ∈ kvText name o, LegalKey kv.1 ∧ LegalBare kv.2 := by
      intro name o hk ho kv hkv
      cases o with
      | none => simp [kvText] at hkv
      | some t =>
        simp [kvText] at hkv; subst hkv
        exact ⟨hk, safe_printable (ho t rfl)⟩
    intro kv hkv
    simp only [paramsKV, List.mem_append, or_assoc] at hkv
    rcases hkv with hkv | hkv | hkv | hkv | hkv | hkv
    · exact num (by decide) h.created kv hkv
    · exact num (by decide) h.expires kv hkv
    · exact txt (by decide) h.nonce kv hkv
    · exact txt (by decide) h.alg kv hkv
    · exact txt (by decide) h.keyid kv hkv
    · exact txt (by decide) h.tag kv hkv

theorem paramsEntry_legal {p : SigParams} (h : SafeParams p) : LegalEntry (paramsEntry p) := by
  refine ⟨?_, paramsKV_legal h⟩
  intro i hi
  obtain ⟨j, hj, rfl⟩ := List.mem_map.1 hi
  exact idItem_legal (h.ids j hj)

theorem asTime_nat (t : UInt64) : asTime (.int t.toNat) = .ok (some t) := by
  show asTime (.int (Int.ofNat t.toNat)) = _
  simp [asTime]

theorem setKVs_append (p : SigParams) (a b : Params) :
    p.setKVs (a ++ b) = (p.setKVs a >>= fun q => q.setKVs b) := by
  induction a generalizing p with
  | nil => rfl
  | cons x t ih =>
    simp only [List.cons_append, SigParams.setKVs]
    cases p.setKV x with
    | ok q => simp only [Res.bind_ok]; exact ih q
    | err e => rfl
    | panic => rfl

theorem setKVs_paramsKV (p : SigParams) : SigParams.setKVs { covered := p.covered } (paramsKV p) = .ok p := by
  obtain ⟨c, e, n, a, k, t, ids⟩ := p
  cases c <;> cases e <;> cases n <;> cases a <;> cases k <;> cases t <;>
    simp [paramsKV, kvNum, kvText, SigParams.setKVs, SigParams.setKV, asTime_nat, asString]

theorem SafeParams.unique {p : SigParams} (h : SafeParams p) : hasUnique p.covered = true :=
  (hasUnique_iff (fun i hi => labels_nodup (h.ids i hi).distinct)).2 h.distinct

theorem ofEntry_paramsEntry {p : SigParams} (h : SafeParams p) : SigParams.ofEntry (paramsEntry p) = .ok p := by
  unfold paramsEntry SigParams.ofEntry
  simp only
  rw [Res.collect_map, Res.collect_ok_of (g := id) (fun i hi => by
    show CId.ofStr (serItem (idItem i)) = _
    rw [← disp_eq_ser (h.ids i hi)]; exact ofStr_disp (h.ids i hi))]
  simp only [Res.bind_ok, List.map_id, SafeParams.unique h, not_true, if_false]
  exact setKVs_paramsKV p

/-- Parsing the text of safe parameters gives the parameters. -/
theorem params_ofStr_disp {p : SigParams} (h : SafeParams p) : SigParams.ofStr p.disp = .ok p := by
  unfold SigParams.ofStr
  rw [params_disp_eq h, parseList_ser (l := [paramsEntry p]) (by
    intro e he; simp at he; subst he; exact paramsEntry_legal h) (by simp [serList])]
  exact ofEntry_paramsEntry h

/-! ### Signature headers -/

def inputMember (h : SigHeaders) : Str × Entry := (h.name, paramsEntry h.params)
def sigMember (h : SigHeaders) : Str × Entry := (h.name, .item ⟨.bytes h.signature, []⟩)

theorem inputValue_eq {h : SigHeaders} (hp : SafeParams h.params) : h.inputValue = serMember (inputMember h) := by
  unfold SigHeaders.inputValue inputMember
  rw [serMember_other _ (by intro p; simp [paramsEntry]), params_disp_eq hp]

theorem signatureValue_eq (h : SigHeaders) : h.signatureValue = serMember (sigMember h) := by
  unfold SigHeaders.signatureValue sigMember
  rw [serMember_other _ (by intro p; simp)]
  simp [serEntry, serItem, serBare, serParams]

/-- Header objects that can be written: a legal name and safe parameters. -/
structure SafeHeaders (h : SigHeaders) : Prop where
  name : LegalKey h.name
  params : SafeParams h.params

theorem inputMember_legal {h : SigHeaders} (hs : SafeHeaders h) : LegalKey (inputMember h).1 ∧ LegalEntry (inputMember h).2 :=
  ⟨hs.name, paramsEntry_legal hs.params⟩

theorem sigMember_legal {h : SigHeaders} (hs : LegalKey h.name) : LegalKey (sigMember h).1 ∧ LegalEntry (sigMember h).2 :=
  ⟨hs, trivial, by simp [LegalParams]⟩

/-! ### Parsing a pair of dictionaries -/

/-- The part of `try_parse` after the two texts are parsed. -/
def pairParse (signature input : Dict) : Res SigErr (List (Str × SigHeaders)) :=
  if signature.length ≠ input.length then .err .buildSignatureHeader
  else if ¬ signature.all (fun kv => (imGet input kv.1).isSome) then .err .buildSignatureHeader
  else if ¬ signature.all (fun kv => (entryBytes kv.2).isSome) then .err .buildSignatureHeader
  else if ¬ input.all (fun kv => entryIsInner kv.2) then .err .buildSignatureHeader
  else do
    let l ← Res.collect (parseOne signature) input
    .ok (imOfList l)

theorem tryParse_eq (s t : Str) : SigHeaders.tryParse s t =
    (Res.ofOption .parseSFV (parseDict t) >>= fun input => Res.ofOption .parseSFV (parseDict s) >>= fun signature =>
      pairParse signature input) := rfl

theorem tryParse_of {s t : Str} {a b : Dict} (h1 : parseDict s = some a) (h2 : parseDict t = some b) :
    SigHeaders.tryParse s t = pairParse a b := by rw [tryParse_eq, h1, h2]; rfl

/-- What `try_parse` accepts: the same labels, byte sequences against inner lists, each parsed. -/
theorem pairParse_ok {a b : Dict} {l : List (Str × SigHeaders)} (hb : (b.map Prod.fst).Nodup) (h : pairParse a b = .ok l) :
    a.length = b.length ∧ (∀ k ∈ a.map Prod.fst, k ∈ b.map Prod.fst) ∧ (∀ kv ∈ a, (entryBytes kv.2).isSome) ∧
    (∀ kv ∈ b, entryIsInner kv.2) ∧ List.Forall₂ (fun kv r => parseOne a kv = .ok r) b l := by
  unfold pairParse at h
  split at h
  · cases h
  rename_i h1
  split at h
  · cases h
  rename_i h2
  split at h
  · cases h
  rename_i h3
  split at h
  · cases h
  rename_i h4
  obtain ⟨l', h5, h'⟩ := Res.bind_eq_ok.1 h
  clear h
  have h6 := Res.collect_ok_iff.1 h5
  simp only [not_not, ne_eq, List.all_eq_true] at h1 h2 h3 h4
  have key : l'.map Prod.fst = b.map Prod.fst := by
    clear h5 h' hb h4 h2 h1
    induction h6 with
    | nil => rfl
    | @cons x y _ _ hx _ ih =>
      rw [List.map_cons, List.map_cons, ih]
      obtain ⟨p, _, hx⟩ := Res.bind_eq_ok.1 hx
      split at hx
      · injection hx with hx; rw [← hx]
      · cases hx
  injection h' with h
  rw [imOfList_of_nodup (by rw [key]; exact hb)] at h
  subst h
  refine ⟨h1, ?_, h3, h4, h6⟩
  intro k hk
  obtain ⟨kv, hkv, rfl⟩ := List.mem_map.1 hk
  exact imGet_isSome.1 (h2 kv hkv)

/-- The dictionaries of a list of headers with distinct names. -/
theorem pairParse_members {hs : List SigHeaders} (hsafe : ∀ h ∈ hs, SafeHeaders h) (hd : (hs.map (·.name)).Nodup) :
    pairParse (hs.map sigMember) (hs.map inputMember) = .ok (hs.map (fun h => (h.name, h))) := by
  have k1 : (hs.map sigMember).map Prod.fst = hs.map (·.name) := by rw [List.map_map]; rfl
  have k2 : (hs.map inputMember).map Prod.fst = hs.map (·.name) := by rw [List.map_map]; rfl
  unfold pairParse
  rw [if_neg (by simp), if_neg, if_neg, if_neg]
  · rw [Res.collect_map, Res.collect_ok_of (g := fun h : SigHeaders => (h.name, h))]
    · simp only [Res.bind_ok]
      rw [imOfList_of_nodup (by rw [List.map_map]; exact hd)]
    · intro h hh
      unfold parseOne
      have : SigParams.ofEntry (inputMember h).2 = .ok h.params := ofEntry_paramsEntry (hsafe h hh).params
      rw [this]
      simp only [Res.bind_ok]
      have hg : imGet (hs.map sigMember) (inputMember h).1 = some (.item ⟨.bytes h.signature, []⟩) :=
        imGet_of_mem (by rw [k1]; exact hd) (List.mem_map.2 ⟨h, hh, rfl⟩)
      rw [hg]
      rfl
  · simp [inputMember, paramsEntry, entryIsInner]
  · simp [sigMember, entryBytes]
  · simp only [not_not, List.all_eq_true]
    intro kv hkv
    obtain ⟨h, hh, rfl⟩ := List.mem_map.1 hkv
    exact imGet_isSome.2 (by rw [k2]; exact List.mem_map.2 ⟨h, hh, rfl⟩)

theorem parseDict_members {l : List (Str × Entry)} (hl : ∀ kv ∈ l, LegalKey kv.1 ∧ LegalEntry kv.2) :
    parseDict (join [',', ' '] (l.map serMember)) = some (imOfList l) := by
  have hp := parseSep_ser parseMember_prog l (fun e he r hr => parseMember_ser (hl e he).1 (hl e he).2 hr)
    (fun e he => serMember_head _ (hl e he).1)
  unfold parseDict
  rw [dropWhile_stop (join_head_not_sp (by
    intro x hx
    obtain ⟨e, he, rfl⟩ := List.mem_map.1 hx
    exact serMember_head _ (hl e he).1)), hp]

/-- Reading back the two header texts of a list of headers with distinct names. -/
theorem tryParse_members {hs : List SigHeaders} (hsafe : ∀ h ∈ hs, SafeHeaders h) (hd : (hs.map (·.name)).Nodup) :
    SigHeaders.tryParse (join (c! ", ") (hs.map (·.signatureValue))) (join (c! ", ") (hs.map (·.inputValue))) =
      .ok (hs.map (fun h => (h.name, h))) := by
  have e1 : hs.map (·.signatureValue) = (hs.map sigMember).map serMember := by
    rw [List.map_map]; exact List.map_congr_left (fun h _ => signatureValue_eq h)
  have e2 : hs.map (·.inputValue) = (hs.map inputMember).map serMember := by
    rw [List.map_map]; exact List.map_congr_left (fun h hh => inputValue_eq (hsafe h hh).params)
  rw [e1, e2, tryParse_of (parseDict_members _) (parseDict_members _)]
  · rw [imOfList_of_nodup (by rw [List.map_map]; exact hd), imOfList_of_nodup (by rw [List.map_map]; exact hd)]
    exact pairParse_members hsafe hd
  · intro kv hkv
    obtain ⟨h, hh, rfl⟩ := List.mem_map.1 hkv
    exact sigMember_legal (hsafe h hh).name
  · intro kv hkv
    obtain ⟨h, hh, rfl⟩ := List.mem_map.1 hkv
    exact inputMember_legal (hsafe h hh)

end Verif
