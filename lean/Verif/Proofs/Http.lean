import Verif.Model.Http
import Verif.Proofs.Text
import Verif.Spec.Text
/-! Header values and header maps. -/
namespace Verif
open Spec

theorem utf8Char_ascii {c : Char} (h : c.toNat < 128) : String.utf8EncodeChar c = [UInt8.ofNat c.toNat] := by
  unfold String.utf8EncodeChar
  have : c.val.toNat ≤ 0x7f := by have : c.val.toNat = c.toNat := rfl; omega
  simp only [this, if_true]
  rfl

theorem utf8_ascii {s : Str} (h : ∀ c ∈ s, c.toNat < 128) : utf8 s = s.map (fun c => UInt8.ofNat c.toNat) := by
  induction s with
  | nil => rfl
  | cons c t ih =>
    simp only [utf8, List.flatMap_cons, List.map_cons] at *
    rw [utf8Char_ascii (h c (by simp)), ih (fun x hx => h x (by simp [hx]))]
    rfl

theorem char_u8 {c : Char} (h : c.toNat < 128) : (UInt8.ofNat c.toNat).toNat = c.toNat := by
  simp [UInt8.toNat_ofNat']; omega

theorem hvOfStr_printable {s : Str} (h : ∀ c ∈ s, Printable c) : hvOfStr s = some (utf8 s) := by
  unfold hvOfStr
  rw [if_pos]
  rw [utf8_ascii (fun c hc => by have := h c hc; unfold Printable at this; omega), List.all_eq_true]
  intro x hx
  obtain ⟨c, hc, rfl⟩ := List.mem_map.1 hx
  have hp := h c hc
  unfold Printable at hp
  have hn := char_u8 (c := c) (by omega)
  simp only [hvByteOk, hn]
  have : c.toNat ≠ 127 := by omega
  simp [hp.1, this]

theorem hvToStr_utf8 {s : Str} (h : ∀ c ∈ s, Printable c) : hvToStr (utf8 s) = some s := by
  unfold hvToStr
  rw [utf8_ascii (fun c hc => by have := h c hc; unfold Printable at this; omega)]
  rw [if_pos]
  · congr 1
    rw [List.map_map]
    conv => rhs; rw [← List.map_id s]
    apply List.map_congr_left
    intro c hc
    have hp := h c hc
    unfold Printable at hp
    simp only [Function.comp, id]
    rw [char_u8 (by omega), Char.ofNat_toNat]
  · rw [List.all_eq_true]
    intro x hx
    obtain ⟨c, hc, rfl⟩ := List.mem_map.1 hx
    have hp := h c hc
    unfold Printable at hp
    have hn := char_u8 (c := c) (by omega)
    simp only [hvVisible, hn]
    have : c.toNat < 127 := by omega
    simp [hp.1, this]

theorem char_ofNat_toNat {n : Nat} (h : n < 256) : (Char.ofNat n).toNat = n := by
  have hv : n.isValidChar := Or.inl (by omega)
  have : Char.ofNat n = Char.ofNatAux n hv := by unfold Char.ofNat; rw [dif_pos hv]
  rw [this]
  rfl

/-- A header value read as text: exactly the values of visible ASCII and tabs, and the text has the same bytes. -/
theorem hvToStr_some {b : Bytes} {s : Str} (h : hvToStr b = some s) :
    utf8 s = b ∧ ∀ c ∈ s, Printable c ∨ c = '\t' := by
  unfold hvToStr at h
  split at h
  · rename_i ha
    injection h with h; subst h
    rw [List.all_eq_true] at ha
    have key : ∀ x ∈ b, (Char.ofNat x.toNat).toNat = x.toNat ∧ (Printable (Char.ofNat x.toNat) ∨ Char.ofNat x.toNat = '\t') := by
      intro x hx
      have h1 := char_ofNat_toNat (n := x.toNat) (by have := x.toNat_lt; omega)
      refine ⟨h1, ?_⟩
      have := ha x hx
      simp only [hvVisible, Bool.or_eq_true, Bool.and_eq_true, decide_eq_true_eq, beq_iff_eq] at this
      rcases this with h2 | h2
      · left; unfold Printable; omega
      · right; rw [h2]
    constructor
    · rw [utf8_ascii, List.map_map]
      · conv => rhs; rw [← List.map_id b]
        apply List.map_congr_left
        intro x hx
        simp only [Function.comp, id, (key x hx).1, UInt8.ofNat_toNat]
      · intro c hc
        obtain ⟨x, hx, rfl⟩ := List.mem_map.1 hc
        rcases (key x hx).2 with h | h
        · unfold Printable at h; omega
        · rw [h]; decide
    · intro c hc
      obtain ⟨x, hx, rfl⟩ := List.mem_map.1 hc
      exact (key x hx).2
  · cases h

/-! ### Header maps -/

theorem getAll_of_key {h : Headers} {n k : Str} (hk : hdrKey n = some k) :
    h.getAll n = (h.filter (fun kv => kv.1 == k)).map Prod.snd := by
  unfold Headers.getAll; rw [hk]

theorem getAll_append_same {h : Headers} {n k : Str} {v : Bytes} (hk : hdrKey n = some k) :
    (h.append k v).getAll n = h.getAll n ++ [v] := by
  rw [getAll_of_key hk, getAll_of_key hk, Headers.append, List.filter_append]
  simp

theorem getAll_append_other {h : Headers} {n k : Str} {v : Bytes} (hk : hdrKey n ≠ some k) :
    (h.append k v).getAll n = h.getAll n := by
  unfold Headers.getAll
  cases hn : hdrKey n with
  | none => rfl
  | some k' =>
    have : k ≠ k' := fun e => hk (by rw [hn, e])
    simp [Headers.append, List.filter_append, this]

theorem getAll_insert_same {h : Headers} {n k : Str} {v : Bytes} (hk : hdrKey n = some k) :
    (h.insert k v).getAll n = [v] := by
  rw [getAll_of_key hk, Headers.insert, List.filter_append, List.filter_filter]
  rw [show (h.filter (fun a => (a.1 == k && a.1 != k))) = [] from by
    rw [List.filter_eq_nil_iff]; intro a _; simp]
  simp

theorem getAll_insert_other {h : Headers} {n k : Str} {v : Bytes} (hk : hdrKey n ≠ some k) :
    (h.insert k v).getAll n = h.getAll n := by
  unfold Headers.getAll
  cases hn : hdrKey n with
  | none => rfl
  | some k' =>
    have hne : k ≠ k' := fun e => hk (by rw [hn, e])
    simp only [Headers.insert, List.filter_append, List.filter_filter]
    rw [show ([(k, v)] : Headers).filter (fun kv => kv.1 == k') = [] from by simp [hne], List.append_nil]
    congr 1
    apply List.filter_congr
    intro a _
    by_cases ha : a.1 = k'
    · simp [ha, Ne.symm hne]
    · simp [ha]

end Verif
