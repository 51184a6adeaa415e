import Verif.Model.Hyper
import Verif.Model.Digest
import Mathlib.Data.Finset.Card
/-!
`HeaderMap` of crate http seen from outside: a type of maps with a limited size. `append` and `insert` panic when the map would become too
large. The map decides itself how it stores the lines and when it is full; here this is a parameter.
-/
namespace Verif
open Sfv

/-- Header maps that hold the same lines for every name, each in the same order. -/
def SameMap (h h' : Headers) : Prop := ∀ n, h.getAll n = h'.getAll n

/-- An implementation of header maps. `none` is a panic (`size overflows MAX_SIZE`). `lines` lists what a map holds; the order of lines with
different names is up to the implementation. `room` is a number of lines that surely fit. -/
structure MapLib where
  Map : Type
  lines : Map → Headers
  append : Map → Str → Bytes → Option Map
  insert : Map → Str → Bytes → Option Map
  room : Map → Nat
  append_lines : ∀ {m n v m'}, append m n v = some m' → SameMap (lines m') ((lines m).append n v)
  insert_lines : ∀ {m n v m'}, insert m n v = some m' → SameMap (lines m') ((lines m).insert n v)
  append_room : ∀ {m} n v, 0 < room m → ∃ m', append m n v = some m' ∧ room m ≤ room m' + 1
  insert_room : ∀ {m} n v, 0 < room m → ∃ m', insert m n v = some m'

/-- The end of a call that changes a header map in place: it returned, leaving a map behind, or panicked. -/
inductive Ended (M : Type) where
  | returned (map : M) (r : Except HyperErr Unit)
  | panicked

/-- One step of the header loop, hyper_http.rs 303-311 and 427-435. -/
def MapLib.appendOne (L : MapLib) (h : L.Map) (s : SigHeaders) : Ended L.Map :=
  match hvOfStr s.inputValue with
  | none => .returned h (.error .invalidHeaderValue)
  | some v =>
    match L.append h hSignatureInput v with
    | none => .panicked
    | some h1 =>
      match hvOfStr s.signatureValue with
      | none => .returned h1 (.error .invalidHeaderValue)
      | some w =>
        match L.append h1 hSignature w with
        | none => .panicked
        | some h2 => .returned h2 (.ok ())

/-- The header loop, hyper_http.rs 303-311 and 427-435. -/
def MapLib.appendAll (L : MapLib) (h : L.Map) : List SigHeaders → Ended L.Map
  | [] => .returned h (.ok ())
  | s :: t =>
    match L.appendOne h s with
    | .returned h' (.ok ()) => L.appendAll h' t
    | r => r

/-- `set_message_signatures`, hyper_http.rs 280-312 and 403-436, on a message `m` whose header map is `h`. -/
def MapLib.setSignatures (L : MapLib) (m : Msg) (h : L.Map) (l : List (SigParams × SigningKey × Option Str)) (reqFor : Option Request) : Ended L.Map :=
  match (do let bs ← signBases (m.withHeaders (L.lines h)) l reqFor; signAll bs : Res HyperErr (List SigHeaders)) with
  | .ok hs => L.appendAll h hs
  | .err e => .returned h (.error e)
  | .panic => .panicked

/-- `set_content_digest`, hyper_content_digest.rs 111-128 and 166-183; the map and the body are consumed. -/
def MapLib.setDigest (L : MapLib) (t : DigestType) (h : L.Map) (body : Body) : Res DigestErr (L.Map × Body) :=
  match body with
  | .fail => .err .httpBody
  | .data b =>
    match hvOfStr (digestText t b) with
    | none => .panic
    | some v =>
      match L.insert h hContentDigest v with
      | none => .panic
      | some h' => .ok (h', .data b)

/-- Number of different names. -/
def nameCount (h : Headers) : Nat := (h.map Prod.fst).toFinset.card

theorem nameCount_append (h : Headers) (n : Str) (v : Bytes) : nameCount (h.append n v) ≤ nameCount h + 1 := by
  simp only [nameCount, Headers.append, List.map_append, List.toFinset_append]
  refine (Finset.card_union_le _ _).trans ?_
  simp

theorem nameCount_insert (h : Headers) (n : Str) (v : Bytes) : nameCount (h.insert n v) ≤ nameCount h + 1 := by
  refine (nameCount_append (h.filter fun kv => kv.1 != n) n v).trans (Nat.succ_le_succ (Finset.card_le_card ?_))
  intro x hx
  simp only [List.mem_toFinset, List.mem_map, List.mem_filter] at hx ⊢
  obtain ⟨kv, ⟨h1, _⟩, h2⟩ := hx
  exact ⟨kv, h1, h2⟩

/-- A simple implementation: lists of lines with at most `cap` different names. -/
def capped (cap : Nat) : MapLib where
  Map := Headers
  lines h := h
  append h n v := if nameCount (h.append n v) ≤ cap then some (h.append n v) else none
  insert h n v := if nameCount (h.insert n v) ≤ cap then some (h.insert n v) else none
  room h := cap - nameCount h
  append_lines := by
    intro m n v m' h
    split at h
    · injection h with h; subst h; exact fun _ => rfl
    · cases h
  insert_lines := by
    intro m n v m' h
    split at h
    · injection h with h; subst h; exact fun _ => rfl
    · cases h
  append_room := by
    intro m n v h
    have := nameCount_append m n v
    exact ⟨m.append n v, if_pos (by omega), by omega⟩
  insert_room := by
    intro m n v h
    have := nameCount_insert m n v
    exact ⟨m.insert n v, if_pos (by omega)⟩

end Verif
