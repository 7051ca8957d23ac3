import Mathlib.Data.List.Sort
import Mathlib.Data.List.Dedup
import Mathlib.Data.List.Count
import Mathlib.Tactic.Linarith

/-!
# numpy primitives used by the model

`npUnique` & co model the documented contract of `numpy.unique` (sorted distinct values, index of the first occurrence,
inverse, counts); `npGet?` models indexing with Python's negative indices and `IndexError`.
-/

namespace Np

variable {α β γ : Type*}

/-- `a[i]` for a one-dimensional numpy array: negative indices count from the end, out of range raises `IndexError`
(`none`). -/
def npGet? (l : List β) (i : Int) : Option β :=
  if 0 ≤ i then l[i.toNat]?
  else if -(l.length : Int) ≤ i then l[(i + l.length).toNat]?
  else none

/-- `a[idx]` for an integer index array `idx` (fancy indexing); any index out of range raises `IndexError`. -/
def npTake (l : List β) (idx : List Int) : Option (List β) := idx.mapM (npGet? l)

section
variable [LinearOrder α]

/-- `np.unique(l)` : sorted distinct values. -/
def npUnique (l : List α) : List α := l.dedup.insertionSort (· ≤ ·)

/-- `np.unique(l, return_index=True)[1]` : index of the first occurrence of every unique value. -/
def npUniqueIndex (l : List α) : List Nat := (npUnique l).map (fun x => l.idxOf x)

/-- `np.unique(l, return_inverse=True)[1]` : position of every entry of `l` in the unique list. -/
def npUniqueInverse (l : List α) : List Nat := l.map (fun x => (npUnique l).idxOf x)

/-- `np.unique(l, return_counts=True)[1]`. -/
def npUniqueCounts (l : List α) : List Nat := (npUnique l).map (fun x => l.count x)

end

/-- Boolean-mask indexing `a[mask]`. -/
def npMask (l : List β) (mask : List Bool) : List β :=
  ((l.zip mask).filter (fun p => p.2)).map Prod.fst

/-- `np.where(mask)[0]`. -/
def npWhere (mask : List Bool) : List Nat := (List.range mask.length).filter (fun i => mask[i]? == some true)

section lemmas
variable [LinearOrder α]

theorem mem_npUnique {l : List α} {x : α} : x ∈ npUnique l ↔ x ∈ l := by
  simp [npUnique, List.mem_insertionSort]

theorem npUnique_perm (l : List α) : (npUnique l).Perm l.dedup := List.perm_insertionSort _ _

theorem nodup_npUnique (l : List α) : (npUnique l).Nodup :=
  (npUnique_perm l).nodup_iff.mpr (List.nodup_dedup l)

theorem npUnique_pairwise_lt (l : List α) : (npUnique l).Pairwise (· < ·) := by
  have h1 : (npUnique l).Pairwise (· ≤ ·) := List.pairwise_insertionSort _ _
  have h2 : (npUnique l).Pairwise (· ≠ ·) := nodup_npUnique l
  exact (h1.and h2).imp (fun h => lt_of_le_of_ne h.1 h.2)

theorem npUnique_length_le (l : List α) : (npUnique l).length ≤ l.length := by
  rw [(npUnique_perm l).length_eq]; exact (List.dedup_sublist l).length_le

/-- A strictly increasing list is its own `unique`. -/
theorem npUnique_eq_self {l : List α} (h : l.Pairwise (· < ·)) : npUnique l = l := by
  unfold npUnique
  have hn : l.Nodup := h.imp (fun h => ne_of_lt h)
  rw [hn.dedup, List.Pairwise.insertionSort_eq (h.imp le_of_lt)]

/-- Two lists with the same members have the same `unique`. -/
theorem npUnique_congr {l l' : List α} (h : ∀ x, x ∈ l ↔ x ∈ l') : npUnique l = npUnique l' := by
  have hp : (npUnique l).Perm (npUnique l') := by
    rw [List.perm_ext_iff_of_nodup (nodup_npUnique l) (nodup_npUnique l')]
    intro a; rw [mem_npUnique, mem_npUnique, h]
  exact hp.eq_of_pairwise (fun a b _ _ h1 h2 => absurd h2 (lt_asymm h1))
    (npUnique_pairwise_lt l) (npUnique_pairwise_lt l')

theorem npUnique_eq_nil {l : List α} : npUnique l = [] ↔ l = [] := by
  constructor
  · intro h
    cases l with
    | nil => rfl
    | cons a t =>
      have : a ∈ npUnique (a :: t) := mem_npUnique.mpr (by simp)
      rw [h] at this; simp at this
  · rintro rfl; rfl

end lemmas

theorem mapM_eq_some_map {f : β → Option γ} {g : β → γ} {l : List β} (h : ∀ x ∈ l, f x = some (g x)) :
    l.mapM f = some (l.map g) := by
  induction l with
  | nil => rfl
  | cons a t ih =>
    rw [List.mapM_cons, h a (by simp), ih (fun x hx => h x (by simp [hx]))]
    rfl

theorem npGet?_natCast (l : List β) (i : Nat) : npGet? l (i : Int) = l[i]? := by
  simp [npGet?]

theorem npGet?_neg_one {l : List β} (h : l ≠ []) : npGet? l (-1) = some (l.getLast h) := by
  have : 0 < l.length := List.length_pos_iff.mpr h
  unfold npGet?
  rw [if_neg (by omega), if_pos (by omega)]
  have : ((-1 : Int) + l.length).toNat = l.length - 1 := by omega
  rw [this, List.getLast_eq_getElem, List.getElem?_eq_getElem (by omega)]

/-- masks that are computed from a map are filters -/
theorem npMask_map_map (l : List α) (f : α → β) (p : α → Bool) :
    npMask (l.map f) (l.map p) = (l.filter p).map f := by
  unfold npMask
  induction l with
  | nil => rfl
  | cons a t ih =>
    simp only [List.map_cons, List.zip_cons_cons, List.filter_cons]
    by_cases h : p a <;> simp [h, ih]

theorem npMask_self_map (l : List α) (p : α → Bool) :
    npMask l (l.map p) = l.filter p := by
  have := npMask_map_map l id p
  simpa using this

end Np
