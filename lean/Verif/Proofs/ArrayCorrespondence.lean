import Verif.Model.ArrayCorrespondence

namespace Gpy
open Np

variable {α : Type*} [LinearOrder α]

theorem arrayCorrespondence_eq (A B : List α) (hB : B ≠ []) :
    arrayCorrespondence A B = some (A.map (fun x => if x ∈ B then (B.idxOf x : Int) else -1)) := by
  set uB := npUnique B with huB
  have hnd : uB.Nodup := nodup_npUnique B
  set cat := uB ++ A with hcat
  have hinv : (npUniqueInverse cat).drop uB.length = A.map (fun x => (npUnique cat).idxOf x) := by
    unfold npUniqueInverse
    rw [hcat, List.map_append, List.drop_left' (by simp)]
  have hmemcat : ∀ x ∈ A, x ∈ npUnique cat := fun x hx => mem_npUnique.mpr (by simp [hcat, hx])
  have h1 : npTake (npUniqueIndex cat) (((npUniqueInverse cat).drop uB.length).map (fun i : Nat => (i : Int)))
      = some (A.map (fun x => cat.idxOf x)) := by
    unfold npTake
    rw [hinv, List.map_map, List.mapM_map]
    apply mapM_eq_some_map
    intro x hx
    simp only [Function.comp, npGet?_natCast]
    unfold npUniqueIndex
    rw [List.getElem?_map, List.getElem?_eq_getElem (List.idxOf_lt_length_iff.mpr (hmemcat x hx))]
    simp
  set imap : List Int := A.map (fun x => if x ∈ B then (uB.idxOf x : Int) else -1) with himap
  have h2 : (A.map (fun x => cat.idxOf x)).map (fun x : Nat => if uB.length ≤ x then (-1 : Int) else (x : Int)) = imap := by
    rw [List.map_map, himap]
    apply List.map_congr_left
    intro x hx
    simp only [Function.comp]
    by_cases hxB : x ∈ B
    · have hxu : x ∈ uB := mem_npUnique.mpr hxB
      have : cat.idxOf x = uB.idxOf x := by rw [hcat, List.idxOf_append, if_pos hxu]
      have hlt := List.idxOf_lt_length_iff.mpr hxu
      rw [this, if_neg (by omega), if_pos hxB]
    · have hxu : x ∉ uB := fun h => hxB (mem_npUnique.mp h)
      have : uB.length ≤ cat.idxOf x := by
        rw [hcat, List.idxOf_append, if_neg hxu]; omega
      rw [if_pos this, if_neg hxB]
  have hmne : npUniqueIndex B ≠ [] := by
    unfold npUniqueIndex
    simpa [npUnique_eq_nil] using hB
  have h3 : npTake (npUniqueIndex B) imap =
      some (A.map (fun x => if x ∈ B then B.idxOf x else (npUniqueIndex B).getLast hmne)) := by
    unfold npTake
    rw [himap, List.mapM_map]
    apply mapM_eq_some_map
    intro x _
    simp only [Function.comp]
    by_cases hx : x ∈ B
    · have hxu : x ∈ uB := mem_npUnique.mpr hx
      rw [if_pos hx, if_pos hx, npGet?_natCast]
      unfold npUniqueIndex
      rw [List.getElem?_map, List.getElem?_eq_getElem (List.idxOf_lt_length_iff.mpr hxu)]
      simp
    · rw [if_neg hx, if_neg hx, npGet?_neg_one hmne]
  unfold arrayCorrespondence
  simp only [← huB, ← hcat, h1, Option.bind_eq_bind, Option.bind_some, h2, h3, Option.pure_def]
  rw [himap, List.zipWith_map, List.zipWith_self]
  congr 1
  apply List.map_congr_left
  intro x _
  by_cases hx : x ∈ B <;> simp [hx]

theorem arrayCorrespondence_nil (B : List α) : arrayCorrespondence [] B = some [] := by
  unfold arrayCorrespondence
  have : (npUniqueInverse (npUnique B ++ [])).drop (npUnique B).length = [] := by
    apply List.drop_eq_nil_of_le; simp [npUniqueInverse]
  simp only [this]; rfl

theorem arrayCorrespondence_empty_B (A : List α) (hA : A ≠ []) : arrayCorrespondence A [] = none := by
  obtain ⟨a, t, rfl⟩ := List.exists_cons_of_ne_nil hA
  have : npUnique ([] : List α) = [] := rfl
  have h1 : npUniqueIndex ([] : List α) = [] := rfl
  unfold arrayCorrespondence
  simp only [this, h1, List.nil_append, List.length_nil, List.drop_zero, Nat.zero_le, if_true]
  simp only [npUniqueInverse, List.map_cons, npTake, List.mapM_cons, Option.bind_eq_bind]
  rcases npGet? (npUniqueIndex (a :: t)) _ with _ | x
  · rfl
  · rcases (List.mapM (npGet? (npUniqueIndex (a :: t))) _) with _ | l
    · rfl
    · rfl

end Gpy
