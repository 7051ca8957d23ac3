import Verif.Model.Faces
import Verif.Proofs.UniqSplit
import Verif.Proofs.Edges

set_option autoImplicit false
namespace Gpy
open Np

theorem tri_sort_list (t : Tri) : [t.sort.a, t.sort.b, t.sort.c] = [t.a, t.b, t.c].insertionSort (· ≤ ·) := by
  unfold Tri.sort
  have hl : ([t.a, t.b, t.c].insertionSort (· ≤ ·)).length = 3 := by rw [List.length_insertionSort]; rfl
  match h : [t.a, t.b, t.c].insertionSort (· ≤ ·), hl with
  | [x, y, z], _ => rfl

theorem tri_ext_list {t u : Tri} (h : [t.a, t.b, t.c] = [u.a, u.b, u.c]) : t = u := by
  cases t; cases u; simp_all

theorem tri_sort_eq_iff {f g : Tri} : g.sort = f.sort ↔ SameTri f g := by
  unfold SameTri
  constructor
  · intro h
    have h1 := tri_sort_list g
    have h2 := tri_sort_list f
    rw [h, h2] at h1
    have p1 := List.perm_insertionSort (· ≤ ·) [g.a, g.b, g.c]
    have p2 := List.perm_insertionSort (· ≤ ·) [f.a, f.b, f.c]
    exact (p1.symm.trans (List.Perm.of_eq h1.symm)).trans p2
  · intro h
    apply tri_ext_list
    rw [tri_sort_list, tri_sort_list]
    exact List.Perm.eq_of_pairwise (fun _ _ _ _ h1 h2 => le_antisymm h1 h2) (List.pairwise_insertionSort _ _) (List.pairwise_insertionSort _ _)
      (((List.perm_insertionSort _ _).trans h).trans (List.perm_insertionSort _ _).symm)

theorem tri_sort_self_iff {f : Tri} : f.sort = f ↔ f.a ≤ f.b ∧ f.b ≤ f.c := by
  constructor
  · intro h
    have h1 := tri_sort_list f
    rw [h] at h1
    have := List.pairwise_insertionSort (· ≤ ·) [f.a, f.b, f.c]
    rw [← h1] at this
    simp at this
    exact ⟨this.1.1, this.2⟩
  · intro h
    apply tri_ext_list
    rw [tri_sort_list]
    apply List.Pairwise.insertionSort_eq
    simp
    omega

theorem tri_sort_sort (f : Tri) : f.sort.sort = f.sort := by
  rw [tri_sort_eq_iff]
  have := List.perm_insertionSort (· ≤ ·) [f.a, f.b, f.c]
  unfold SameTri
  rw [tri_sort_list]; exact this

/-- the faces in the order of `flat_hf` -/
def flatT (T : List Tet) : List Tri :=
  T.map (fun t => ⟨t.b, t.c, t.d⟩) ++ T.map (fun t => ⟨t.d, t.c, t.a⟩) ++ T.map (fun t => ⟨t.d, t.a, t.b⟩) ++ T.map (fun t => ⟨t.b, t.a, t.c⟩)

theorem flatT_perm (T : List Tet) : (flatT T).Perm (tetFaces T) := by
  unfold flatT tetFaces
  induction T with
  | nil => simp
  | cons t T ih =>
    have h : ∀ {β : Type} (x y z w : β) (A B C D : List β), (x :: A ++ y :: B ++ z :: C ++ w :: D).Perm (x :: y :: z :: w :: (A ++ B ++ C ++ D)) := by
      intro β x y z w A B C D
      classical
      rw [List.perm_iff_count]
      intro a
      simp only [List.count_append, List.count_cons]
      omega
    simp only [List.map_cons, List.flatMap_cons]
    refine (h _ _ _ _ _ _ _ _).trans ?_
    unfold Tet.tris
    exact (ih.cons _).cons _ |>.cons _ |>.cons _

theorem mem_flatT {T : List Tet} {f : Tri} : f ∈ flatT T ↔ f ∈ tetFaces T := (flatT_perm T).mem_iff

theorem faceIncid_eq (T : List Tet) (f : Tri) : faceIncid T f = ((flatT T).map Tri.sort).count f.sort := by
  unfold faceIncid
  rw [((flatT_perm T).symm.filter _).length_eq, List.count, List.countP_map, List.countP_eq_length_filter]
  congr 1
  apply List.filter_congr
  intro x _
  rw [Bool.eq_iff_iff]; simp [tri_sort_eq_iff]

theorem faces_eq {T : List Tet} (hT : T ≠ []) : faces T = some
    { F := gBdry (flatT T) Tri.sort ++ gInt (flatT T) Tri.sort
      boundaryIndices := List.range (gBdry (flatT T) Tri.sort).length
      interiorIndices := npWhere ((npUnique ((flatT T).map Tri.sort)).map (fun x => decide (((flatT T).map Tri.sort).count x > 1)))
      nonmanifoldIndices := npWhere ((npUnique ((flatT T).map Tri.sort)).map (fun x => decide (((flatT T).map Tri.sort).count x > 2))) } := by
  have h := gLength (flatT T) Tri.sort
  unfold faces halffaces
  rw [if_neg (by simpa using hT)]
  simp only [Option.bind_eq_bind, Option.bind_some, List.map_map, Function.comp_def]
  have hflat : ∀ (f0 f1 f2 f3 : Tet → Tri), (f0 = fun t => ⟨t.b, t.c, t.d⟩) → (f1 = fun t => ⟨t.d, t.c, t.a⟩) → (f2 = fun t => ⟨t.d, t.a, t.b⟩) →
      (f3 = fun t => ⟨t.b, t.a, t.c⟩) → T.map f0 ++ T.map f1 ++ T.map f2 ++ T.map f3 = flatT T := by
    rintro _ _ _ _ rfl rfl rfl rfl; rfl
  rw [hflat _ _ _ _ rfl rfl rfl rfl, gTake]
  simp only [Option.bind_some]
  change (if (gBdry (flatT T) Tri.sort ++ npMask (npUnique ((flatT T).map Tri.sort)) _).length ≠ (npUnique ((flatT T).map Tri.sort)).length then none else _) = _
  have hm := gMask (flatT T) Tri.sort (fun c => decide (c > 1))
  have hm' : npMask (npUnique ((flatT T).map Tri.sort)) ((npUniqueCounts ((flatT T).map Tri.sort)).map (fun c => decide (c > 1))) =
    gInt (flatT T) Tri.sort := hm
  rw [hm', if_neg (by simpa using h)]
  have e1 : ∀ k, (npUniqueCounts ((flatT T).map Tri.sort)).map (fun c => decide (c > k)) =
      (npUnique ((flatT T).map Tri.sort)).map (fun x => decide (((flatT T).map Tri.sort).count x > k)) := by
    intro k; unfold npUniqueCounts; rw [List.map_map]; rfl
  rw [← e1, ← e1, ← hm']
  rfl

theorem boundaryFaces_eq {T : List Tet} (hT : T ≠ []) : boundaryFaces T = some (gBdry (flatT T) Tri.sort) := by
  unfold boundaryFaces
  rw [faces_eq hT]
  simp only [Option.bind_eq_bind, Option.bind_some]
  unfold npTakeN
  rw [mapM_eq_some_map (g := fun i => (gBdry (flatT T) Tri.sort).getD i ⟨0, 0, 0⟩)]
  · congr 1
    apply List.ext_getElem?
    intro i
    rw [List.getElem?_map]
    by_cases hi : i < (gBdry (flatT T) Tri.sort).length
    · rw [List.getElem?_range hi, Option.map_some, List.getD_eq_getElem?_getD, List.getElem?_eq_getElem hi]; rfl
    · rw [List.getElem?_eq_none (by simpa using hi), List.getElem?_eq_none (by simpa using hi)]; rfl
  · intro i hi
    rw [List.mem_range] at hi
    rw [List.getElem?_append_left hi, List.getD_eq_getElem?_getD, List.getElem?_eq_getElem hi]; rfl

end Gpy
