import Verif.Props.DualSpheres

/-!
# C126: the face points of neighbouring cells are the same
-/

set_option autoImplicit false
namespace Gpy.Dual

noncomputable section
open Classical

/-- the cells after `n` outer iterations of a run (with any meshes for the closest points) -/
inductive Reached (x : Ext) (o : Options) (g : Grid) : ℕ → List Cell → Prop
  | start : Reached x o g 0 ((firstCells x g).map (fun c => if c.has then { c with vertex := centroid c } else c))
  | step {n : ℕ} {cells : List Cell} (V : List (Pt 3)) (F : List Quad) : Reached x o g n cells → Reached x o g (n + 1) (outerCells x o g n V F cells)

/-- a grid with planes of vertices across the axes: a coordinate depends only on the index along its axis -/
def Rectilinear (g : Grid) : Prop := ∀ v v', g.Vert v → g.Vert v' → (v.1 = v'.1 → g.pos v 0 = g.pos v' 0) ∧ (v.2.1 = v'.2.1 → g.pos v 1 = g.pos v' 1) ∧ (v.2.2 = v'.2.2 → g.pos v 2 = g.pos v' 2)

/-- neighbouring cells with vertices have the same point on their common face (or both none) -/
def FacesMatch (g : Grid) (cells : List Cell) : Prop :=
  ∀ (a : Fin 3) (c : Ijk), g.Cell c → g.Cell (up a c) → ∀ x y, cells[cellNo g c]? = some x → cells[cellNo g (up a c)]? = some y → x.has = true → y.has = true → x.fip (2 * a) = y.fip (2 * a + 1)

variable {P : Cell → ℕ → Pt 3 → Prop} {g : Grid} {cells : List Cell}

/-! ### passes that do not change the face points -/

/-- the face points are unchanged -/
def Same (b c : Cell) : Prop := c.fip = b.fip

theorem innerLoop_fip (svd : Svd) (query : List (Pt 3 × Pt 3 × Pt 3) → Pt 3 → ℕ × Pt 3) (mu dc th : ℝ) (n : ℕ) : ∀ x, (innerLoop svd query mu dc th n x).fip = x.fip := by
  induction n with
  | zero => exact fun _ => rfl
  | succ n ih =>
    intro x
    have h1 : (refineVertex query { x with prev := x.vertex }).fip = x.fip := by
      unfold refineVertex
      split_ifs <;> rfl
    have h2 : (if (refineVertex query { x with prev := x.vertex }).infos = [] then refineVertex query { x with prev := x.vertex }
        else minimizeQef svd mu dc 1 th (refineVertex query { x with prev := x.vertex })).fip = x.fip := by
      split_ifs
      · exact h1
      · exact h1
    simp only [innerLoop]
    split_ifs at h2 ⊢
    · exact h2
    · exact (ih _).trans h2
    · exact h2
    · exact (ih _).trans h2

theorem setNormal_same (n : Pt 3) (cs : List Cell) (h : Rel Same cells cs) (s : ℕ × Option ℕ) : Rel Same cells (setNormal n cs s) := by
  unfold setNormal
  split
  · exact h
  · exact Rel.modify h _ _ (fun b c _ _ hs => hs)

theorem averageNormals_same (cs : List Cell) (h : Rel Same cells cs) : Rel Same cells (averageNormals g cs) := by
  unfold averageNormals
  refine foldl_inv (Rel Same cells) _ _ (fun cs hcs l _ => ?_) _ h
  unfold averageOne
  split_ifs
  · exact hcs
  · exact foldl_inv (Rel Same cells) _ _ (fun cs hcs s _ => setNormal_same _ cs hcs s) _ hcs

theorem updateHermite_same (pca : List (Pt 3) → Pt 3) (wn wp : ℝ) (cs : List Cell) (h : Rel Same cells cs) : Rel Same cells (updateHermite pca wn wp g cs) := by
  unfold updateHermite
  refine foldl_inv (Rel Same cells) _ _ (fun cs hcs l _ => ?_) _ h
  have hbn : ∀ (n : Pt 3) (ds : List Cell), Rel Same cells ds → Rel Same cells (l.foldl (blendNormal wn n) ds) := by
    intro n ds hds
    refine foldl_inv (Rel Same cells) _ _ (fun es hes s _ => ?_) _ hds
    unfold blendNormal
    split
    · exact hes
    · refine Rel.modify hes _ _ (fun b c _ _ hs => ?_)
      split
      · exact hs
      · split_ifs
        · exact hs
        · exact hs
  have hbp : ∀ (y : Pt 3) (ds : List Cell), Rel Same cells ds → Rel Same cells (l.foldl (blendPos wp y) ds) := by
    intro y ds hds
    refine foldl_inv (Rel Same cells) _ _ (fun es hes s _ => ?_) _ hds
    unfold blendPos
    split
    · exact hes
    · exact Rel.modify hes _ _ (fun b c _ _ hs => hs)
  unfold updateOne
  split
  · split
    · exact hcs
    · simp only
      split
      · exact hbn _ _ hcs
      · exact hbp _ _ (hbn _ _ hcs)
  · exact hcs

theorem FacesMatch.of_same {cs : List Cell} (h : FacesMatch g cells) (hr : Rel (fun b c => c.fip = b.fip ∧ c.has = b.has) cells cs) : FacesMatch g cs := by
  intro a c hc hc' x y hx hy hhx hhy
  obtain ⟨x0, hx0, ex, ex'⟩ := hr.get' hx
  obtain ⟨y0, hy0, ey, ey'⟩ := hr.get' hy
  rw [ex, ey]
  exact h a c hc hc' x0 y0 hx0 hy0 (by rw [← ex']; exact hhx) (by rw [← ey']; exact hhy)

/-- the same face points, from the invariant -/
theorem same_has {cs : List Cell} (h : Inv P g cells) (h' : Inv P g cs) (hs : Rel Same cells cs) : Rel (fun b c => c.fip = b.fip ∧ c.has = b.has) cells cs := by
  refine ⟨hs.1, fun n b c hb hc => ⟨hs.2 n b c hb hc, ?_⟩⟩
  obtain ⟨i, hi, e, k⟩ := h.get' n b hb
  obtain ⟨i', hi', e', k'⟩ := h'.get' n c hc
  have : i = i' := cellNo_inj g i i' hi hi' (by rw [← e, ← e'])
  subst this
  rw [k.has, k'.has]

/-! ### the pass that computes them -/

theorem neighbour_up (h : Inv P g cells) (a : Fin 3) (c : Ijk) (hc : g.Cell c) (hc' : g.Cell (up a c)) (x y : Cell) (hx : cells[cellNo g c]? = some x) (hy : cells[cellNo g (up a c)]? = some y)
    (hhy : y.has = true) : neighbour g cells x (2 * a) = some y := by
  obtain ⟨x', hx', k⟩ := h.get c hc
  rw [hx] at hx'
  cases hx'
  obtain ⟨b1, b2, b3, -⟩ := gen_basic g c
  have e1 : x.ix = c.1 := k.ix.trans b1
  have e2 : x.iy = c.2.1 := k.iy.trans b2
  have e3 : x.iz = c.2.2 := k.iz.trans b3
  have hid := cellIdx_eq g (up a c) hc'
  obtain ⟨i, j, l⟩ := c
  obtain ⟨c1, c2, c3⟩ := hc
  obtain ⟨d1, d2, d3⟩ := hc'
  unfold neighbour
  fin_cases a
  all_goals
    simp only [up] at d1 d2 d3 hid hy ⊢
    simp [dirs, e1, e2, e3] at hid ⊢
    refine ⟨by simp at c1 c2 c3 d1 d2 d3; omega, ?_⟩
    rw [hid]
    simp [hy, hhy]

theorem neighbour_down (h : Inv P g cells) (a : Fin 3) (c : Ijk) (hc : g.Cell c) (hc' : g.Cell (up a c)) (x y : Cell) (hx : cells[cellNo g c]? = some x) (hy : cells[cellNo g (up a c)]? = some y)
    (hhx : x.has = true) : neighbour g cells y (2 * a + 1) = some x := by
  obtain ⟨y', hy', k⟩ := h.get (up a c) hc'
  rw [hy] at hy'
  cases hy'
  obtain ⟨b1, b2, b3, -⟩ := gen_basic g (up a c)
  have e1 : y.ix = (up a c).1 := k.ix.trans b1
  have e2 : y.iy = (up a c).2.1 := k.iy.trans b2
  have e3 : y.iz = (up a c).2.2 := k.iz.trans b3
  have hid := cellIdx_eq g c hc
  obtain ⟨i, j, l⟩ := c
  obtain ⟨c1, c2, c3⟩ := hc
  obtain ⟨d1, d2, d3⟩ := hc'
  unfold neighbour
  fin_cases a
  all_goals
    simp only [up] at d1 d2 d3 e1 e2 e3 ⊢
    simp [dirs, e1, e2, e3] at hid ⊢
    refine ⟨by simp at c1 c2 c3 d1 d2 d3; omega, ?_⟩
    rw [hid]
    simp [hx, hhx]

theorem plane_match (hg : Rectilinear g) (a : Fin 3) (c : Ijk) (hc : g.Cell c) (hc' : g.Cell (up a c)) (x y : Cell) (hx : x.corners = (gen g c).corners) (hy : y.corners = (gen g (up a c)).corners) :
    facePlane x (2 * a) = facePlane y (opp (2 * a)) := by
  obtain ⟨-, -, -, -, bx⟩ := gen_basic g c
  obtain ⟨-, -, -, -, by'⟩ := gen_basic g (up a c)
  have ho : opp (2 * a) = 2 * a + 1 := by unfold opp; rw [if_pos (by omega)]
  have ha : dirAxis (2 * a) = a ∧ dirAxis (2 * a + 1) = a := by fin_cases a <;> exact ⟨rfl, rfl⟩
  unfold facePlane
  rw [ho, if_pos (by omega), if_neg (by omega), ha.1, ha.2, hx, hy, bx, by']
  obtain ⟨i, j, l⟩ := c
  obtain ⟨c1, c2, c3⟩ := hc
  obtain ⟨d1, d2, d3⟩ := hc'
  have h1 : g.Vert (cv (i, j, l) 6) := by
    simp only at c1 c2 c3
    refine ⟨?_, ?_, ?_⟩ <;> simp [cv, off] <;> omega
  have h2 : g.Vert (cv (up a (i, j, l)) 0) := by
    refine ⟨?_, ?_, ?_⟩ <;> simp [cv, off] <;> omega
  obtain ⟨r0, r1, r2⟩ := hg _ _ h1 h2
  fin_cases a
  · exact r0 rfl
  · exact r1 rfl
  · exact r2 rfl

theorem faceIntersections_match (hg : Rectilinear g) (w : ℝ) (h : Inv P g cells) (hm : FacesMatch g cells) : FacesMatch g (faceIntersections g w cells) := by
  intro a c hc hc' x y hx hy hhx hhy
  unfold faceIntersections at hx hy
  rw [List.getElem?_map, Option.map_eq_some_iff] at hx hy
  obtain ⟨x0, hx0, ex⟩ := hx
  obtain ⟨y0, hy0, ey⟩ := hy
  have hh0 : x0.has = true := by
    by_contra hn
    rw [if_neg hn] at ex
    rw [ex] at hn
    exact hn hhx
  have hh1 : y0.has = true := by
    by_contra hn
    rw [if_neg hn] at ey
    rw [ey] at hn
    exact hn hhy
  rw [if_pos hh0] at ex
  rw [if_pos hh1] at ey
  have h6 : 2 * (a : ℕ) < 6 := by omega
  have h6' : 2 * (a : ℕ) + 1 < 6 := by omega
  have ho : opp (2 * a) = 2 * a + 1 := by unfold opp; rw [if_pos (by omega)]
  obtain ⟨x', hx', kx⟩ := h.get c hc
  obtain ⟨y', hy', ky⟩ := h.get (up a c) hc'
  rw [hx0] at hx'
  rw [hy0] at hy'
  cases hx'
  cases hy'
  have e := crossing_symm x0 y0 (2 * a) h6 (plane_match hg a c hc hc' x0 y0 kx.corners ky.corners)
  rw [ho] at e
  rw [← ex, ← ey]
  simp only [if_pos h6, if_pos h6', neighbour_up h a c hc hc' x0 y0 hx0 hy0 hh1, neighbour_down h a c hc hc' x0 y0 hx0 hy0 hh0, Option.bind_some, e, hm a c hc hc' x0 y0 hx0 hy0 hh0 hh1]

/-! ### runs -/

theorem assignSpheres_same (shuffle : List ℕ → List ℕ) (sort : List Sphere → List Sphere) (closest : List (Pt 3) → List (ℕ × ℕ × ℕ) → Pt 3 → ℝ × Pt 3) (V : List (Pt 3)) (F : List Quad) (size : ℕ) :
    Rel Same cells (assignSpheres shuffle sort closest g V F size cells) := by
  unfold assignSpheres
  split_ifs
  · exact Rel.refl (R := Same) (fun _ => rfl) _
  · simp only
    refine ⟨by simp, fun n b x hb hx => ?_⟩
    rw [List.getElem?_map, List.getElem?_zipIdx, hb] at hx
    simp only [Option.map_some, Option.some.injEq] at hx
    rw [← hx]
    rfl

theorem gen_fip (g : Grid) (c : Ijk) (d : ℕ) : (gen g c).fip d = none := by
  unfold gen genCell fillHermite
  split_ifs <;> rfl

theorem true_closed (w : ℝ) : Closed (fun _ _ _ => True) w := fun _ _ _ _ => by
  intros
  trivial

theorem reached_inv {x : Ext} {o : Options} {n : ℕ} (h : Reached x o g n cells) : Inv (fun _ _ _ => True) g cells := by
  induction h with
  | start => exact centroid_inv (firstCells_inv x (fun _ _ _ _ _ => trivial))
  | step V F _ ih => exact outerCells_inv x o (true_closed _) _ V F ih

theorem first_fip (x : Ext) : Rel Same (generateCells g) ((firstCells x g).map (fun c => if c.has then { c with vertex := centroid c } else c)) := by
  have h1 : Rel Same (generateCells g) (averageNormals g (generateCells g)) := averageNormals_same _ (Rel.refl (R := Same) (fun _ => rfl) _)
  have h2 : Rel Same (generateCells g) ((averageNormals g (generateCells g)).map (update x.svd)) := by
    refine Rel.map h1 _ (fun n b c _ _ hs => ?_)
    unfold update
    split_ifs <;> exact hs
  have h3 : Rel Same (generateCells g) (firstCells x g) := averageNormals_same _ h2
  refine Rel.map h3 _ (fun n b c _ _ hs => ?_)
  split_ifs <;> exact hs

theorem outer_after {x : Ext} {o : Options} {n : ℕ} (V : List (Pt 3)) (F : List Quad) :
    Rel Same (faceIntersections g o.faceWeight (assignSpheres (x.shuffle n) x.sort x.closest g V F o.batch cells)) (outerCells x o g n V F cells) := by
  unfold outerCells
  simp only
  have h2 : Rel Same (faceIntersections g o.faceWeight (assignSpheres (x.shuffle n) x.sort x.closest g V F o.batch cells))
      (if o.hermite ∧ 0 < n then updateHermite x.pca o.normalWeight o.posWeight g (faceIntersections g o.faceWeight (assignSpheres (x.shuffle n) x.sort x.closest g V F o.batch cells))
        else faceIntersections g o.faceWeight (assignSpheres (x.shuffle n) x.sort x.closest g V F o.batch cells)) := by
    split_ifs
    · exact updateHermite_same _ _ _ _ (Rel.refl (R := Same) (fun _ => rfl) _)
    · exact Rel.refl (R := Same) (fun _ => rfl) _
  refine Rel.map h2 _ (fun m b c _ _ hs => ?_)
  split_ifs
  · exact (innerLoop_fip _ _ _ _ _ _ _).trans hs
  · exact hs

/-- **C126** (faces fit together).  In every run on a rectilinear grid, after every outer iteration, neighbouring cells with a vertex have the same point on their common face, so that their local
surfaces fit together. -/
theorem C126_faces (hg : Rectilinear g) {x : Ext} {o : Options} {n : ℕ} (h : Reached x o g n cells) : FacesMatch g cells := by
  induction h with
  | start =>
    intro a c hc hc' y z hy hz _ _
    obtain ⟨y0, hy0, ey⟩ := (first_fip x).get' hy
    obtain ⟨z0, hz0, ez⟩ := (first_fip x).get' hz
    rw [gen_get g c hc] at hy0
    rw [gen_get g _ hc'] at hz0
    cases hy0
    cases hz0
    rw [ey, ez]
    exact (gen_fip g c _).trans (gen_fip g (up a c) _).symm
  | step V F hr ih =>
    rename_i n cells
    have i0 := reached_inv hr
    have i1 := assignSpheres_inv (x.shuffle n) x.sort x.closest V F o.batch i0
    have i2 := faceIntersections_inv o.faceWeight i1
    have m1 := FacesMatch.of_same ih (same_has i0 i1 (assignSpheres_same _ _ _ _ _ _))
    have m2 := faceIntersections_match hg o.faceWeight i1 m1
    exact FacesMatch.of_same m2 (same_has i2 (reached_inv (Reached.step V F hr)) (outer_after V F))

end

end Gpy.Dual
