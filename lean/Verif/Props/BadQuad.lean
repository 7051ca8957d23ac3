import Verif.Proofs.BadQuad
import Mathlib.Data.Fintype.Pi

/-!
# C104: `bad_quad_mesh_from_quadtree`
-/

set_option autoImplicit false
namespace Gpy.BadQuad

variable {K : Type} [Field K] [LinearOrder K] [IsStrictOrderedRing K] [FloorRing K] {dim : ℕ}

omit [FloorRing K] in
theorem leaves_eq (hd : dim = 2 ∨ dim = 3) {c0 : Fin dim → K} {w0 : K} {Q : Quad K dim} (h : QuadReach c0 w0 Q) : leaves Q.cells = Q.cells.filter isLeafCell := by
  obtain ⟨ad, hI⟩ := reach_inv hd h
  classical
  unfold leaves
  refine List.filter_congr (fun c hc => ?_)
  obtain ⟨i, hi⟩ := List.mem_iff_getElem?.mp hc
  have := childless_iff hd hI hi
  rw [Bool.eq_iff_iff, decide_eq_true_iff]
  exact this

/-- the mesh of a quadtree or an octree: corners are exact -/
theorem tree (hd : dim = 2 ∨ dim = 3) {c0 : Fin dim → K} {w0 : K} (hw : 0 < w0) {T : Quad K dim} (h : QuadReach c0 w0 T) :
    ∃ V Q H, badQuadMesh T.cells = some (V, Q, H) ∧ V.Nodup ∧ Q.length = (quadTable dim).length * (leaves T.cells).length ∧
      (∀ x ∈ V, ∃ c ∈ leaves T.cells, ∃ s : Fin dim → Bool, x = corner c s) ∧
      (∀ (i f : ℕ) c (q : List ℕ), (leaves T.cells)[i]? = some c → (quadTable dim)[f]? = some q → ∃ t, Q[i + f * (leaves T.cells).length]? = some t ∧ t.length = 4 ∧
        ∀ (e k : ℕ) l, q[e]? = some k → (signs dim)[k]? = some l → ∃ v, t[e]? = some v ∧ V[v]? = some (cornerK dim c l)) ∧
      (dim = 3 → H.length = (leaves T.cells).length ∧ ∀ (i : ℕ) c, (leaves T.cells)[i]? = some c → ∃ t, H[i]? = some t ∧ t.length = 8 ∧
        ∀ (k : ℕ) l, k < 8 → (signs dim)[k]? = some l → ∃ v, t[k]? = some v ∧ V[v]? = some (cornerK dim c l)) ∧
      (dim = 2 → ∃ r, H = [r] ∧ r.length = 4 * (leaves T.cells).length) := by
  obtain ⟨ad, hI⟩ := reach_inv hd h
  have hLe := leaves_eq hd h
  rw [hLe]
  set L := T.cells.filter isLeafCell with hLdef
  have hmem : ∀ c ∈ L, c ∈ T.cells := fun c hc => List.mem_of_mem_filter hc
  have hW : ∀ c ∈ T.cells, 0 < c.W := by
    intro c hc
    obtain ⟨i, hi⟩ := List.mem_iff_getElem?.mp hc
    rw [(hI.geom i c hi).2.1]; positivity
  have hne : L ≠ [] := by
    intro h0
    obtain ⟨_, t2, _⟩ := C20_leaves_tile hd hw h
    obtain ⟨i, c, hi, hc, _⟩ := t2 c0 (fun j => by constructor <;> linarith)
    have : c ∈ L := List.mem_filter.mpr ⟨List.mem_of_getElem? hi, (childless_iff hd hI hi).mp hc⟩
    rw [h0] at this
    exact absurd this (by simp)
  obtain ⟨V, Q, H, w, h1, ⟨cm, hcm, ecm⟩, h3, h4, h5, h6, ⟨J, j1, j2, j3, j4⟩, h8⟩ := core T.cells hd L hLdef hne (fun c hc => hW c (hmem c hc))
  subst ecm
  -- every row of the block is on the grid
  have hcorner : ∀ x ∈ blockV L, ∃ c ∈ L, ∃ s : Fin dim → Bool, x = corner c s := by
    intro x hx
    obtain ⟨l, hl, hx⟩ := List.mem_flatMap.mp hx
    obtain ⟨c, hc, rfl⟩ := List.mem_map.mp hx
    have hs : ∀ l ∈ signs dim, ∃ s : Fin dim → Bool, ∀ j : Fin dim, l.getD j.val 0 = if s j then 1 else -1 := by
      rcases hd with rfl | rfl
      · have : ∀ l ∈ signs 2, ∀ j : Fin 2, l.getD j.val 0 = if decide (l.getD j.val 0 = 1) then 1 else -1 := by decide
        exact fun l hl => ⟨_, this l hl⟩
      · have : ∀ l ∈ signs 3, ∀ j : Fin 3, l.getD j.val 0 = if decide (l.getD j.val 0 = 1) then 1 else -1 := by decide
        exact fun l hl => ⟨_, this l hl⟩
    obtain ⟨s, hs⟩ := hs l hl
    exact ⟨c, hc, s, corner_eq c s l hs⟩
  have hgrid : ∀ x ∈ blockV L, ∀ (j : ℕ) (hj : j < dim) v, x[j]? = some v → ∃ n : ℤ, v = c0 ⟨j, hj⟩ - w0 / 2 + n * cm.W := by
    intro x hx j hj v hv
    obtain ⟨c, hc, s, rfl⟩ := hcorner x hx
    obtain ⟨⟨n, hn⟩, ⟨m, hm⟩⟩ := grid hw hI cm (hmem cm hcm) c (hmem c hc) (h3 c hc) ⟨j, hj⟩
    have : v = if s ⟨j, hj⟩ then c.hi ⟨j, hj⟩ else c.lo ⟨j, hj⟩ := by
      unfold corner at hv
      rw [List.getElem?_map, List.getElem?_eq_getElem (by simpa using hj)] at hv
      simpa using hv.symm
    rw [this]
    split
    · exact ⟨m, hm⟩
    · exact ⟨n, hn⟩
  have hlen : ∀ x ∈ blockV L, x.length = dim := by
    intro x hx
    obtain ⟨c, hc, s, rfl⟩ := hcorner x hx
    simp [corner]
  have hexact : ∀ x y, x ∈ blockV L → y ∈ blockV L → Near (cm.W / 100) x y → x = y := by
    rintro x y hx hy ⟨hl, hn⟩
    refine List.ext_getElem? (fun j => ?_)
    by_cases hj : j < dim
    · have e1 : x[j]? = some (x[j]'(by rw [hlen x hx]; exact hj)) := List.getElem?_eq_getElem _
      have e2 : y[j]? = some (y[j]'(by rw [hlen y hy]; exact hj)) := List.getElem?_eq_getElem _
      obtain ⟨n, hn'⟩ := hgrid x hx j hj _ e1
      obtain ⟨m, hm'⟩ := hgrid y hy j hj _ e2
      rw [e1, e2, near_eq cm.W _ _ (hW cm (hmem cm hcm)) (hn j _ _ e1 e2) _ n m hn' hm']
    · rw [List.getElem?_eq_none (by rw [hlen x hx]; omega), List.getElem?_eq_none (by rw [hlen y hy]; omega)]
  have key : ∀ (i : ℕ) c (k : ℕ) l u, L[i]? = some c → (signs dim)[k]? = some l → J (i + k * L.length) u → V[u]? = some (cornerK dim c l) := by
    intro i c k l u hi hl hu
    obtain ⟨hlt, e⟩ := List.getElem?_eq_some_iff.mp hi
    have hb := blockV_get L k i hlt
    rw [hl, Option.map_some, e] at hb
    obtain ⟨y, hy, hn⟩ := j2 _ _ u hb hu
    rw [hy, ← hexact _ y (List.mem_of_getElem? hb) (h5 y (List.mem_of_getElem? hy)) hn]
  refine ⟨V, Q, H, h1, ?_, h4, fun x hx => hcorner x (h5 x hx), ?_, ?_, h8⟩
  · rw [List.nodup_iff_injective_getElem]
    intro a b hab
    exact Fin.ext (h6 a.val b.val _ _ (List.getElem?_eq_getElem a.isLt) (List.getElem?_eq_getElem b.isLt) hab)
  · intro i f c q hi hq
    obtain ⟨hlt, _⟩ := List.getElem?_eq_some_iff.mp hi
    obtain ⟨t, t1, t2, t3⟩ := j3 i f q hlt hq
    refine ⟨t, t1, t2, ?_⟩
    intro e k l he hl
    obtain ⟨u, u1, u2⟩ := t3 e k he
    exact ⟨u, u1, key i c k l u hi hl u2⟩
  · intro h3'
    obtain ⟨a1, a2⟩ := j4 h3'
    refine ⟨a1, ?_⟩
    intro i c hi
    obtain ⟨hlt, _⟩ := List.getElem?_eq_some_iff.mp hi
    obtain ⟨t, t1, t2, t3⟩ := a2 i hlt
    refine ⟨t, t1, t2, ?_⟩
    intro k l hk hl
    obtain ⟨u, u1, u2⟩ := t3 k hk
    exact ⟨u, u1, key i c k l u hi hl u2⟩

/-- **C104 (quadtrees).**  For every quadtree the library builds (`QuadReach`: initialised on the square with centre `c0` and side `w0`, then any splits), the call succeeds;
no vertex is repeated, every vertex is a corner of a leaf, there is exactly one quad for each leaf, in the order of the leaves, and its corners are, exactly, the four corners
of that leaf, in order around it. -/
theorem C104_quadtree {c0 : Fin 2 → K} {w0 : K} (hw : 0 < w0) {T : Quad K 2} (h : QuadReach c0 w0 T) :
    ∃ V Q H, badQuadMesh T.cells = some (V, Q, H) ∧ V.Nodup ∧ (∀ x ∈ V, ∃ c ∈ leaves T.cells, ∃ k : Fin 4, x = corner c (ring k)) ∧ Q.length = (leaves T.cells).length ∧
      ∀ (i : ℕ) c, (leaves T.cells)[i]? = some c → RowShows V Q i (fun k : Fin 4 => corner c (ring k)) := by
  obtain ⟨V, Q, H, h1, h2, h3, h4, h5, _, _⟩ := tree (Or.inl rfl) hw h
  refine ⟨V, Q, H, h1, h2, ?_, by simpa [quadTable] using h3, ?_⟩
  · intro x hx
    obtain ⟨c, hc, s, rfl⟩ := h4 x hx
    obtain ⟨k, hk⟩ : ∃ k : Fin 4, ∀ j, ring k j = s j := by clear hx; revert s; decide
    exact ⟨c, hc, k, by rw [show ring k = s from funext hk]⟩
  · intro i c hi
    obtain ⟨t, t1, t2, t3⟩ := h5 i 0 c [0, 1, 2, 3] hi rfl
    rw [Nat.zero_mul, Nat.add_zero] at t1
    refine ⟨t, t1, t2, fun k => ?_⟩
    obtain ⟨l, l1, l2⟩ := signs2 k
    obtain ⟨v, v1, v2⟩ := t3 k.val k.val l (by clear l1 l2; revert k; decide) l1
    exact ⟨v, v1, by rw [v2, corner_eq c (ring k) l l2]⟩

/-- **C104 (octrees).**  For every octree the library builds: no vertex is repeated, every vertex is a corner of a leaf; `H` has one hexahedron for each leaf with the eight
corners of the leaf; `Q` has six quads for each leaf, the faces of that leaf (`C104_faces_of_cube`). -/
theorem C104_octree {c0 : Fin 3 → K} {w0 : K} (hw : 0 < w0) {T : Quad K 3} (h : QuadReach c0 w0 T) :
    ∃ V Q H, badQuadMesh T.cells = some (V, Q, H) ∧ V.Nodup ∧ (∀ x ∈ V, ∃ c ∈ leaves T.cells, ∃ k : Fin 8, x = corner c (hex k)) ∧
      Q.length = 6 * (leaves T.cells).length ∧ H.length = (leaves T.cells).length ∧
      ∀ (i : ℕ) c, (leaves T.cells)[i]? = some c → RowShows V H i (fun k : Fin 8 => corner c (hex k)) ∧
        ∀ f : Fin 6, RowShows V Q (i + f.val * (leaves T.cells).length) (fun k : Fin 4 => corner c (hex (face f k))) := by
  obtain ⟨V, Q, H, h1, h2, h3, h4, h5, h6, _⟩ := tree (Or.inr rfl) hw h
  obtain ⟨h6, h7⟩ := h6 rfl
  refine ⟨V, Q, H, h1, h2, ?_, by simpa [quadTable] using h3, h6, ?_⟩
  · intro x hx
    obtain ⟨c, hc, s, rfl⟩ := h4 x hx
    obtain ⟨k, hk⟩ : ∃ k : Fin 8, ∀ j, hex k j = s j := by clear hx; revert s; decide
    exact ⟨c, hc, k, by rw [show hex k = s from funext hk]⟩
  · intro i c hi
    refine ⟨?_, ?_⟩
    · obtain ⟨t, t1, t2, t3⟩ := h7 i c hi
      refine ⟨t, t1, t2, fun k => ?_⟩
      obtain ⟨l, l1, l2⟩ := signs3 k
      obtain ⟨v, v1, v2⟩ := t3 k.val l k.isLt l1
      exact ⟨v, v1, by rw [v2, corner_eq c (hex k) l l2]⟩
    · intro f
      have hq : ∃ q, (quadTable 3)[f.val]? = some q ∧ ∀ k : Fin 4, q[k.val]? = some (face f k).val := by revert f; decide
      obtain ⟨q, hq, hk⟩ := hq
      obtain ⟨t, t1, t2, t3⟩ := h5 i f.val c q hi hq
      refine ⟨t, t1, t2, fun k => ?_⟩
      obtain ⟨l, l1, l2⟩ := signs3 (face f k)
      obtain ⟨v, v1, v2⟩ := t3 k.val (face f k).val l (hk k) l1
      exact ⟨v, v1, by rw [v2, corner_eq c _ l l2]⟩

/-- **C104 (what the tables mean).**  `ring` goes around the square and `hex` names all corners of the cube; for each of the six sides of the cube there is exactly one
`face`, and it goes around that side. -/
theorem C104_faces_of_cube :
    Function.Injective ring ∧ (∀ k : Fin 4, ∃! j, ring k j ≠ ring (k + 1) j) ∧ Function.Injective hex ∧
      (∀ (j : Fin 3) (b : Bool), ∃! f : Fin 6, ∀ k, hex (face f k) j = b) ∧
      ∀ f : Fin 6, Function.Injective (face f) ∧ ∀ k : Fin 4, ∃! j, hex (face f k) j ≠ hex (face f (k + 1)) j := by
  refine ⟨fun a b h => ?_, ?_, fun a b h => ?_, ?_, fun f => ⟨fun a b h => ?_, ?_⟩⟩
  · replace h := congrFun h
    revert a b; decide
  · unfold ExistsUnique; decide
  · replace h := congrFun h
    revert a b; decide
  · unfold ExistsUnique; decide
  · revert f a b; decide
  · unfold ExistsUnique
    revert f; decide

/-- **C104 (`H` of a quadtree is not empty).**  The documentation promises no hexahedra for a quadtree.  The code returns one row, with as many entries as all leaves have
corners. -/
theorem C104_H_violated {c0 : Fin 2 → K} {w0 : K} (hw : 0 < w0) {T : Quad K 2} (h : QuadReach c0 w0 T) :
    ∃ V Q r, badQuadMesh T.cells = some (V, Q, [r]) ∧ r.length = 4 * (leaves T.cells).length ∧ r ≠ [] := by
  obtain ⟨V, Q, H, h1, _, h3, _, _, _, h7⟩ := tree (Or.inl rfl) hw h
  obtain ⟨r, rfl, hr⟩ := h7 rfl
  refine ⟨V, Q, r, h1, hr, ?_⟩
  rintro rfl
  obtain ⟨_, t2, _⟩ := C20_leaves_tile (Or.inl rfl) hw h
  obtain ⟨i, c, hi, hc, _⟩ := t2 c0 (fun j => by constructor <;> linarith)
  have hm : c ∈ leaves T.cells := by
    classical
    unfold leaves
    exact List.mem_filter.mpr ⟨List.mem_of_getElem? hi, decide_eq_true hc⟩
  rw [List.length_nil] at hr
  have := List.length_pos_of_mem hm
  omega


/-- the demo quadtree of C20 (16 leaves) and its mesh -/
example : (quadDemo.bind (fun T => badQuadMesh T.cells)).map (fun r => (r.1.length, r.2.1.length, r.2.2.map List.length)) = some (27, 16, [64]) := by decide +kernel

end Gpy.BadQuad
