import Verif.Model.Collapse
import Mathlib.Logic.Relation

/-! What `igl::decimate` does with the callback. -/

set_option autoImplicit false
namespace Gpy

/-- `v` is a corner of `t` -/
def Tri.has (t : Tri) (v : ℕ) : Prop := v = t.a ∨ v = t.b ∨ v = t.c

instance (t : Tri) (v : ℕ) : Decidable (t.has v) := by unfold Tri.has; infer_instance

/-- the three corners are different -/
def Tri.proper (t : Tri) : Prop := t.a ≠ t.b ∧ t.b ≠ t.c ∧ t.c ≠ t.a

instance (t : Tri) : Decidable t.proper := by unfold Tri.proper; infer_instance

/-- `v` is a corner of a face -/
def UsedIn (F : List Tri) (v : ℕ) : Prop := ∃ t ∈ F, t.has v

/-- rename the corners -/
def Tri.map (f : ℕ → ℕ) (t : Tri) : Tri := ⟨f t.a, f t.b, f t.c⟩

/-- When the edge `a b` is collapsed, the end with the smaller number survives. -/
def mergeTo (a b v : ℕ) : ℕ := if v = max a b then min a b else v

/-- Faces that contain the edge become null faces, in the others the vanished vertex is replaced. -/
def collapseTri (a b : ℕ) (t : Tri) : Tri := if t.has a ∧ t.has b then ⟨0, 0, 0⟩ else t.map (mergeTo a b)

/-- the faces that are not null -/
def alive (F : List Tri) : List Tri := F.filter (fun t => t ≠ ⟨0, 0, 0⟩)

/-- `N` lists the (live) faces around `x` -/
def AroundVertex (F : List Tri) (N : List ℕ) (x : ℕ) : Prop := ∀ f, f ∈ N ↔ ∃ t, F[f]? = some t ∧ t ≠ ⟨0, 0, 0⟩ ∧ t.has x

/-- positions, faces and list of collapsed edges while the mesh is decimated -/
structure DState where
  V : ℕ → V3 ℝ
  F : List Tri
  merges : List (ℕ × ℕ)

/-- One collapse of `igl::decimate`: some edge `a b` of the mesh for which the callback has returned a finite cost and the place `p`.  The cost may have been computed
some collapses ago, but not before the ends of the edge have reached their place.  `igl::edge_collapse_is_valid` makes sure that the mesh
stays a closed manifold. -/
structure CollapseStep (C : CollapseIn) (n : ℕ) (a b : ℕ) (p : V3 ℝ) (s s' : DState) : Prop where
  edge : ∃ e ∈ sides (alive s.F), Undir ⟨a, b⟩ e
  cost : ∃ V₁ F₁ N x, V₁ a = s.V a ∧ V₁ b = s.V b ∧ (x = a ∨ x = b) ∧ AroundVertex F₁ N x ∧ collapseCost C V₁ F₁ N a b = some p
  V : s'.V = Function.update (Function.update s.V a p) b p
  F : s'.F = s.F.map (collapseTri a b)
  merges : s'.merges = s.merges ++ [(a, b)]
  valid : ClosedOriented n (alive s'.F)

/-- The result of `igl::decimate`: after some collapses the null faces and the unreferenced vertices are removed; `I` lists the old numbers of the remaining vertices in increasing order. -/
structure IsDecimated (C : CollapseIn) (V : Arr (V3 ℝ)) (F : List Tri) (U : Arr (V3 ℝ)) (G : List Tri) (I : List ℕ) (merges : List (ℕ × ℕ)) : Prop where
  run : ∃ V' F', Relation.ReflTransGen (fun s s' => ∃ a b p, CollapseStep C V.size a b p s s') ⟨V.val, F, []⟩ ⟨V', F', merges⟩ ∧
    I = (List.range V.size).filter (fun v => 0 < cornerCount (alive F') v) ∧ U.size = I.length ∧ (∀ s (h : s < I.length), U.val s = V' I[s]) ∧
    G = (alive F').map (fun t => t.map (fun v => I.idxOf v))

/-- What the pass that collapses edges must do.  `new` says which vertex of the new mesh an old vertex has become.  `(V, F)` is the old mesh and `(U, G)` the new one. -/
structure Collapsed (V : Arr (V3 ℝ)) (F : List Tri) (high low : Arr ℝ) (feature : List ℕ) (fe : List Edge) (U : Arr (V3 ℝ)) (G : List Tri) (out : CollapseOut)
    (new : ℕ → ℕ) : Prop where
  /-- the new mesh is a closed mesh: the old faces, with renamed corners, but without those of which two corners have become the same vertex -/
  closed : ClosedOriented U.size G
  faces : G = (F.map (Tri.map new)).filter (fun t => t.proper)
  used : ∀ v, UsedIn F v → new v < U.size
  /-- no vertex is left over -/
  all : ∀ w < U.size, UsedIn G w
  /-- every new vertex inherits both length bounds from one of the old vertices it has been made of -/
  sizes : out.high.size = U.size ∧ out.low.size = U.size
  bounds : ∀ w < U.size, ∃ v, UsedIn F v ∧ new v = w ∧ out.high.val w = high.val v ∧ out.low.val w = low.val v
  /-- a fixed vertex stays at its place, and no other vertex is merged into it -/
  fixed : out.feature = feature.map new
  keep : ∀ f ∈ feature, U.val (new f) = V.val f ∧ ∀ v, UsedIn F v → new v = new f → v = f
  /-- fixed vertices that come first keep their numbers -/
  order : ∀ k, (∀ j < k, j ∈ feature) → ∀ j < k, new j = j
  /-- the feature edges are the images of the old ones, without those that have become a point, and without repetition; all are edges of the new mesh -/
  feFrom : ∀ e' ∈ out.fe, e'.s ≠ e'.t ∧ (∃ e ∈ fe, e' = ⟨new e.s, new e.t⟩) ∧ ∃ e'' ∈ sides G, Undir e' e''
  feTo : ∀ e ∈ fe, new e.s ≠ new e.t → ∃ e' ∈ out.fe, Undir ⟨new e.s, new e.t⟩ e'
  feOnce : out.fe.Pairwise (fun e e' => ¬ Undir e e')

end Gpy
