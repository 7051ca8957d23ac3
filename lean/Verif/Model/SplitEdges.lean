import Verif.Np.Basic
import Verif.Np.Vec3
import Verif.Spec.Mesh
import Mathlib.Data.Real.Basic
import Mathlib.Logic.Function.Basic

/-! The C++ remesher: `src/cpp/remesher/split_edges.cpp`.

C++ arrays (`Eigen::VectorXi`, `Eigen::MatrixXi`, `std::vector`) are modelled with their size and a total function; entries that have
never been written (`conservativeResize` leaves them uninitialised) are thus arbitrary.  Reading or writing outside of the size is undefined
behaviour, and a false `assert` aborts (or, with `NDEBUG`, lets the code run on in a state its author excluded); both are `none`. -/

set_option autoImplicit false
namespace Gpy

/-- a C++ vector -/
structure Arr (α : Type) where
  size : ℕ
  val : ℕ → α

/-- a C++ matrix of integers -/
structure IMat where
  rows : ℕ
  cols : ℕ
  val : ℕ → ℕ → ℕ

namespace Arr
variable {α : Type}

/-- `a[i]` -/
def rd (a : Arr α) (i : ℕ) : Option α := if i < a.size then some (a.val i) else none

/-- `a[i] = x` -/
def wr (a : Arr α) (i : ℕ) (x : α) : Option (Arr α) := if i < a.size then some ⟨a.size, Function.update a.val i x⟩ else none

/-- a sequence of assignments -/
def wrs (a : Arr α) : List (ℕ × α) → Option (Arr α)
  | [] => some a
  | (i, x) :: l => (a.wr i x).bind (fun a => a.wrs l)

/-- `conservativeResize(n)` -/
def resize (a : Arr α) (n : ℕ) : Arr α := ⟨n, a.val⟩

/-- `a[i][j]` of a `std::vector<std::vector<int>>` -/
def rd2 (a : Arr (List ℕ)) (i j : ℕ) : Option ℕ := (a.rd i).bind (fun l => l[j]?)

/-- `a[i][j] = x` -/
def wr2 (a : Arr (List ℕ)) (i j x : ℕ) : Option (Arr (List ℕ)) :=
  (a.rd i).bind (fun l => if j < l.length then a.wr i (l.set j x) else none)

/-- a sequence of assignments `a[i][j] = x` -/
def wrs2 (a : Arr (List ℕ)) : List (ℕ × ℕ × ℕ) → Option (Arr (List ℕ))
  | [] => some a
  | (i, j, x) :: l => (a.wr2 i j x).bind (fun a => a.wrs2 l)

end Arr

namespace IMat

/-- `A(i,j)` -/
def rd (a : IMat) (i j : ℕ) : Option ℕ := if i < a.rows ∧ j < a.cols then some (a.val i j) else none

/-- `A(i,j) = x` -/
def wr (a : IMat) (i j x : ℕ) : Option IMat :=
  if i < a.rows ∧ j < a.cols then some ⟨a.rows, a.cols, Function.update a.val i (Function.update (a.val i) j x)⟩ else none

/-- a sequence of assignments -/
def wrs (a : IMat) : List (ℕ × ℕ × ℕ) → Option IMat
  | [] => some a
  | (i, j, x) :: l => (a.wr i j x).bind (fun a => a.wrs l)

/-- `conservativeResize(n,cols)` -/
def resize (a : IMat) (n : ℕ) : IMat := ⟨n, a.cols, a.val⟩

end IMat

/-- The variables that `split_edges` passes by reference. -/
structure SplitState where
  V : Arr (V3 ℝ)
  F : IMat
  E : IMat
  uE : IMat
  EMAP : Arr ℕ
  uE2E : Arr (List ℕ)
  high : Arr ℝ
  low : Arr ℝ

/-- lines 238-264: the halfedge `old` of the unique edge `u` is now called `new`. -/
def fixTwin (A : Arr (List ℕ)) (u old new : ℕ) : Option (Arr (List ℕ)) := do
  let a0 ← A.rd2 u 0
  if a0 = old then A.wr2 u 0 new
  else
    let a1 ← A.rd2 u 1
    if a1 = old then A.wr2 u 1 new else none

/-- Second half of the body of the loop, `split_edges.cpp:175-313`: the assignments. -/
noncomputable def splitWrite (n m k N i uei : ℕ) (S : SplitState) (e0 e1 f0 f1 c0 c1 v1 v2 v3 v4 ue2 ue3 ue4 ue5 e2 e3 e4 e5 : ℕ) :
    Option SplitState := do
  let p1 ← S.V.rd v1
  let p2 ← S.V.rd v2
  let V ← S.V.wr (n + i) ((1 / 2 : ℝ) • (p1 + p2))                                    -- line 178
  let h1 ← S.high.rd v1
  let h2 ← S.high.rd v2
  let high ← S.high.wr (n + i) ((h1 + h2) / 2)                                        -- line 179
  let l1 ← S.low.rd v1
  let l2 ← S.low.rd v2
  let low ← S.low.wr (n + i) ((l1 + l2) / 2)                                          -- line 180
  let F ← S.F.wrs [(f0, c0, v4), (f0, (c0 + 1) % 3, v1), (f0, (c0 + 2) % 3, n + i),   -- lines 185-199
    (f1, c1, v3), (f1, (c1 + 1) % 3, n + i), (f1, (c1 + 2) % 3, v1),
    (m + 2 * i, 0, v2), (m + 2 * i, 1, n + i), (m + 2 * i, 2, v3),
    (m + 2 * i + 1, 0, v2), (m + 2 * i + 1, 1, v4), (m + 2 * i + 1, 2, n + i)]
  let uE ← S.uE.wrs [(uei, 0, n + i), (uei, 1, v1), (k + 3 * i, 0, n + i), (k + 3 * i, 1, v3),   -- lines 204-214
    (k + 3 * i + 1, 0, n + i), (k + 3 * i + 1, 1, v4), (k + 3 * i + 2, 0, n + i), (k + 3 * i + 2, 1, v2)]
  let A ← S.uE2E.wrs2 [(uei, 0, e0), (uei, 1, e1),                                    -- lines 223-235
    (k + 3 * i, 0, f1 + ((c1 + 2) % 3) * N), (k + 3 * i, 1, m + 2 * i + 0 * N),
    (k + 3 * i + 1, 0, f0 + ((c0 + 1) % 3) * N), (k + 3 * i + 1, 1, m + 2 * i + 1 + 0 * N),
    (k + 3 * i + 2, 0, m + 2 * i + 2 * N), (k + 3 * i + 2, 1, m + 2 * i + 1 + 1 * N)]
  let A ← fixTwin A ue2 e2 (f1 + ((c1 + 1) % 3) * N)                                  -- lines 238-243
  let A ← fixTwin A ue3 e3 (m + 2 * i + 1 * N)                                        -- lines 245-250
  let A ← fixTwin A ue4 e4 (m + 2 * i + 1 + 2 * N)                                    -- lines 252-257
  let A ← fixTwin A ue5 e5 (f0 + ((c0 + 2) % 3) * N)                                  -- lines 259-264
  let E ← S.E.wrs [(f0 + (c0 % 3) * N, 0, v1), (f0 + (c0 % 3) * N, 1, n + i),         -- lines 268-294
    (f0 + ((c0 + 1) % 3) * N, 0, n + i), (f0 + ((c0 + 1) % 3) * N, 1, v4),
    (f0 + ((c0 + 2) % 3) * N, 0, v4), (f0 + ((c0 + 2) % 3) * N, 1, v1),
    (f1 + (c1 % 3) * N, 0, n + i), (f1 + (c1 % 3) * N, 1, v1),
    (f1 + ((c1 + 1) % 3) * N, 0, v1), (f1 + ((c1 + 1) % 3) * N, 1, v3),
    (f1 + ((c1 + 2) % 3) * N, 0, v3), (f1 + ((c1 + 2) % 3) * N, 1, n + i),
    (m + 2 * i + 0 * N, 0, n + i), (m + 2 * i + 0 * N, 1, v3),
    (m + 2 * i + 1 * N, 0, v3), (m + 2 * i + 1 * N, 1, v2),
    (m + 2 * i + 2 * N, 0, v2), (m + 2 * i + 2 * N, 1, n + i),
    (m + 2 * i + 1 + 0 * N, 0, v4), (m + 2 * i + 1 + 0 * N, 1, n + i),
    (m + 2 * i + 1 + 1 * N, 0, n + i), (m + 2 * i + 1 + 1 * N, 1, v2),
    (m + 2 * i + 1 + 2 * N, 0, v2), (m + 2 * i + 1 + 2 * N, 1, v4)]
  let EMAP ← S.EMAP.wrs [(f0 + (c0 % 3) * N, uei), (f0 + ((c0 + 1) % 3) * N, k + 3 * i + 1), (f0 + ((c0 + 2) % 3) * N, ue5),   -- lines 298-312
    (f1 + (c1 % 3) * N, uei), (f1 + ((c1 + 1) % 3) * N, ue2), (f1 + ((c1 + 2) % 3) * N, k + 3 * i),
    (m + 2 * i + 0 * N, k + 3 * i), (m + 2 * i + 1 * N, ue3), (m + 2 * i + 2 * N, k + 3 * i + 2),
    (m + 2 * i + 1 + 0 * N, k + 3 * i + 1), (m + 2 * i + 1 + 1 * N, k + 3 * i + 2), (m + 2 * i + 1 + 2 * N, ue4)]
  some ⟨V, F, E, uE, EMAP, A, high, low⟩

/-- First half of the body of the loop, `split_edges.cpp:132-173`: reads and asserts, followed by the assignments. -/
noncomputable def splitRead (n m k N i uei : ℕ) (S : SplitState) (e0 e1 f0 f1 c0 c1 e2 e3 e4 e5 : ℕ) : Option SplitState := do
  let ue2 ← S.EMAP.rd e2                                                              -- lines 132-135
  let ue3 ← S.EMAP.rd e3
  let ue4 ← S.EMAP.rd e4
  let ue5 ← S.EMAP.rd e5
  let g0 ← S.EMAP.rd e0
  let g1 ← S.EMAP.rd e1
  if ¬ (g0 = uei ∧ g1 = uei) then none else                                           -- lines 139-140
  let v1 ← S.F.rd f0 ((c0 + 1) % 3)                                                   -- lines 142-145
  let v2 ← S.F.rd f0 ((c0 + 2) % 3)
  let v4 ← S.F.rd f0 c0
  let v3 ← S.F.rd f1 c1
  let a20 ← S.E.rd e2 0                                                               -- lines 155-166
  let a21 ← S.E.rd e2 1
  let a30 ← S.E.rd e3 0
  let a31 ← S.E.rd e3 1
  let a40 ← S.E.rd e4 0
  let a41 ← S.E.rd e4 1
  let a50 ← S.E.rd e5 0
  let a51 ← S.E.rd e5 1
  let a00 ← S.E.rd e0 0
  let a01 ← S.E.rd e0 1
  let a10 ← S.E.rd e1 0
  let a11 ← S.E.rd e1 1
  if ¬ (a20 = v1 ∧ a21 = v3 ∧ a30 = v3 ∧ a31 = v2 ∧ a40 = v2 ∧ a41 = v4 ∧ a50 = v4 ∧ a51 = v1 ∧
    a00 = v1 ∧ a01 = v2 ∧ a10 = v2 ∧ a11 = v1) then none else
  if ¬ (c0 < 3 ∧ c1 < 3 ∧ f0 ≠ f1) then none else                                     -- lines 170-173
  splitWrite n m k N i uei S e0 e1 f0 f1 c0 c1 v1 v2 v3 v4 ue2 ue3 ue4 ue5 e2 e3 e4 e5

/-- Body of the loop, `split_edges.cpp:103-314`.  `n`, `m`, `k`: numbers of vertices, faces and unique edges before the splits, `N`: number
of faces after the splits. -/
noncomputable def splitStep (n m k N : ℕ) (i uei : ℕ) (S : SplitState) : Option SplitState := do
  let l ← S.uE2E.rd uei                                                               -- lines 107-108
  if l.length ≠ 2 then none else
  let e0 ← S.uE2E.rd2 uei 0                                                           -- lines 118-119
  let e1 ← S.uE2E.rd2 uei 1
  splitRead n m k N i uei S e0 e1 (e0 % N) (e1 % N) (e0 / N) (e1 / N)                 -- lines 121-124
    (e1 % N + ((e1 / N + 1) % 3) * N) (e1 % N + ((e1 / N + 2) % 3) * N)               -- lines 127-130
    (e0 % N + ((e0 / N + 1) % 3) * N) (e0 % N + ((e0 / N + 2) % 3) * N)

/-- `split_edges.cpp:44-61`: the loop that renumbers the halfedges. -/
def shiftTwins (m s : ℕ) (A : Arr (List ℕ)) : Option (Arr (List ℕ)) :=
  (List.range A.size).foldlM (fun A j => do
    let a0 ← A.rd2 j 0
    let add0 := if a0 ≥ 2 * m then 4 * s else if a0 ≥ m then 2 * s else 0
    let A ← A.wr2 j 0 (a0 + add0)
    let a1 ← A.rd2 j 1
    let add1 := if a1 ≥ 2 * m then 4 * s else if a1 ≥ m then 2 * s else 0
    A.wr2 j 1 (a1 + add1)) A

/-- `split_edges.cpp:85-100`: the three blocks of `E`/`EMAP` are moved to their new places, the rest is zero -/
def moveBlocks (m N : ℕ) {α : Type} (zero : α) (f : ℕ → α) (i : ℕ) : α :=
  if 2 * N ≤ i ∧ i < 2 * N + m then f (2 * m + (i - 2 * N))
  else if N ≤ i ∧ i < N + m then f (m + (i - N))
  else if i < m then f i
  else zero

/-- `split_edges.cpp:28-322`. -/
noncomputable def splitEdges (S : SplitState) (todo : List ℕ) : Option SplitState := do
  let n := S.V.size                                                                   -- lines 36-40
  let m := S.F.rows
  let r := S.uE2E.size
  let k := S.uE.rows
  let s := todo.length
  let A ← shiftTwins m s S.uE2E                                                       -- lines 44-61
  let N := m + 2 * s                                                                  -- lines 65-70
  if S.E.rows < 3 * m ∨ S.EMAP.size < 3 * m ∨ S.E.cols ≠ 2 then none else            -- Eigen's checks of the blocks
  let S1 : SplitState := {
    V := S.V.resize (n + s), F := S.F.resize N,                                       -- lines 73-77
    E := ⟨S.E.rows + 6 * s, 2, moveBlocks m N (fun _ => 0) S.E.val⟩,                  -- lines 85-94
    uE := S.uE.resize (k + 3 * s),
    EMAP := ⟨S.EMAP.size + 6 * s, moveBlocks m N 0 S.EMAP.val⟩,                       -- lines 87-100
    uE2E := ⟨r + 3 * s, fun j => if j < r then A.val j else [0, 0]⟩,                  -- lines 78-81
    high := S.high.resize (n + s), low := S.low.resize (n + s) }
  todo.zipIdx.foldlM (fun S p => splitStep n m k N p.2 p.1 S) S1                      -- line 103

end Gpy
