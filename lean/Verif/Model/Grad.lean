import Verif.Model.Intrinsic

namespace Gpy
open Np

noncomputable section

/-- `np.linalg.norm` of a row. -/
def V3.norm (v : V3 ℝ) : ℝ := Real.sqrt (V3.normSq v)

/-- `np.linspace(0,m-1,m,dtype=int) + k*m` (`grad.py:87-92`). -/
def gradRows (m k : ℕ) : List ℕ := (List.range m).map (fun f => k * m + f)

/-- One triangle of `grad.py:67-85`: the pair `(eperp02, eperp10)` and twice the area. -/
def gradTri (a b c : V3 ℝ) : (V3 ℝ × V3 ℝ) × ℝ :=
  let v21 := c - b                                                    -- line 72
  let v02 := a - c                                                    -- line 73
  let v10 := b - a                                                    -- line 74
  let n := V3.cross v21 v02                                           -- line 77
  let dblA := n.norm                                                  -- line 81
  let u : V3 ℝ := ⟨n.x / dblA, n.y / dblA, n.z / dblA⟩                -- line 82
  let w10 := V3.cross u v10
  let w02 := V3.cross u v02
  let eperp10 : V3 ℝ := (v10.norm / (dblA * w10.norm)) • w10           -- line 84
  let eperp02 : V3 ℝ := (v02.norm / (dblA * w02.norm)) • w02           -- line 85
  ((eperp02, eperp10), dblA)

/-- The three corner positions of a triangle; `none` = `IndexError`. -/
def cornersOf (V : List (V3 ℝ)) (t : Tri) : Option (V3 ℝ × V3 ℝ × V3 ℝ) := do
  let a ← V[t.a]?
  let b ← V[t.b]?
  let c ← V[t.c]?
  some (a, b, c)

/-- `grad.py:59-103`, triangle meshes in space (planar meshes are padded with `z = 0` in line 62; the third block of rows is
then dropped by lines 105-106, which is not modelled here).  `none` also when a triangle has zero area (division by zero). -/
def grad (V : List (V3 ℝ)) (F : List Tri) : Option (Csr ℝ) := do
  let X ← F.mapM (cornersOf V)
  let D := X.map (fun x => gradTri x.1 x.2.1 x.2.2)
  if ∀ d ∈ D, d.2 ≠ 0 then
    let m := F.length
    let e02 := D.map (fun d => d.1.1)
    let e10 := D.map (fun d => d.1.2)
    let I := gradRows m 0 ++ gradRows m 0 ++ gradRows m 0 ++ gradRows m 0
      ++ gradRows m 1 ++ gradRows m 1 ++ gradRows m 1 ++ gradRows m 1
      ++ gradRows m 2 ++ gradRows m 2 ++ gradRows m 2 ++ gradRows m 2                         -- lines 90-92
    let J1 := F.map (·.b) ++ F.map (·.a) ++ F.map (·.c) ++ F.map (·.a)                        -- line 95
    let J := J1 ++ J1 ++ J1                                                                   -- line 96
    let vals := e02.map (fun e => e.x) ++ e02.map (fun e => -e.x) ++ e10.map (fun e => e.x) ++ e10.map (fun e => -e.x)
      ++ e02.map (fun e => e.y) ++ e02.map (fun e => -e.y) ++ e10.map (fun e => e.y) ++ e10.map (fun e => -e.y)
      ++ e02.map (fun e => e.z) ++ e02.map (fun e => -e.z) ++ e10.map (fun e => e.z) ++ e10.map (fun e => -e.z)  -- 99-101
    csrMatrix vals I J (3 * m) V.length                                                       -- line 103
  else none

end
end Gpy
