import Verif.Proofs.Quadtree

/-! The recursion of `subdivide_quad` with `graded=True`. -/

set_option autoImplicit false
namespace Gpy
open Np

variable {K : Type} [Field K] {dim : ℕ}

/-- `Q'` is `Q` with cells added at the end and some leaves turned into inner cells. -/
structure QExt (Q Q' : Quad K dim) : Prop where
  len : Q.cells.length ≤ Q'.cells.length
  keep : ∀ (i : ℕ) c, Q.cells[i]? = some c → ∃ c', Q'.cells[i]? = some c' ∧ c'.C = c.C ∧ c'.W = c.W ∧ c'.D = c.D ∧ c'.PAR = c.PAR ∧
    (isLeafCell c = false → c' = c)
  A : ∀ i i', i < Q.cells.length → i' < Q.cells.length → Q'.A i i' = Q.A i i'

theorem QExt.refl (Q : Quad K dim) : QExt Q Q :=
  ⟨le_refl _, fun _ c h => ⟨c, h, rfl, rfl, rfl, rfl, fun _ => rfl⟩, fun _ _ _ _ => rfl⟩

theorem QExt.trans {Q Q' Q'' : Quad K dim} (h : QExt Q Q') (h' : QExt Q' Q'') : QExt Q Q'' where
  len := h.len.trans h'.len
  keep := by
    intro i c hc
    obtain ⟨c', h1, h2, h3, h4, h5, h6⟩ := h.keep i c hc
    obtain ⟨c'', g1, g2, g3, g4, g5, g6⟩ := h'.keep i c' h1
    refine ⟨c'', g1, by rw [g2, h2], by rw [g3, h3], by rw [g4, h4], by rw [g5, h5], fun hl => ?_⟩
    have e := h6 hl
    subst e
    exact g6 hl
  A := by
    intro i i' hi hi'
    rw [h'.A i i' (lt_of_lt_of_le hi h.len) (lt_of_lt_of_le hi' h.len), h.A i i' hi hi']

/-- Two touching leaves, the first one at least two levels finer than the second. -/
def Viol (Q : Quad K dim) (f x : ℕ) : Prop :=
  ∃ cf cx, Q.cells[f]? = some cf ∧ Q.cells[x]? = some cx ∧ isLeafCell cf = true ∧ isLeafCell cx = true ∧ Q.A f x ≠ 0 ∧ cx.D + 2 ≤ cf.D

/-- all violations are between levels that differ by two, the coarser of depth at least `d` -/
def PreV (Q : Quad K dim) (d : ℕ) : Prop :=
  ∀ (f x : ℕ) cf cx, Viol Q f x → Q.cells[f]? = some cf → Q.cells[x]? = some cx → d ≤ cx.D ∧ cf.D = cx.D + 2

theorem PreV.mono {Q Q' : Quad K dim} {d d' : ℕ} (h : PreV Q d) (hd : d' ≤ d) (hE : QExt Q Q') (hV : ∀ f x, Viol Q' f x → Viol Q f x) :
    PreV Q' d' := by
  intro f x cf' cx' hv hf hx
  have hv' := hV f x hv
  obtain ⟨cf, cx, h1, h2, -⟩ := id hv'
  obtain ⟨e1, e2⟩ := h f x cf cx hv' h1 h2
  obtain ⟨cf'', g1, -, -, g2, -⟩ := hE.keep f cf h1
  obtain ⟨cx'', g3, -, -, g4, -⟩ := hE.keep x cx h2
  rw [hf] at g1; cases g1
  rw [hx] at g3; cases g3
  omega

theorem code_dir {a : ℕ} (h1 : a ≤ 2 * dim) (h2 : a ≠ 0) : ∃ (j : Fin dim) (s : ℕ), s < 2 ∧ a = 2 * j.val + 1 + s :=
  ⟨⟨(a - 1) / 2, by omega⟩, (a - 1) % 2, by omega, by simp only; omega⟩

theorem QInv.A_symm {c0 : Fin dim → K} {w0 : K} {Q : Quad K dim} {ad : ℕ → Fin dim → ℕ} (h : QInv c0 w0 Q ad)
    {i i' : ℕ} {c c' : QuadCell K dim} (hc : Q.cells[i]? = some c) (hc' : Q.cells[i']? = some c') (hA : Q.A i i' ≠ 0) : Q.A i' i ≠ 0 := by
  obtain ⟨j, s, hs, e⟩ := code_dir (h.adj_le i i' (List.getElem?_eq_some_iff.mp hc).1 (List.getElem?_eq_some_iff.mp hc').1) hA
  have h1 := (h.adj i i' c c' hc hc' j s hs).mp e
  rw [adjZ_symm hs] at h1
  have h2 := (h.adj i' i c' c hc' hc j (1 - s) (by omega)).mpr h1
  omega

/-- a cell that touches a child of a leaf touches the leaf -/
theorem QInv.touch_parent {c0 : Fin dim → K} {w0 : K} {Q : Quad K dim} {ad : ℕ → Fin dim → ℕ} (hd : dim = 2 ∨ dim = 3)
    (h : QInv c0 w0 Q ad) {ind x : ℕ} {c b : QuadCell K dim} (hc : Q.cells[ind]? = some c) (hb : Q.cells[x]? = some b)
    (hl : isLeafCell c = true) {k : ℕ} {j : Fin dim} {s : ℕ} (hs : s < 2)
    (ha : adjZ (b.D - 1) (ad x) c.D (fun i : Fin dim => 2 * ad ind i + kbit k i) j s) : Q.A x ind = 2 * j.val + 1 + s := by
  have hc1 := (h.geom ind c hc).1
  have hcD : c.D = (c.D - 1) + 1 := by omega
  rw [h.adj x ind b c hb hc j s hs]
  rw [hcD] at ha
  by_cases hle : b.D ≤ c.D
  · exact ((adjZ_child_coarse hs (by omega) (fun i => kbit_lt k i)).mp ha).1
  · exact ((adjZ_child_fine hs (by have := (h.geom x b hb).1; omega) (fun i => kbit_lt k i)
      (h.no_inside hd hc hb hl (by omega))).mp ha).1

variable [CharZero K]

/-- what one subdivision does, in terms of extension and violations -/
theorem subdivideOnce_ext {c0 : Fin dim → K} {w0 : K} {Q : Quad K dim} {ad : ℕ → Fin dim → ℕ} (hd : dim = 2 ∨ dim = 3)
    (h : QInv c0 w0 Q ad) {ind : ℕ} {c : QuadCell K dim} (hc : Q.cells[ind]? = some c) (hl : isLeafCell c = true) :
    ∃ Q', subdivideOnce Q ind = some Q' ∧ (∃ ad', QInv c0 w0 Q' ad') ∧ QExt Q Q' ∧
      (∃ c', Q'.cells[ind]? = some c' ∧ isLeafCell c' = false) ∧
      (∀ i c', Q.cells.length ≤ i → Q'.cells[i]? = some c' → c'.D = c.D + 1) ∧
      (∀ i c', i ≠ ind → i < Q.cells.length → Q'.cells[i]? = some c' → Q.cells[i]? = some c') ∧
      (PreV Q c.D → ∀ f x, Viol Q' f x → Viol Q f x ∨
        ∃ cx, Q.cells[x]? = some cx ∧ cx.D + 1 = c.D ∧ Q.A x ind ≠ 0 ∧ Q.cells.length ≤ f) := by
  obtain ⟨Q', h1, h2, h3, h4⟩ := subdivideOnce_spec hd h hc hl
  have hind : ind < Q.cells.length := (List.getElem?_eq_some_iff.mp hc).1
  have hget := fun (i : ℕ) (x : QuadCell K dim) => subCells_get (i := i) (x := x) hc
  have hpar : Q'.cells[ind]? = some { c with CH := chRow dim Q.cells.length } := by
    rw [h2, hget]; right; left; exact ⟨hind, rfl, rfl⟩
  have hnl : isLeafCell { c with CH := chRow dim Q.cells.length } = false := by
    unfold isLeafCell
    rw [chRow_get _ 1 (by have := two_le_pow hd; omega), beq_eq_false_iff_ne]
    intro e
    have := Option.some.inj e
    omega
  refine ⟨Q', h1, ⟨_, h4⟩, ⟨?_, ?_, h3⟩, ⟨_, hpar, hnl⟩, ?_, ?_, ?_⟩
  · rw [h2]; unfold subCells; simp
  · intro i x hx
    by_cases hi : i = ind
    · subst hi
      rw [hc] at hx; cases hx
      exact ⟨_, hpar, rfl, rfl, rfl, rfl, fun e => by rw [hl] at e; exact absurd e (by simp)⟩
    · exact ⟨x, by rw [h2, hget]; exact Or.inl ⟨(List.getElem?_eq_some_iff.mp hx).1, hi, hx⟩, rfl, rfl, rfl, rfl, fun _ => rfl⟩
  · intro i c' hi hx
    rw [h2, hget] at hx
    rcases hx with e | e | e
    · omega
    · omega
    · rw [e.2.2]; rfl
  · intro i c' hi hlt hx
    rw [h2, hget] at hx
    rcases hx with e | e | e
    · exact e.2.2
    · exact absurd e.2.1 hi
    · omega
  · intro hP f x hv
    obtain ⟨cf, cx, hf, hx, lf, lx, hA, hD⟩ := hv
    have hf' := hf
    have hx' := hx
    rw [h2, hget] at hf hx
    have hfi : f ≠ ind := by
      rintro rfl; rw [hpar] at hf'; cases hf'; rw [hnl] at lf; exact absurd lf (by simp)
    have hxi : x ≠ ind := by
      rintro rfl; rw [hpar] at hx'; cases hx'; rw [hnl] at lx; exact absurd lx (by simp)
    have hc1 := (h.geom ind c hc).1
    rcases hf with ef | ef | ef
    · rcases hx with ex | ex | ex
      · rw [h3 f x ef.1 ex.1] at hA
        exact Or.inl ⟨cf, cx, ef.2.2, ex.2.2, lf, lx, hA, hD⟩
      · exact absurd ex.2.1 hxi
      · -- `x` is new
        exfalso
        obtain ⟨j, s, hs, e⟩ := code_dir (h4.adj_le f x (List.getElem?_eq_some_iff.mp hf').1 (List.getElem?_eq_some_iff.mp hx').1) hA
        have ha := (h4.adj f x cf cx hf' hx' j s hs).mp e
        rw [ex.2.2] at ha hD
        have e1 : subAd Q.cells.length ad ind f = ad f := by funext j; unfold subAd; rw [if_pos ef.1]
        have e2 : subAd Q.cells.length ad ind x = fun j => 2 * ad ind j + kbit (x - Q.cells.length) j := by
          funext j; unfold subAd; rw [if_neg (by omega)]
        rw [e1, e2] at ha
        have ht := h.touch_parent hd hc ef.2.2 hl hs ha
        have hDx : (quadChild c ind (x - Q.cells.length)).D = c.D + 1 := rfl
        rw [hDx] at hD
        have hv : Viol Q f ind := ⟨cf, c, ef.2.2, hc, lf, hl, by omega, by omega⟩
        have := hP f ind cf c hv ef.2.2 hc
        omega
    · exact absurd ef.2.1 hfi
    · have hDf : cf.D = c.D + 1 := by rw [ef.2.2]; rfl
      rcases hx with ex | ex | ex
      · -- `f` is new
        right
        obtain ⟨j, s, hs, e⟩ := code_dir (h4.adj_le x f (List.getElem?_eq_some_iff.mp hx').1 (List.getElem?_eq_some_iff.mp hf').1)
          (h4.A_symm hf' hx' hA)
        have ha := (h4.adj x f cx cf hx' hf' j s hs).mp e
        rw [ef.2.2] at ha
        have e1 : subAd Q.cells.length ad ind x = ad x := by funext j; unfold subAd; rw [if_pos ex.1]
        have e2 : subAd Q.cells.length ad ind f = fun j => 2 * ad ind j + kbit (f - Q.cells.length) j := by
          funext j; unfold subAd; rw [if_neg (by omega)]
        rw [e1, e2] at ha
        have ht := h.touch_parent hd hc ex.2.2 hl hs ha
        have hne : Q.A x ind ≠ 0 := by omega
        refine ⟨cx, ex.2.2, ?_, hne, ef.1⟩
        by_contra hcon
        have hv : Viol Q ind x := ⟨c, cx, hc, ex.2.2, hl, lx, h.A_symm ex.2.2 hc hne, by omega⟩
        have := hP ind x c cx hv hc ex.2.2
        omega
      · exact absurd ex.2.1 hxi
      · have : cx.D = c.D + 1 := by rw [ex.2.2]; rfl
        omega

/-- The whole recursion: it returns, keeps the invariant, turns `ind` into an inner cell, and with `graded=True` creates no violation. -/
theorem subdivideQuad_spec {c0 : Fin dim → K} {w0 : K} (hd : dim = 2 ∨ dim = 3) (graded : Bool) :
    ∀ (fuel : ℕ) (Q : Quad K dim) (ad : ℕ → Fin dim → ℕ) (ind : ℕ) (c : QuadCell K dim), QInv c0 w0 Q ad → Q.cells[ind]? = some c →
      isLeafCell c = true → c.D ≤ fuel →
      ∃ Q', subdivideQuad graded fuel Q ind = some Q' ∧ (∃ ad', QInv c0 w0 Q' ad') ∧ QExt Q Q' ∧
        (∃ c', Q'.cells[ind]? = some c' ∧ isLeafCell c' = false) ∧
        (∀ i c', Q.cells.length ≤ i → Q'.cells[i]? = some c' → c'.D ≤ c.D + 1) ∧
        (graded = true → PreV Q c.D → ∀ f x, Viol Q' f x → Viol Q f x)
  | 0, Q, ad, ind, c, h, hc, hl, hf => by
    have := (h.geom ind c hc).1
    omega
  | fuel + 1, Q, ad, ind, c, h, hc, hl, hf => by
    obtain ⟨Q2, h1, ⟨ad2, h2⟩, hE, ⟨ci, hci, hcil⟩, hnewD, hsame, hviol⟩ := subdivideOnce_ext hd h hc hl
    rw [subdivideQuad]
    simp only [hc, h1, Option.bind_eq_bind, Option.bind_some]
    cases graded with
    | false =>
      refine ⟨Q2, by simp, ⟨ad2, h2⟩, hE, ⟨ci, hci, hcil⟩, fun i c' hi hx => (hnewD i c' hi hx).le, by simp⟩
    | true =>
      simp only [if_true]
      have loop : ∀ (L : List ℕ) (Qc : Quad K dim) (adc : ℕ → Fin dim → ℕ), QInv c0 w0 Qc adc → (∀ nb ∈ L, nb < Qc.cells.length) →
          ∃ Q', L.foldlM (fun Q' nb => (Q'.cells[nb]?).bind (fun b =>
              if (isLeafCell b && decide (b.D < c.D)) = true then subdivideQuad true fuel Q' nb else some Q')) Qc = some Q' ∧
            (∃ ad', QInv c0 w0 Q' ad') ∧ QExt Qc Q' ∧
            (∀ nb ∈ L, ∀ b, Q'.cells[nb]? = some b → isLeafCell b = false ∨ c.D ≤ b.D) ∧
            (∀ i c', Qc.cells.length ≤ i → Q'.cells[i]? = some c' → c'.D ≤ c.D) ∧
            (PreV Qc (c.D - 1) → ∀ f x, Viol Q' f x → Viol Qc f x) := by
        intro L
        induction L with
        | nil =>
          intro Qc adc hQ _
          refine ⟨Qc, rfl, ⟨adc, hQ⟩, QExt.refl Qc, by simp, ?_, fun _ _ _ hv => hv⟩
          intro i c' hi hx
          have := (List.getElem?_eq_some_iff.mp hx).1
          omega
        | cons nb L ih =>
          intro Qc adc hQ hL
          have hnb : nb < Qc.cells.length := hL nb (by simp)
          have hget : Qc.cells[nb]? = some Qc.cells[nb] := List.getElem?_eq_getElem hnb
          rw [List.foldlM_cons]
          simp only [hget, Option.bind_eq_bind, Option.bind_some]
          by_cases hcond : (isLeafCell Qc.cells[nb] && decide (Qc.cells[nb].D < c.D)) = true
          · rw [if_pos hcond]
            rw [Bool.and_eq_true, decide_eq_true_eq] at hcond
            obtain ⟨Q3, g1, ⟨ad3, g2⟩, g3, ⟨cn, g4, g4'⟩, g5, g6⟩ :=
              subdivideQuad_spec hd true fuel Qc adc nb Qc.cells[nb] hQ hget hcond.1 (by omega)
            obtain ⟨Q4, k1, k2, k3, k4, k5, k6⟩ := ih Q3 ad3 g2 (fun y hy => lt_of_lt_of_le (hL y (by simp [hy])) g3.len)
            refine ⟨Q4, ?_, k2, g3.trans k3, ?_, ?_, ?_⟩
            · rw [g1, Option.bind_some]; exact k1
            · intro y hy b hb
              rcases List.mem_cons.mp hy with rfl | hy
              · obtain ⟨c', e1, -, -, -, -, e2⟩ := k3.keep y cn g4
                rw [hb] at e1; cases e1
                rw [e2 g4']; exact Or.inl g4'
              · exact k4 y hy b hb
            · intro i c' hi hx
              by_cases hi3 : i < Q3.cells.length
              · have e0 : Q3.cells[i]? = some Q3.cells[i] := List.getElem?_eq_getElem hi3
                obtain ⟨c'', e1, -, -, e3, -⟩ := k3.keep i _ e0
                rw [hx] at e1; cases e1
                have := g5 i _ hi e0
                omega
              · exact k5 i c' (by omega) hx
            · intro hP f x hv
              have hsub := g6 rfl (hP.mono (by omega) (QExt.refl Qc) (fun _ _ h => h))
              exact hsub f x (k6 (hP.mono (le_refl _) g3 hsub) f x hv)
          · rw [if_neg hcond, Option.bind_some]
            obtain ⟨Q4, k1, k2, k3, k4, k5, k6⟩ := ih Qc adc hQ (fun y hy => hL y (by simp [hy]))
            refine ⟨Q4, k1, k2, k3, ?_, k5, k6⟩
            intro y hy b hb
            rcases List.mem_cons.mp hy with rfl | hy
            · rw [Bool.and_eq_true, decide_eq_true_eq, not_and_or] at hcond
              obtain ⟨c', e1, -, -, e3, -, e2⟩ := k3.keep y _ hget
              rw [hb] at e1; cases e1
              rcases hcond with hcond | hcond
              · have hcf : isLeafCell Qc.cells[y] = false := by simpa using hcond
                rw [e2 hcf]; exact Or.inl hcf
              · right; omega
            · exact k4 y hy b hb
      obtain ⟨Q4, k1, k2, k3, k4, k5, k6⟩ := loop (quadNeighbors Q2.A Q2.cells.length ind) Q2 ad2 h2 (by
        intro nb hnb
        unfold quadNeighbors at hnb
        rw [List.mem_filter, List.mem_range] at hnb
        exact hnb.1)
      refine ⟨Q4, k1, k2, hE.trans k3, ?_, ?_, ?_⟩
      · obtain ⟨c', e1, -, -, -, -, e2⟩ := k3.keep ind ci hci
        exact ⟨c', e1, by rw [e2 hcil]; exact hcil⟩
      · intro i c' hi hx
        by_cases hi2 : i < Q2.cells.length
        · have e0 : Q2.cells[i]? = some Q2.cells[i] := List.getElem?_eq_getElem hi2
          obtain ⟨c'', e1, -, -, e3, -⟩ := k3.keep i _ e0
          rw [hx] at e1; cases e1
          have := hnewD i _ hi e0
          omega
        · have := k5 i c' (by omega) hx
          omega
      · intro _ hP f x hv
        have hind : ind < Q.cells.length := (List.getElem?_eq_some_iff.mp hc).1
        have hP2 : PreV Q2 (c.D - 1) := by
          intro f x cf cx hv hf hx
          rcases hviol hP f x hv with hv' | ⟨cx0, e1, e2, -, e3⟩
          · obtain ⟨cf0, cx0, g1, g2, -⟩ := id hv'
            obtain ⟨e1, e2⟩ := hP f x cf0 cx0 hv' g1 g2
            obtain ⟨cf1, g3, -, -, g4, -⟩ := hE.keep f cf0 g1
            obtain ⟨cx1, g5, -, -, g6, -⟩ := hE.keep x cx0 g2
            rw [hf] at g3; cases g3
            rw [hx] at g5; cases g5
            omega
          · obtain ⟨cx1, g5, -, -, g6, -⟩ := hE.keep x cx0 e1
            rw [hx] at g5; cases g5
            have := hnewD f cf e3 hf
            omega
        have hv2 := k6 hP2 f x hv
        rcases hviol hP f x hv2 with hv' | ⟨cx0, e1, e2, e3, -⟩
        · exact hv'
        · exfalso
          have hxlt : x < Q.cells.length := (List.getElem?_eq_some_iff.mp e1).1
          have hmem : x ∈ quadNeighbors Q2.A Q2.cells.length ind := by
            unfold quadNeighbors
            rw [List.mem_filter, List.mem_range]
            refine ⟨lt_of_lt_of_le hxlt hE.len, ?_⟩
            rw [hE.A x ind hxlt hind]
            simpa using e3
          obtain ⟨cf, cx, -, hx, -, lx, -, -⟩ := hv
          obtain ⟨cx', g5, -, -, g6, -⟩ := (hE.trans k3).keep x cx0 e1
          rw [hx] at g5; cases g5
          rcases k4 x hmem cx hx with e | e
          · rw [lx] at e; exact absurd e (by simp)
          · omega

end Gpy
