import Verif.Spec.Aabb

namespace Gpy
open Np
variable {d : ℕ}

theorem foldl_min_spec {α : Type*} (f : α → ℝ) (l : List α) (a : ℝ) :
    (l.foldl (fun acc x => min acc (f x)) a ≤ a ∧ ∀ x ∈ l, l.foldl (fun acc x => min acc (f x)) a ≤ f x) ∧
    (l.foldl (fun acc x => min acc (f x)) a = a ∨ ∃ x ∈ l, l.foldl (fun acc x => min acc (f x)) a = f x) := by
  induction l generalizing a with
  | nil => simp
  | cons b t ih =>
    simp only [List.foldl_cons]
    obtain ⟨⟨h1, h2⟩, h3⟩ := ih (min a (f b))
    refine ⟨⟨h1.trans (min_le_left _ _), ?_⟩, ?_⟩
    · intro x hx
      rcases List.mem_cons.mp hx with rfl | hx
      · exact h1.trans (min_le_right _ _)
      · exact h2 x hx
    · rcases h3 with h3 | ⟨x, hx, h3⟩
      · rcases min_choice a (f b) with h | h
        · left; rw [h3, h]
        · right; exact ⟨b, by simp, by rw [h3, h]⟩
      · right; exact ⟨x, by simp [hx], h3⟩

theorem foldl_max_spec {α : Type*} (f : α → ℝ) (l : List α) (a : ℝ) :
    (a ≤ l.foldl (fun acc x => max acc (f x)) a ∧ ∀ x ∈ l, f x ≤ l.foldl (fun acc x => max acc (f x)) a) ∧
    (l.foldl (fun acc x => max acc (f x)) a = a ∨ ∃ x ∈ l, l.foldl (fun acc x => max acc (f x)) a = f x) := by
  induction l generalizing a with
  | nil => simp
  | cons b t ih =>
    simp only [List.foldl_cons]
    obtain ⟨⟨h1, h2⟩, h3⟩ := ih (max a (f b))
    refine ⟨⟨(le_max_left _ _).trans h1, ?_⟩, ?_⟩
    · intro x hx
      rcases List.mem_cons.mp hx with rfl | hx
      · exact (le_max_right _ _).trans h1
      · exact h2 x hx
    · rcases h3 with h3 | ⟨x, hx, h3⟩
      · rcases max_choice a (f b) with h | h
        · left; rw [h3, h]
        · right; exact ⟨b, by simp, by rw [h3, h]⟩
      · right; exact ⟨x, by simp [hx], h3⟩

theorem npAmin_spec {l : List (Pt d)} (h : l ≠ []) :
    ∃ m, npAmin l = some m ∧ (∀ x ∈ l, ∀ j, m j ≤ x j) ∧ ∀ j, ∃ x ∈ l, x j = m j := by
  cases l with
  | nil => simp at h
  | cons a t =>
    refine ⟨_, rfl, ?_, ?_⟩
    · intro x hx j
      obtain ⟨⟨h1, h2⟩, _⟩ := foldl_min_spec (fun y : Pt d => y j) t (a j)
      rcases List.mem_cons.mp hx with rfl | hx
      · exact h1
      · exact h2 x hx
    · intro j
      obtain ⟨_, h3 | ⟨x, hx, h3⟩⟩ := foldl_min_spec (fun y : Pt d => y j) t (a j)
      · exact ⟨a, by simp, h3.symm⟩
      · exact ⟨x, by simp [hx], h3.symm⟩

theorem npAmax_spec {l : List (Pt d)} (h : l ≠ []) :
    ∃ m, npAmax l = some m ∧ (∀ x ∈ l, ∀ j, x j ≤ m j) ∧ ∀ j, ∃ x ∈ l, x j = m j := by
  cases l with
  | nil => simp at h
  | cons a t =>
    refine ⟨_, rfl, ?_, ?_⟩
    · intro x hx j
      obtain ⟨⟨h1, h2⟩, _⟩ := foldl_max_spec (fun y : Pt d => y j) t (a j)
      rcases List.mem_cons.mp hx with rfl | hx
      · exact h1
      · exact h2 x hx
    · intro j
      obtain ⟨_, h3 | ⟨x, hx, h3⟩⟩ := foldl_max_spec (fun y : Pt d => y j) t (a j)
      · exact ⟨a, by simp, h3.symm⟩
      · exact ⟨x, by simp [hx], h3.symm⟩

theorem npArgmax_some [NeZero d] (x : Pt d) : ∃ b, npArgmax x = some b ∧ ∀ j, x j ≤ x b := by
  unfold npArgmax
  cases h : (List.finRange d).argmax x with
  | none =>
    rw [List.argmax_eq_none] at h
    have := congrArg List.length h
    simp at this
    exact absurd this (NeZero.ne d)
  | some b => exact ⟨b, rfl, fun j => List.le_of_mem_argmax (List.mem_finRange j) h⟩

/-- the box of the node is the exact hull of the element boxes -/
structure Hull (bx : ℕ → Pt d × Pt d) (n : AabbNode d) : Prop where
  lo : ∀ e ∈ n.tris, ∀ j, n.C j - n.W j / 2 ≤ (bx e).1 j
  hi : ∀ e ∈ n.tris, ∀ j, (bx e).2 j ≤ n.C j + n.W j / 2
  lo' : ∀ j, ∃ e ∈ n.tris, (bx e).1 j = n.C j - n.W j / 2
  hi' : ∀ j, ∃ e ∈ n.tris, (bx e).2 j = n.C j + n.W j / 2

theorem hull_fresh {bx : ℕ → Pt d × Pt d} {tris : List ℕ} (h : tris ≠ []) (par : Int) (D : ℕ) :
    ∃ hi lo, npAmax (tris.map (fun e => (bx e).2)) = some hi ∧ npAmin (tris.map (fun e => (bx e).1)) = some lo ∧
      Hull bx (freshNode (fun j => 0.5 * (hi j + lo j)) (fun j => hi j - lo j) par D tris) := by
  obtain ⟨hi, h1, h2, h3⟩ := npAmax_spec (l := tris.map (fun e => (bx e).2)) (by simpa using h)
  obtain ⟨lo, h4, h5, h6⟩ := npAmin_spec (l := tris.map (fun e => (bx e).1)) (by simpa using h)
  refine ⟨hi, lo, h1, h4, ?_⟩
  have e1 : ∀ j, 0.5 * (hi j + lo j) - (hi j - lo j) / 2 = lo j := by intro j; ring
  have e2 : ∀ j, 0.5 * (hi j + lo j) + (hi j - lo j) / 2 = hi j := by intro j; ring
  constructor
  · intro e he j; simp only [freshNode, e1] at *; exact h5 _ (List.mem_map_of_mem he) j
  · intro e he j; simp only [freshNode, e2] at *; exact h2 _ (List.mem_map_of_mem he) j
  · intro j; simp only [freshNode, e1]
    obtain ⟨x, hx, h⟩ := h6 j
    obtain ⟨e, he, rfl⟩ := List.mem_map.mp hx
    exact ⟨e, he, h⟩
  · intro j; simp only [freshNode, e2]
    obtain ⟨x, hx, h⟩ := h3 j
    obtain ⟨e, he, rfl⟩ := List.mem_map.mp hx
    exact ⟨e, he, h⟩

theorem take_getElem? {α : Type*} {l : List α} (dflt : α) {idx : List ℕ} (h : ∀ k ∈ idx, k < l.length) :
    idx.mapM (fun k => l[k]?) = some (idx.map (fun k => l.getD k dflt)) := by
  apply mapM_eq_some_map
  intro k hk
  rw [List.getD_eq_getElem?_getD, List.getElem?_eq_getElem (h k hk)]; rfl

theorem map_getD_range {α : Type*} (l : List α) (dflt : α) : (List.range l.length).map (fun k => l.getD k dflt) = l := by
  apply List.ext_getElem (by simp)
  intro i h1 h2
  simp at h1
  simp [h1]

theorem halfBox_spec {bx : ℕ → Pt d × Pt d} {tris inds : List ℕ} (hne : inds ≠ []) (hin : ∀ k ∈ inds, k < tris.length)
    (par : Int) (D : ℕ) :
    ∃ c, halfBox ((tris.map bx).map Prod.fst) ((tris.map bx).map Prod.snd) tris inds par D = some c ∧
      c.tris = inds.map (fun k => tris.getD k 0) ∧ c = freshNode c.C c.W par D c.tris ∧ Hull bx c := by
  have hpick : ∀ g : Pt d × Pt d → Pt d,
      inds.mapM (fun k => ((tris.map bx).map g)[k]?) = some ((inds.map (fun k => tris.getD k 0)).map (fun e => g (bx e))) := by
    intro g
    rw [List.map_map, List.map_map]
    apply mapM_eq_some_map
    intro k hk
    have := hin k hk
    simp [List.getD_eq_getElem?_getD, this]
  obtain ⟨hi, lo, m1, m2, H⟩ := hull_fresh (bx := bx) (tris := inds.map (fun k => tris.getD k 0)) (by simpa using hne) par D
  refine ⟨_, ?_, rfl, rfl, H⟩
  unfold halfBox
  rw [hpick Prod.snd, hpick Prod.fst, take_getElem? 0 hin]
  simp only [Option.bind_eq_bind, Option.bind_some, m1, m2]

theorem subdivideBox_spec [NeZero d] {argsort : List ℝ → List ℕ} (hA : IsArgsort argsort)
    {boxes : List (Pt d × Pt d)} {bx : ℕ → Pt d × Pt d} (hbx : bx = fun e => boxes.getD e (0, 0))
    {i : ℕ} {T : List (AabbNode d)} {node : AabbNode d} (hT : T[i]? = some node) (h2 : 2 ≤ node.tris.length)
    (hr : ∀ e ∈ node.tris, e < boxes.length) :
    ∃ (cl cr : AabbNode d) (b : Fin d),
      subdivideBox argsort boxes i T = some (T.set i { node with ch0 := T.length, ch1 := T.length + 1, split := b.val } ++ [cl, cr]) ∧
      (cl.tris ++ cr.tris).Perm node.tris ∧ cl.tris.length = node.tris.length / 2 ∧
      cl = freshNode cl.C cl.W i (node.D + 1) cl.tris ∧ cr = freshNode cr.C cr.W i (node.D + 1) cr.tris ∧
      Hull bx cl ∧ Hull bx cr ∧
      (∀ x ∈ cl.tris, ∀ y ∈ cr.tris, (bx x).2 b ≤ (bx y).2 b) := by
  set tris := node.tris with htris
  have hne : tris ≠ [] := by intro h; rw [h] at h2; simp at h2
  have hB : tris.mapM (fun t => boxes[t]?) = some (tris.map bx) := by rw [hbx]; exact take_getElem? _ hr
  obtain ⟨hi, hhi, -⟩ := npAmax_spec (l := (tris.map bx).map Prod.snd) (by simpa using hne)
  obtain ⟨lo, hlo, -⟩ := npAmin_spec (l := (tris.map bx).map Prod.fst) (by simpa using hne)
  obtain ⟨b, hb, -⟩ := npArgmax_some (fun j => hi j - lo j)
  set vals := ((tris.map bx).map Prod.snd).map (fun x => x b) with hvals
  set sorted := argsort vals with hsorted
  have hp := hA.perm vals
  have hvl : vals.length = tris.length := by simp [hvals]
  rw [hvl, ← hsorted] at hp
  have hsl : sorted.length = tris.length := by rw [hp.length_eq]; simp
  obtain ⟨left, hleft⟩ : ∃ l, l = sorted.take (tris.length / 2) := ⟨_, rfl⟩
  obtain ⟨right, hright⟩ : ∃ l, l = (sorted.take tris.length).drop (tris.length / 2) := ⟨_, rfl⟩
  have hright' : right = sorted.drop (tris.length / 2) := by
    rw [hright, List.take_of_length_le (by rw [hsl])]
  have hmem : ∀ k ∈ sorted, k < tris.length := fun k hk => List.mem_range.mp (hp.subset hk)
  have hl : ∀ k ∈ left, k < tris.length := fun k hk => hmem k (List.mem_of_mem_take (hleft ▸ hk))
  have hrr : ∀ k ∈ right, k < tris.length := fun k hk => hmem k (List.mem_of_mem_drop (hright' ▸ hk))
  have hll : left.length = tris.length / 2 := by
    rw [hleft, List.length_take, hsl]; omega
  have hrl : right.length = tris.length - tris.length / 2 := by
    rw [hright', List.length_drop, hsl]
  have hneL : left ≠ [] := by
    intro h; rw [h] at hll; simp at hll; omega
  have hneR : right ≠ [] := by
    intro h; rw [h] at hrl; simp at hrl; omega
  obtain ⟨cl, e1, e2, e3, HL⟩ := halfBox_spec (bx := bx) hneL hl (i : Int) (node.D + 1)
  obtain ⟨cr, e4, e5, e6, HR⟩ := halfBox_spec (bx := bx) hneR hrr (i : Int) (node.D + 1)
  refine ⟨cl, cr, b, ?_, ?_, ?_, e3, e6, HL, HR, ?_⟩
  · have hsa : sortAlong argsort ((tris.map bx).map Prod.fst) ((tris.map bx).map Prod.snd) = some (b, sorted) := by
      unfold sortAlong
      rw [hhi, hlo]
      simp only [Option.bind_eq_bind, Option.bind_some, hb]
      rfl
    unfold subdivideBox
    rw [hT, Option.bind_eq_bind, Option.bind_some, ← htris, hB, Option.bind_eq_bind, Option.bind_some, hsa,
      Option.bind_eq_bind, Option.bind_some, ← hleft, ← hright, e1, e4]
    rfl
  · rw [e2, e5, ← List.map_append, hright', hleft, List.take_append_drop]
    have := hp.map (fun k => tris.getD k 0)
    rwa [map_getD_range] at this
  · rw [e2, List.length_map, hll]
  · intro x hx y hy
    rw [e2] at hx
    rw [e5] at hy
    obtain ⟨kx, hkx, rfl⟩ := List.mem_map.mp hx
    obtain ⟨ky, hky, rfl⟩ := List.mem_map.mp hy
    have hs := hA.sorted vals
    rw [← hsorted, ← List.take_append_drop (tris.length / 2) sorted, ← hleft, ← hright', List.map_append,
      List.pairwise_append] at hs
    have := hs.2.2 _ (List.mem_map_of_mem hkx) _ (List.mem_map_of_mem hky)
    have hv : ∀ k < tris.length, vals.getD k 0 = (bx (tris.getD k 0)).2 b := by
      intro k hk
      simp [hvals, List.getD_eq_getElem?_getD, hk]
    rwa [hv _ (hl _ hkx), hv _ (hrr _ hky)] at this

end Gpy
