import Verif.Proofs.CutLabels

/-! C15: `cut_edges`. -/

set_option autoImplicit false
namespace Gpy
open Np

/-- corners that are connected are at the same vertex -/
theorem CutAdj.conn_same {F : List Tri} {E : List Edge} {x y : ℕ × Fin 3} (h : Relation.EqvGen (CutAdj F E) x y) :
    F[x.1]?.map (fun t => t.corner x.2) = F[y.1]?.map (fun t => t.corner y.2) := by
  induction h with
  | rel x y h =>
    obtain ⟨t, t', h1, h2, h3, -⟩ := h
    rw [h1, h2, Option.map_some, Option.map_some, h3]
  | refl => rfl
  | symm _ _ _ ih => exact ih.symm
  | trans _ _ _ _ _ ih1 ih2 => exact ih1.trans ih2

/-- C15.  For a non-empty mesh and a non-empty list of edges, `cut_edges(F,E)` returns `(G,I)` with the faces of `F` renumbered: corner `c`
of face `f` is the entry `G[f,c]` (number `3f+c` of the row-major list), `I[G]==F`, two corners get the same new vertex exactly when they
are linked by a chain of triangles around that vertex in which consecutive triangles share an edge at that vertex that is not listed
in `E`, and every new vertex is used. -/
theorem C15_cut_edges (cc : ℕ → (ℕ → ℕ → ℕ) → List ℕ) (hcc : IsConnectedComponents cc) (F : List Tri) (hF : F ≠ [])
    (E : List Edge) (hE : E ≠ []) :
    ∃ (G : List Int) (I : List ℕ), cutEdges cc F E = some (G, I) ∧ G.length = 3 * F.length ∧
      (∀ (f : ℕ) (t : Tri) (c : Fin 3), F[f]? = some t → ∃ g : ℕ, G[3 * f + c.val]? = some (g : Int) ∧ I[g]? = some (t.corner c)) ∧
      (∀ x y : ℕ × Fin 3, x.1 < F.length → y.1 < F.length →
        (G[3 * x.1 + x.2.val]? = G[3 * y.1 + y.2.val]? ↔ Relation.EqvGen (CutAdj F E) x y)) ∧
      ∀ g < I.length, ∃ (f : ℕ) (c : Fin 3), f < F.length ∧ G[3 * f + c.val]? = some (g : Int) := by
  obtain ⟨A, h1, h2⟩ := cutLabels_spec cc hF hE
  obtain ⟨labels, hlab⟩ : ∃ l, l = cc (3 * F.length) A := ⟨_, rfl⟩
  have hlen : labels.length = 3 * F.length := by rw [hlab]; exact hcc.length _ _
  have hconn : ∀ x y : ℕ × Fin 3, x.1 < F.length → y.1 < F.length →
      (labels[enc F.length x]? = labels[enc F.length y]? ↔ Relation.EqvGen (CutAdj F E) x y) := by
    intro x y hx hy
    rw [hlab, hcc.connected _ _ _ _ (enc_lt hx) (enc_lt hy)]
    constructor
    · intro h
      have key : ∀ a b, Relation.EqvGen (fun a b => a < 3 * F.length ∧ b < 3 * F.length ∧ A a b ≠ 0) a b →
          Relation.EqvGen (CutAdj F E) (dec F.length a) (dec F.length b) := by
        intro a b h
        induction h with
        | rel a b h =>
          obtain ⟨ha, hb, hab⟩ := h
          obtain ⟨a1, a2⟩ := enc_dec ha
          obtain ⟨b1, b2⟩ := enc_dec hb
          rw [← a1, ← b1] at hab
          exact .rel _ _ ((h2 _ _ a2 b2).mp hab)
        | refl => exact .refl _
        | symm _ _ _ ih => exact ih.symm
        | trans _ _ _ _ _ ih1 ih2 => exact ih1.trans _ _ _ ih2
      have e : ∀ z : ℕ × Fin 3, z.1 < F.length → dec F.length (enc F.length z) = z := fun z hz => by
        obtain ⟨c1, c2⟩ := enc_dec (enc_lt hz)
        exact enc_inj c2 hz c1
      have := key _ _ h
      rwa [e x hx, e y hy] at this
    · intro h
      have key : ∀ x y, Relation.EqvGen (CutAdj F E) x y →
          Relation.EqvGen (fun a b => a < 3 * F.length ∧ b < 3 * F.length ∧ A a b ≠ 0) (enc F.length x) (enc F.length y) := by
        intro x y h
        induction h with
        | rel x y h =>
          obtain ⟨t, t', g1, g2, -⟩ := id h
          have hx := (List.getElem?_eq_some_iff.mp g1).1
          have hy := (List.getElem?_eq_some_iff.mp g2).1
          exact .rel _ _ ⟨enc_lt hx, enc_lt hy, (h2 _ _ hx hy).mpr h⟩
        | refl => exact .refl _
        | symm _ _ _ ih => exact ih.symm
        | trans _ _ _ _ _ ih1 ih2 => exact ih1.trans _ _ _ ih2
      exact key x y h
  have hrav : ∀ z : ℕ × Fin 3, z.1 < F.length → (ravelF F)[enc F.length z]? = F[z.1]?.map (fun t => t.corner z.2) := by
    intro z hz
    have := List.getElem?_eq_getElem hz
    rw [this]
    exact ravelF_get this z.2
  have hsame : ∀ p q : ℕ, p < labels.length → labels[p]? = labels[q]? → (ravelF F)[p]? = (ravelF F)[q]? := by
    intro p q hp hpq
    have hq : q < labels.length := by
      rw [List.getElem?_eq_getElem hp] at hpq
      exact (List.getElem?_eq_some_iff.mp hpq.symm).1
    obtain ⟨a1, a2⟩ := enc_dec (hlen ▸ hp)
    obtain ⟨b1, b2⟩ := enc_dec (hlen ▸ hq)
    rw [← a1, ← b1] at hpq ⊢
    rw [hrav _ a2, hrav _ b2]
    exact CutAdj.conn_same ((hconn _ _ a2 b2).mp hpq)
  obtain ⟨G, I, g1, g2, g3, g4⟩ := relabel_spec hF hlen (by rw [hlab]; exact hcc.consecutive _ _) hsame
  refine ⟨G, I, ?_, g2, ?_, ?_, ?_⟩
  · rw [cutEdges, h1, Option.bind_some, ← hlab]; exact g1
  · intro f t c ht
    obtain ⟨l, -, l2, l3⟩ := g3 f c (List.getElem?_eq_some_iff.mp ht).1
    exact ⟨l, l2, by rw [l3, ravelF_get ht]⟩
  · intro x y hx hy
    obtain ⟨l, l1, l2, -⟩ := g3 x.1 x.2 hx
    obtain ⟨l', l1', l2', -⟩ := g3 y.1 y.2 hy
    rw [← hconn x y hx hy]
    unfold enc
    rw [l1, l1', l2, l2']
    simp
  · intro g hg
    obtain ⟨p, hp⟩ := List.mem_iff_getElem?.mp (g4 g hg)
    have hpl := (List.getElem?_eq_some_iff.mp hp).1
    obtain ⟨a1, a2⟩ := enc_dec (hlen ▸ hpl)
    obtain ⟨l, l1, l2, -⟩ := g3 (dec F.length p).1 (dec F.length p).2 a2
    refine ⟨(dec F.length p).1, (dec F.length p).2, a2, ?_⟩
    have : (dec F.length p).2.val * F.length + (dec F.length p).1 = p := a1
    rw [this, hp] at l1
    obtain rfl := Option.some.inj l1
    exact l2

/-- C15, uncut edges.  If side `i` of face `f` and side `j` of face `f'` are the same edge and it is not in `E`, then corners of the two
faces at the same end of that edge are still one vertex of `G`. -/
theorem C15_uncut_edges_stay_together (cc : ℕ → (ℕ → ℕ → ℕ) → List ℕ) (hcc : IsConnectedComponents cc) (F : List Tri)
    (E : List Edge) (hE : E ≠ []) (f f' : ℕ) (t t' : Tri) (ht : F[f]? = some t) (ht' : F[f']? = some t') (i j : Fin 3)
    (hij : Undir (t.side i) (t'.side j)) (hcut : ∀ e ∈ E, ¬ Undir e (t.side i)) (c c' : Fin 3) (hc : c ≠ i) (hc' : c' ≠ j)
    (hv : t.corner c = t'.corner c') :
    ∃ G I, cutEdges cc F E = some (G, I) ∧ ∃ g : Int, G[3 * f + c.val]? = some g ∧ G[3 * f' + c'.val]? = some g := by
  have hF : F ≠ [] := by rintro rfl; simp at ht
  obtain ⟨G, I, h1, h2, h3, h4, -⟩ := C15_cut_edges cc hcc F hF E hE
  refine ⟨G, I, h1, ?_⟩
  obtain ⟨g, hg, -⟩ := h3 f t c ht
  refine ⟨g, hg, ?_⟩
  rw [← hg]
  refine ((h4 (f, c) (f', c') (List.getElem?_eq_some_iff.mp ht).1 (List.getElem?_eq_some_iff.mp ht').1).mpr
    (.rel _ _ ⟨t, t', ht, ht', hv, i, j, hc.symm, hc'.symm, hij, hcut⟩)).symm

/-- C15 is violated for an empty list of cuts: the code raises (`TypeError` in line 49) instead of returning the mesh unchanged. -/
theorem C15_no_cuts_violated (cc : ℕ → (ℕ → ℕ → ℕ) → List ℕ) (F : List Tri) : cutEdges cc F [] = none := by
  unfold cutEdges cutLabels
  cases npMaxInt ((ravelC F).map (fun k : ℕ => (k : Int))) <;> rfl

/-- some function meets the contract of `connected_components` -/
theorem exists_connectedComponents : ∃ cc, IsConnectedComponents cc := by
  classical
  -- smallest representative of every class, then rank of the representative among the representatives
  let R : ℕ → (ℕ → ℕ → ℕ) → ℕ → ℕ → Prop := fun N A a b => a < N ∧ b < N ∧ A a b ≠ 0
  let rep : ℕ → (ℕ → ℕ → ℕ) → ℕ → ℕ := fun N A i => Nat.find (p := fun j => Relation.EqvGen (R N A) i j) ⟨i, .refl i⟩
  let reps : ℕ → (ℕ → ℕ → ℕ) → List ℕ := fun N A => npUnique ((List.range N).map (rep N A))
  refine ⟨fun N A => (List.range N).map (fun i => (reps N A).idxOf (rep N A i)), ?_, ?_, ?_⟩
  · intro N A; simp
  · intro N A i j hi hj
    rw [List.getElem?_map, List.getElem?_map, List.getElem?_range hi, List.getElem?_range hj, Option.map_some, Option.map_some,
      Option.some.injEq]
    have hmem : ∀ i, i < N → rep N A i ∈ reps N A := fun i hi =>
      mem_npUnique.mpr (List.mem_map.mpr ⟨i, List.mem_range.mpr hi, rfl⟩)
    rw [List.idxOf_inj (hmem i hi)]
    have hs : ∀ i, Relation.EqvGen (R N A) i (rep N A i) := fun i =>
      Nat.find_spec (p := fun j => Relation.EqvGen (R N A) i j) ⟨i, .refl i⟩
    constructor
    · intro h
      have := hs i
      rw [h] at this
      exact this.trans _ _ _ (hs j).symm
    · intro h
      have key : (fun k => Relation.EqvGen (R N A) i k) = fun k => Relation.EqvGen (R N A) j k := by
        funext k
        exact propext ⟨fun h' => (Relation.EqvGen.symm _ _ h).trans _ _ _ h', fun h' => Relation.EqvGen.trans _ _ _ h h'⟩
      show Nat.find (p := fun k => Relation.EqvGen (R N A) i k) _ = Nat.find (p := fun k => Relation.EqvGen (R N A) j k) _
      congr 1
  · intro N A l hl l' hl'
    rw [List.mem_map] at hl ⊢
    obtain ⟨i, hi, rfl⟩ := hl
    have hmem : rep N A i ∈ reps N A := mem_npUnique.mpr (List.mem_map.mpr ⟨i, hi, rfl⟩)
    have hlt := List.idxOf_lt_length_iff.mpr hmem
    have hm' : (reps N A)[l'] ∈ reps N A := List.getElem_mem (by omega)
    obtain ⟨i', hi', he⟩ := List.mem_map.mp (mem_npUnique.mp hm')
    refine ⟨i', hi', ?_⟩
    show (reps N A).idxOf (rep N A i') = l'
    rw [he]
    exact (nodup_npUnique _).idxOf_getElem _ _

/-- two triangles sharing an edge, one other edge listed: the hypotheses hold and the shared edge stays -/
example : ∃ cc G I, IsConnectedComponents cc ∧ cutEdges cc [⟨0, 1, 2⟩, ⟨1, 0, 3⟩] [⟨1, 2⟩] = some (G, I) ∧
    ∃ g : Int, G[3 * 0 + 0]? = some g ∧ G[3 * 1 + 1]? = some g := by
  obtain ⟨cc, hcc⟩ := exists_connectedComponents
  obtain ⟨G, I, h1, h2⟩ := C15_uncut_edges_stay_together cc hcc [⟨0, 1, 2⟩, ⟨1, 0, 3⟩] [⟨1, 2⟩] (by simp) 0 1 _ _ rfl rfl 2 2
    (by decide) (by decide) 0 1 (by decide) (by decide) (by decide)
  exact ⟨cc, G, I, hcc, h1, h2⟩

end Gpy
