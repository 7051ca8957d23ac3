import Verif.Proofs.AabbLoop
import Mathlib.Tactic.FinCases
import Mathlib.Data.Fin.VecNotation

/-! Property C24: the bounding volume hierarchy built by `initialize_aabbtree`. -/

set_option autoImplicit false
namespace Gpy
open Np
variable {d : ℕ}

/-- the optional arguments `vmin`, `vmax` are omitted or bound all the vertices -/
def BoundsOk (V : List (Pt d)) (vmin vmax : Option (Pt d)) : Prop :=
  (∀ v, vmin = some v → ∀ x ∈ V, ∀ j, v j ≤ x j) ∧ (∀ v, vmax = some v → ∀ x ∈ V, ∀ j, x j ≤ v j)

theorem elemBox_some {V : List (Pt d)} {e : List ℕ} (h : ∀ i ∈ e, i < V.length) :
    ∃ b, elemBox V e = some b ∧ (∀ i ∈ e, ∀ x, V[i]? = some x → ∀ j, b.1 j ≤ x j ∧ x j ≤ b.2 j) ∧
      (∀ j, b.1 j = 10000 ∨ ∃ i ∈ e, ∃ x, V[i]? = some x ∧ b.1 j = x j) ∧
      (∀ j, b.2 j = -10000 ∨ ∃ i ∈ e, ∃ x, V[i]? = some x ∧ b.2 j = x j) ∧
      (∀ j, b.1 j ≤ 10000 ∧ -10000 ≤ b.2 j) := by
  have hX := take_getElem? (l := V) (0 : Pt d) h
  refine ⟨_, by unfold elemBox; rw [hX]; rfl, ?_, ?_, ?_, ?_⟩
  · intro i hi x hx j
    have hxm : x ∈ e.map (fun k => V.getD k 0) := List.mem_map.mpr ⟨i, hi, by
      rw [List.getD_eq_getElem?_getD, hx]; rfl⟩
    constructor
    · have := (foldl_min_spec (fun y : Pt d => y j) (e.map (fun k => V.getD k 0)) 10000).1.2 x hxm
      exact this
    · have := (foldl_max_spec (fun y : Pt d => y j) (e.map (fun k => V.getD k 0)) (-10000)).1.2 x hxm
      exact this
  · intro j
    have := (foldl_min_spec (fun y : Pt d => y j) (e.map (fun k => V.getD k 0)) 10000).2
    rcases this with h1 | ⟨x, hx, h1⟩
    · exact Or.inl h1
    · obtain ⟨i, hi, rfl⟩ := List.mem_map.mp hx
      exact Or.inr ⟨i, hi, _, by rw [List.getD_eq_getElem?_getD, List.getElem?_eq_getElem (h i hi)]; rfl, h1⟩
  · intro j
    have := (foldl_max_spec (fun y : Pt d => y j) (e.map (fun k => V.getD k 0)) (-10000)).2
    rcases this with h1 | ⟨x, hx, h1⟩
    · exact Or.inl h1
    · obtain ⟨i, hi, rfl⟩ := List.mem_map.mp hx
      exact Or.inr ⟨i, hi, _, by rw [List.getD_eq_getElem?_getD, List.getElem?_eq_getElem (h i hi)]; rfl, h1⟩
  · intro j
    have h1 := (foldl_min_spec (fun y : Pt d => y j) (e.map (fun k => V.getD k 0)) 10000).1.1
    have h2 := (foldl_max_spec (fun y : Pt d => y j) (e.map (fun k => V.getD k 0)) (-10000)).1.1
    exact ⟨h1, h2⟩

theorem boxes_some {V : List (Pt d)} {F : List (List ℕ)} (hF : ElemsInRange F V.length) :
    ∃ boxes, F.mapM (elemBox V) = some boxes ∧ boxes.length = F.length ∧
      ∀ e es, F[e]? = some es → elemBox V es = some (boxes.getD e (0, 0)) := by
  have h : ∀ es ∈ F, elemBox V es = some ((elemBox V es).getD (0, 0)) := by
    intro es hes
    obtain ⟨b, hb, _⟩ := elemBox_some (hF es hes)
    rw [hb]; rfl
  refine ⟨_, mapM_eq_some_map h, by simp, ?_⟩
  intro e es he
  rw [h es (List.mem_of_getElem? he), List.getD_eq_getElem?_getD, List.getElem?_map, he]; rfl

theorem aabb_build [NeZero d] {argsort : List ℝ → List ℕ} (hA : IsArgsort argsort) (V : List (Pt d)) (F : List (List ℕ))
    (vmin vmax : Option (Pt d)) (hV : V ≠ []) (hne : F ≠ []) (hF : ElemsInRange F V.length) (hb : BoundsOk V vmin vmax) :
    ∃ T bx root, (∀ fuel, 2 * F.length ≤ fuel + 1 → initializeAabbtree argsort V F vmin vmax fuel = some T) ∧
      LoopInv bx root F.length T.length T ∧ (∀ x ∈ V, InBox root.C root.W x) ∧
      (∀ (e : ℕ) es, F[e]? = some es → elemBox V es = some (bx e)) := by
  obtain ⟨boxes, h1, h2, h3⟩ := boxes_some hF
  obtain ⟨lo, l1, l2⟩ : ∃ lo, (vmin <|> npAmin V) = some lo ∧ ∀ x ∈ V, ∀ j, lo j ≤ x j := by
    cases vmin with
    | none => obtain ⟨m, a, b, _⟩ := npAmin_spec hV; exact ⟨m, a, b⟩
    | some v => exact ⟨v, rfl, hb.1 v rfl⟩
  obtain ⟨hi, u1, u2⟩ : ∃ hi, (vmax <|> npAmax V) = some hi ∧ ∀ x ∈ V, ∀ j, x j ≤ hi j := by
    cases vmax with
    | none => obtain ⟨m, a, b, _⟩ := npAmax_spec hV; exact ⟨m, a, b⟩
    | some v => exact ⟨v, rfl, hb.2 v rfl⟩
  have I0 := LoopInv.init (bx := fun e => boxes.getD e (0, 0)) (C := fun j => (lo j + hi j) / 2) (W := fun j => hi j - lo j)
    (List.length_pos_iff.mpr hne)
  have key : ∀ fuel, initializeAabbtree argsort V F vmin vmax fuel = aabbLoop argsort boxes fuel 0
      [freshNode (fun j => (lo j + hi j) / 2) (fun j => hi j - lo j) (-1) 1 (List.range F.length)] := by
    intro fuel
    unfold initializeAabbtree
    rw [l1, u1, h1]
    rfl
  have mono : ∀ (fuel i : ℕ) (T T' : List (AabbNode d)), aabbLoop argsort boxes fuel i T = some T' →
      ∀ k, fuel ≤ k → aabbLoop argsort boxes k i T = some T' := by
    intro fuel
    induction fuel with
    | zero =>
      intro i T T' h k _
      unfold aabbLoop at h ⊢
      split at h
      · next hh => rw [if_pos hh]; exact h
      · simp at h
    | succ fuel ih =>
      intro i T T' h k hk
      obtain ⟨k, rfl⟩ : ∃ k', k = k' + 1 := ⟨k - 1, by omega⟩
      unfold aabbLoop at h ⊢
      split at h
      · next hh => rw [if_pos hh]; exact h
      · next hh =>
        rw [if_neg hh]
        cases hT : T[i]? with
        | none => simp [hT] at h
        | some node =>
          simp only [hT, Option.bind_eq_bind, Option.bind_some] at h ⊢
          by_cases a1 : node.ch1 ≠ -1
          · simp [a1] at h
          rw [if_neg a1] at h ⊢
          by_cases a2 : node.tris.length = 0
          · simp [a2] at h
          rw [if_neg a2] at h ⊢
          by_cases a3 : 2 ≤ node.tris.length
          · rw [if_pos a3] at h ⊢
            cases hs : subdivideBox argsort boxes i T with
            | none => simp [hs] at h
            | some S =>
              simp only [hs, Option.bind_some] at h ⊢
              exact ih _ _ _ h k (by omega)
          · rw [if_neg a3] at h ⊢
            cases hs : node.tris[0]? with
            | none => simp [hs] at h
            | some S =>
              simp only [hs, Option.bind_some] at h ⊢
              exact ih _ _ _ h k (by omega)
  obtain ⟨T, t1, t2⟩ := aabbLoop_spec hA (boxes := boxes) rfl h2 (2 * F.length - 1) 0 _ I0 (by omega)
  refine ⟨T, _, _, ?_, t2, ?_, h3⟩
  · intro fuel hf
    rw [key fuel]
    exact mono _ _ _ _ t1 fuel (by omega)
  · intro x hx j
    have := l2 x hx j
    have := u2 x hx j
    simp only [freshNode]
    constructor <;> linarith

theorem LoopInv.elemIn {bx : ℕ → Pt d × Pt d} {root : AabbNode d} {m : ℕ} {T : List (AabbNode d)}
    (I : LoopInv bx root m T.length T) {V : List (Pt d)} {F : List (List ℕ)} (hF : ElemsInRange F V.length)
    (hr : ∀ x ∈ V, InBox root.C root.W x) (hbx : ∀ (e : ℕ) es, F[e]? = some es → elemBox V es = some (bx e)) :
    ∀ (q : ℕ) (n : AabbNode d), T[q]? = some n → ∀ e ∈ n.tris, ElemIn V F n e := by
  intro q n hn e he es hes i hi x hx
  by_cases hq : q = 0
  · subst hq
    obtain ⟨r, r1, r2, r3, r4, _⟩ := I.rootRow
    rw [hn] at r1; cases r1
    rw [r3, r4]
    exact hr x (List.mem_of_getElem? hx)
  · have H := I.hull q n (by omega) hn
    obtain ⟨b, b1, b2, _⟩ := elemBox_some (hF es (List.mem_of_getElem? hes))
    rw [hbx e es hes] at b1
    cases b1
    intro j
    have := b2 i hi x hx j
    have := H.lo e he j
    have := H.hi e he j
    constructor <;> linarith

/-- C24.  For all vertices `V` and all nonempty element lists with indices in range, and for every tie-breaking of the sort,
`initialize_aabbtree(V,F)` stops without a failing assertion and returns a table of `2m-1` rows (`m` elements) that is a binary
tree rooted at row 0: its leaves hold every element exactly once, every node's box contains all vertices of all elements below it,
and every other row is a child of its recorded parent, one level deeper; split directions are coordinate indices.  There is no bound on the coordinates. -/
theorem C24_aabbtree [NeZero d] (argsort : List ℝ → List ℕ) (hA : IsArgsort argsort) (V : List (Pt d)) (F : List (List ℕ))
    (vmin vmax : Option (Pt d)) (hV : V ≠ []) (hne : F ≠ []) (hF : ElemsInRange F V.length) (hb : BoundsOk V vmin vmax) :
    ∃ T, (∀ fuel, 2 * F.length ≤ fuel → initializeAabbtree argsort V F vmin vmax fuel = some T) ∧
      T.length + 1 = 2 * F.length ∧
      (∃ es, Covers V F T 0 es ∧ es.Perm (List.range F.length)) ∧
      ((T.filter (fun n => n.ch1 = -1)).map (fun n => n.tri)).Perm ((List.range F.length).map (fun e : ℕ => (e : Int))) ∧
      (∃ r, T[0]? = some r ∧ r.par = -1 ∧ r.D = 1) ∧ SplitOk T ∧
      (∀ (q : ℕ) n, 0 < q → T[q]? = some n → ∃ (p : ℕ) (np : AabbNode d), T[p]? = some np ∧ p < q ∧ n.par = p ∧ n.D = np.D + 1 ∧
        (np.ch0 = q ∨ np.ch1 = q)) := by
  obtain ⟨T, bx, root, h1, I, h3, h4⟩ := aabb_build hA V F vmin vmax hV hne hF hb
  refine ⟨T, fun fuel hf => h1 fuel (by omega), ?_, ?_, ?_, ?_, ?_, ?_⟩
  · have := I.count; simpa using this
  · obtain ⟨r, r1, r2, _⟩ := I.rootRow
    obtain ⟨es, e1, e2⟩ := I.covers (I.elemIn hF h3 h4) T.length 0 r (by omega) r1
    exact ⟨es, e1, r2 ▸ e2⟩
  · have hf := I.front.map (fun e : ℕ => (e : Int))
    refine List.Perm.trans ?_ hf
    apply List.Perm.of_eq
    have : ∀ n ∈ T.filter (fun n => n.ch1 = -1), n.tris.map (fun e : ℕ => (e : Int)) = [n.tri] := by
      intro n hn
      obtain ⟨hn1, hn2⟩ := List.mem_filter.mp hn
      obtain ⟨q, hq⟩ := List.getElem?_of_mem hn1
      rcases I.proc q n (List.getElem?_eq_some_iff.mp hq).1 hq with ⟨_, _, e, a, b⟩ | ⟨c, l, r, a1, a2, _⟩
      · rw [a, b]; rfl
      · simp at hn2; rw [a2] at hn2; omega
    generalize T.filter (fun n => n.ch1 = -1) = L at this
    induction L with
    | nil => rfl
    | cons n t ih =>
      simp only [List.map_cons, List.flatMap_cons, List.map_append]
      rw [this n (by simp), ih (fun n hn => this n (by simp [hn]))]; rfl
  · obtain ⟨r, r1, _, _, _, r2, r3⟩ := I.rootRow
    exact ⟨r, r1, r2, r3⟩
  · intro n hn hch
    obtain ⟨q, hq⟩ := List.getElem?_of_mem hn
    rcases I.proc q n (List.getElem?_eq_some_iff.mp hq).1 hq with ⟨_, h, _⟩ | ⟨c, l, r, a1, a2, a3, a4, a5, a6, a7⟩
    · exact absurd h hch
    · exact a7
  · intro q n hq hn
    obtain ⟨p, np, a1, a2, _, a3, a4, a5⟩ := I.par q n hq hn
    exact ⟨p, np, a1, a2, a3, a4, a5⟩

/-- C24, tightness.  If all coordinates lie between the sentinels `-10000` and `10000` of the code and no element is empty, then
every box except possibly the root's is the exact bounding box of the elements below it, and every box contains its children's. -/
theorem C24_tight [NeZero d] (argsort : List ℝ → List ℕ) (hA : IsArgsort argsort) (V : List (Pt d)) (F : List (List ℕ))
    (vmin vmax : Option (Pt d)) (hV : V ≠ []) (hne : F ≠ []) (hF : ElemsInRange F V.length) (hb : BoundsOk V vmin vmax)
    (hmag : ∀ x ∈ V, ∀ j, -10000 ≤ x j ∧ x j ≤ 10000) (hel : ∀ es ∈ F, es ≠ []) :
    ∃ T, (∀ fuel, 2 * F.length ≤ fuel → initializeAabbtree argsort V F vmin vmax fuel = some T) ∧
      (∀ (q : ℕ) n, 0 < q → T[q]? = some n → ∃ es, Covers V F T q es ∧ ∀ j,
        (∃ e ∈ es, ∃ vs, F[e]? = some vs ∧ ∃ i ∈ vs, ∃ x, V[i]? = some x ∧ x j = n.C j - n.W j / 2) ∧
        (∃ e ∈ es, ∃ vs, F[e]? = some vs ∧ ∃ i ∈ vs, ∃ x, V[i]? = some x ∧ x j = n.C j + n.W j / 2)) ∧
      (∀ (q c : ℕ) n nc, T[q]? = some n → T[c]? = some nc → (n.ch0 = c ∨ n.ch1 = c) →
        ∀ x, InBox nc.C nc.W x → InBox n.C n.W x) := by
  obtain ⟨T, bx, root, h1, I, h3, h4⟩ := aabb_build hA V F vmin vmax hV hne hF hb
  have hE := I.elemIn hF h3 h4
  have hbox : ∀ e < F.length, ∃ vs, F[e]? = some vs ∧ ∀ j, (∃ i ∈ vs, ∃ x, V[i]? = some x ∧ x j = (bx e).1 j) ∧
      (∃ i ∈ vs, ∃ x, V[i]? = some x ∧ x j = (bx e).2 j) := by
    intro e he
    have hg : F[e]? = some F[e] := List.getElem?_eq_getElem he
    refine ⟨F[e], hg, ?_⟩
    have hm : F[e] ∈ F := List.getElem_mem he
    obtain ⟨b, b1, b2, b3, b4, b5⟩ := elemBox_some (hF _ hm)
    rw [h4 e _ hg] at b1; cases b1
    obtain ⟨i, hi⟩ := List.exists_mem_of_ne_nil _ (hel _ hm)
    have hiV := hF _ hm i hi
    have hx : V[i]? = some V[i] := List.getElem?_eq_getElem hiV
    intro j
    have m1 := hmag V[i] (List.getElem_mem hiV) j
    have m2 := b2 i hi _ hx j
    have m3 := b5 j
    constructor
    · rcases b3 j with h | ⟨i', hi', x, hx', h⟩
      · exact ⟨i, hi, _, hx, le_antisymm (by rw [h]; exact m1.2) m2.1⟩
      · exact ⟨i', hi', x, hx', h.symm⟩
    · rcases b4 j with h | ⟨i', hi', x, hx', h⟩
      · exact ⟨i, hi, _, hx, le_antisymm m2.2 (by rw [h]; exact m1.1)⟩
      · exact ⟨i', hi', x, hx', h.symm⟩
  have htight : ∀ (q : ℕ) n, 0 < q → T[q]? = some n → ∀ j,
      (∃ e ∈ n.tris, ∃ vs, F[e]? = some vs ∧ ∃ i ∈ vs, ∃ x, V[i]? = some x ∧ x j = n.C j - n.W j / 2) ∧
      (∃ e ∈ n.tris, ∃ vs, F[e]? = some vs ∧ ∃ i ∈ vs, ∃ x, V[i]? = some x ∧ x j = n.C j + n.W j / 2) := by
    intro q n hq hn j
    have H := I.hull q n hq hn
    constructor
    · obtain ⟨e, he, h⟩ := H.lo' j
      obtain ⟨vs, v1, v2⟩ := hbox e (I.rng q n hn e he)
      obtain ⟨i, hi, x, hx, hxj⟩ := (v2 j).1
      exact ⟨e, he, vs, v1, i, hi, x, hx, hxj.trans h⟩
    · obtain ⟨e, he, h⟩ := H.hi' j
      obtain ⟨vs, v1, v2⟩ := hbox e (I.rng q n hn e he)
      obtain ⟨i, hi, x, hx, hxj⟩ := (v2 j).2
      exact ⟨e, he, vs, v1, i, hi, x, hx, hxj.trans h⟩
  refine ⟨T, fun fuel hf => h1 fuel (by omega), ?_, ?_⟩
  · intro q n hq hn
    obtain ⟨es, e1, e2⟩ := I.covers hE T.length q n (by omega) hn
    refine ⟨es, e1, fun j => ?_⟩
    obtain ⟨⟨e, he, h⟩, ⟨e', he', h'⟩⟩ := htight q n hq hn j
    exact ⟨⟨e, e2.symm.subset he, h⟩, ⟨e', e2.symm.subset he', h'⟩⟩
  · intro q c n nc hn hc hch x hx j
    have hsub : 0 < c ∧ ∀ e ∈ nc.tris, e ∈ n.tris := by
      rcases I.proc q n (List.getElem?_eq_some_iff.mp hn).1 hn with ⟨a0, a1, _⟩ | ⟨c', l, r, a1, a2, a3, a4, a5, a6, _⟩
      · rcases hch with h | h <;> omega
      · rcases hch with h | h
        · have : c = c' := by omega
          subst this
          rw [hc] at a4; simp at a4; subst a4
          exact ⟨by omega, fun e he => a6.subset (by simp [he])⟩
        · have : c = c' + 1 := by omega
          subst this
          rw [hc] at a5; simp at a5; subst a5
          exact ⟨by omega, fun e he => a6.subset (by simp [he])⟩
    obtain ⟨⟨e, he, vs, v1, i, hi, y, hy, hyj⟩, ⟨e', he', vs', v1', i', hi', y', hy', hyj'⟩⟩ := htight c nc hsub.1 hc j
    have b1 := hE q n hn e (hsub.2 e he) vs v1 i hi y hy j
    have b2 := hE q n hn e' (hsub.2 e' he') vs' v1' i' hi' y' hy' j
    have := hx j
    constructor <;> linarith

/-- a sort with the contract of `np.argsort` exists: stable merge sort of the positions by value -/
noncomputable def someArgsort (l : List ℝ) : List ℕ := (List.range l.length).mergeSort (fun i j => l.getD i 0 ≤ l.getD j 0)

theorem someArgsort_ok : IsArgsort someArgsort := by
  constructor
  · intro l; exact List.mergeSort_perm _ _
  · intro l
    have := List.pairwise_mergeSort (le := fun i j : ℕ => decide (l.getD i 0 ≤ l.getD j 0))
      (fun a b c h1 h2 => by simp only [decide_eq_true_eq] at *; exact h1.trans h2)
      (fun a b => by simp only [Bool.or_eq_true, decide_eq_true_eq]; exact le_total _ _) (List.range l.length)
    rw [List.pairwise_map]
    exact this.imp (fun h => by simpa using h)

/-- two segments in the plane meet the hypotheses of both theorems -/
example : ∃ (V : List (Pt 2)) (F : List (List ℕ)), V ≠ [] ∧ F.length = 2 ∧ ElemsInRange F V.length ∧ BoundsOk V none none ∧
    (∀ x ∈ V, ∀ j, -10000 ≤ x j ∧ x j ≤ 10000) ∧ (∀ es ∈ F, es ≠ []) ∧ ∃ argsort, IsArgsort argsort := by
  refine ⟨[![0, 0], ![1, 0], ![1, 2]], [[0, 1], [1, 2]], by simp, rfl, ?_, ?_, ?_, by simp, _, someArgsort_ok⟩
  · intro es hes i hi; simp at hes; rcases hes with rfl | rfl <;> simp at hi <;> rcases hi with rfl | rfl <;> simp
  · exact ⟨fun v h => by simp at h, fun v h => by simp at h⟩
  · intro x hx j
    simp at hx
    rcases hx with rfl | rfl | rfl <;> fin_cases j <;> norm_num

end Gpy
