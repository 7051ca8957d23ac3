import Verif.Proofs.LineRemesh2

/-!
# Lemmas for the remesher of curves: split, relaxation
-/

set_option autoImplicit false
namespace Gpy.LineRemesh
open Np Classical

/-! ### Split -/

/-- the edges that are split -/
noncomputable def long (V : List (Pt 2)) (high : ℝ) (F : List (ℕ × ℕ)) : List (ℕ × ℕ) := F.filter (fun e => high < len V e)

/-- the new vertex of an edge -/
noncomputable def nu (V : List (Pt 2)) (high : ℝ) (k : ℕ) (F : List (ℕ × ℕ)) (e : ℕ × ℕ) : ℕ := k + (long V high F).idxOf e

theorem splitGo_eq (V : List (Pt 2)) (high : ℝ) (k : ℕ) (F : List (ℕ × ℕ)) (hn : F.Nodup) :
    splitGo V high k F = (F.map (fun e => if high < len V e then (e.1, nu V high k F e) else e), (long V high F).map (fun e => midpoint (pos V e.1) (pos V e.2)),
      (long V high F).map (fun e => (nu V high k F e, e.2))) := by
  induction F generalizing k with
  | nil => rfl
  | cons e F ih =>
    obtain ⟨h1, h2⟩ := List.nodup_cons.mp hn
    rw [splitGo]
    by_cases hl : high < len V e
    · have hlong : long V high (e :: F) = e :: long V high F := by unfold long; rw [List.filter_cons_of_pos (by simpa using hl)]
      have hnu0 : nu V high k (e :: F) e = k := by unfold nu; rw [hlong]; simp
      have hnu : ∀ x ∈ F, nu V high k (e :: F) x = nu V high (k + 1) F x := by
        intro x hx
        unfold nu
        have hne : e ≠ x := fun h => h1 (by rw [h]; exact hx)
        rw [hlong, List.idxOf_cons_ne _ hne]
        omega
      rw [if_pos hl, ih (k + 1) h2, hlong]
      simp only [List.map_cons, if_pos hl, hnu0]
      have ea : F.map (fun e => if high < len V e then (e.1, nu V high (k + 1) F e) else e) = F.map (fun x => if high < len V x then (x.1, nu V high k (e :: F) x) else x) :=
        List.map_congr_left (fun x hx => by simp only [hnu x hx])
      have eb : (long V high F).map (fun e => (nu V high (k + 1) F e, e.2)) = (long V high F).map (fun x => (nu V high k (e :: F) x, x.2)) :=
        List.map_congr_left (fun x hx => by simp only [hnu x (List.mem_of_mem_filter hx)])
      rw [ea, eb]
    · have hlong : long V high (e :: F) = long V high F := by unfold long; rw [List.filter_cons_of_neg (by simpa using hl)]
      have hnu : ∀ x, nu V high k (e :: F) x = nu V high k F x := by
        intro x; unfold nu; rw [hlong]
      rw [if_neg hl, ih k h2, hlong]
      simp only [List.map_cons, if_neg hl, hnu]

/-- the split of a curve -/
theorem split_same (V : List (Pt 2)) (high : ℝ) (k : ℕ) (F : List (ℕ × ℕ)) (hnd : Nd F) (hk : ∀ v, Ref F v → v < k) (F' : List (ℕ × ℕ))
    (hF' : F' = F.map (fun e => if high < len V e then (e.1, nu V high k F e) else e) ++ (long V high F).map (fun e => (nu V high k F e, e.2))) :
    Same (fun v => v < k) id F F' ∧ Nd F' ∧ ∀ v, Ref F' v → k ≤ v → v < k + (long V high F).length ∧ C1 F' v ∧ C2 F' v := by
  have hn : F.Nodup := List.Nodup.of_map _ hnd.a
  have hlm : ∀ e, e ∈ long V high F ↔ e ∈ F ∧ high < len V e := fun e => by unfold long; simp
  have hnuk : ∀ e, k ≤ nu V high k F e := fun e => Nat.le_add_right _ _
  have hnul : ∀ e ∈ long V high F, nu V high k F e < k + (long V high F).length := by
    intro e he; unfold nu
    have := List.idxOf_lt_length_iff.mpr he
    omega
  have hnui : ∀ e ∈ long V high F, ∀ e' ∈ long V high F, nu V high k F e = nu V high k F e' → e = e' := by
    intro e he e' he' h
    unfold nu at h
    exact (List.idxOf_inj he).mp (by omega)
  have hm : ∀ x y, (x, y) ∈ F' ↔ ((x, y) ∈ F ∧ ¬ high < len V (x, y)) ∨ (∃ b, (x, b) ∈ F ∧ high < len V (x, b) ∧ y = nu V high k F (x, b)) ∨ (∃ a, (a, y) ∈ F ∧ high < len V (a, y) ∧ x = nu V high k F (a, y)) := by
    intro x y
    rw [hF', List.mem_append, List.mem_map, List.mem_map]
    constructor
    · rintro (⟨e, he, h⟩ | ⟨e, he, h⟩)
      · split at h
        · rename_i hl
          rw [Prod.mk.injEq] at h
          obtain ⟨rfl, rfl⟩ := h
          exact Or.inr (Or.inl ⟨e.2, he, hl, rfl⟩)
        · rename_i hl
          subst h
          exact Or.inl ⟨he, hl⟩
      · rw [Prod.mk.injEq] at h
        obtain ⟨rfl, rfl⟩ := h
        obtain ⟨h1, h2⟩ := (hlm _).mp he
        exact Or.inr (Or.inr ⟨e.1, h1, h2, rfl⟩)
    · rintro (⟨h1, h2⟩ | ⟨b, h1, h2, rfl⟩ | ⟨a, h1, h2, rfl⟩)
      · exact Or.inl ⟨_, h1, if_neg h2⟩
      · exact Or.inl ⟨_, h1, if_pos h2⟩
      · exact Or.inr ⟨_, (hlm _).mpr ⟨h1, h2⟩, rfl⟩
  refine ⟨⟨fun v hv => ⟨?_, ?_⟩, fun v hv => ⟨?_, ?_⟩, fun u v hu hv => ⟨?_, ?_⟩⟩, ⟨?_, ?_⟩, ?_⟩
  · rintro ⟨w, hw⟩
    rcases (hm _ _).mp hw with ⟨h, -⟩ | ⟨b, h, -⟩ | ⟨a, h, -, e⟩
    · exact ⟨w, h⟩
    · exact ⟨b, h⟩
    · have := hnuk (a, w); simp only [id] at e; omega
  · rintro ⟨w, hw⟩
    by_cases hl : high < len V (v, w)
    · exact ⟨_, (hm _ _).mpr (Or.inr (Or.inl ⟨w, hw, hl, rfl⟩))⟩
    · exact ⟨w, (hm _ _).mpr (Or.inl ⟨hw, hl⟩)⟩
  · rintro ⟨w, hw⟩
    rcases (hm _ _).mp hw with ⟨h, -⟩ | ⟨b, h, -, e⟩ | ⟨a, h, -⟩
    · exact ⟨w, h⟩
    · have := hnuk (w, b); simp only [id] at e; omega
    · exact ⟨a, h⟩
  · rintro ⟨w, hw⟩
    by_cases hl : high < len V (w, v)
    · exact ⟨_, (hm _ _).mpr (Or.inr (Or.inr ⟨w, hw, hl, rfl⟩))⟩
    · exact ⟨w, (hm _ _).mpr (Or.inl ⟨hw, hl⟩)⟩
  · intro h
    simp only [id] at h
    have key : ∀ z, Reaches F' u z → (z < k ∧ Reaches F u z) ∨ ∃ e, e ∈ F ∧ high < len V e ∧ z = nu V high k F e ∧ Reaches F u e.1 := by
      intro z hz
      induction hz with
      | refl => exact Or.inl ⟨hu, Relation.ReflTransGen.refl⟩
      | tail _ hs ih =>
        rename_i x y _
        rcases ih with ⟨hx, hr⟩ | ⟨e, he, hl, hx, hr⟩
        · rcases (hm _ _).mp hs with ⟨h, -⟩ | ⟨b, h, hl, e⟩ | ⟨a, h, -, e⟩
          · exact Or.inl ⟨hk y (Or.inr ⟨x, h⟩), hr.tail h⟩
          · exact Or.inr ⟨(x, b), h, hl, e, hr⟩
          · have := hnuk (a, y); omega
        · have hxk := hnuk e
          rcases (hm _ _).mp hs with ⟨h, -⟩ | ⟨b, h, -⟩ | ⟨a, h, hl', e'⟩
          · have := hk x (Or.inl ⟨y, h⟩); omega
          · have := hk x (Or.inl ⟨b, h⟩); omega
          · have : e = (a, y) := hnui e ((hlm _).mpr ⟨he, hl⟩) _ ((hlm _).mpr ⟨h, hl'⟩) (hx.symm.trans e')
            subst this
            exact Or.inl ⟨hk y (Or.inr ⟨a, h⟩), hr.tail he⟩
    rcases key v h with ⟨-, h⟩ | ⟨e, -, -, h, -⟩
    · exact h
    · have := hnuk e; omega
  · intro h
    simp only [id]
    have key : ∀ z, Reaches F u z → Reaches F' u z := by
      intro z hz
      induction hz with
      | refl => exact Relation.ReflTransGen.refl
      | tail _ hs ih =>
        rename_i x y _
        by_cases hl : high < len V (x, y)
        · exact (ih.tail ((hm _ _).mpr (Or.inr (Or.inl ⟨y, hs, hl, rfl⟩)))).tail ((hm _ _).mpr (Or.inr (Or.inr ⟨x, hs, hl, rfl⟩)))
        · exact ih.tail ((hm _ _).mpr (Or.inl ⟨hs, hl⟩))
    exact key v h
  · have e : F'.map (·.1) = F.map (·.1) ++ (long V high F).map (nu V high k F) := by
      rw [hF', List.map_append, List.map_map, List.map_map]
      congr 1
      refine List.map_congr_left (fun e _ => ?_)
      simp only [Function.comp]
      split <;> rfl
    rw [e, List.nodup_append]
    refine ⟨hnd.a, (List.nodup_map_iff_inj_on (hn.filter _)).mpr (fun x hx y hy h => hnui x hx y hy h), fun x hx y hy hxy => ?_⟩
    obtain ⟨z, -, rfl⟩ := List.mem_map.mp hy
    have := hnuk z
    have := hk x (Or.inl ((c1_map F x).mp hx))
    omega
  · have e : F'.map (·.2) = F.map (fun e => if high < len V e then nu V high k F e else e.2) ++ (long V high F).map (·.2) := by
      rw [hF', List.map_append, List.map_map, List.map_map]
      congr 1
      refine List.map_congr_left (fun e _ => ?_)
      simp only [Function.comp]
      split <;> rfl
    have hinj2 : ∀ x ∈ F, ∀ y ∈ F, x.2 = y.2 → x = y := fun x hx y hy h => List.inj_on_of_nodup_map hnd.b hx hy h
    rw [e, List.nodup_append]
    refine ⟨(List.nodup_map_iff_inj_on hn).mpr (fun x hx y hy h => ?_), (List.nodup_map_iff_inj_on (hn.filter _)).mpr (fun x hx y hy h => hinj2 x ((hlm _).mp hx).1 y ((hlm _).mp hy).1 h), fun x hx y hy hxy => ?_⟩
    · by_cases hx1 : high < len V x <;> by_cases hy1 : high < len V y
      · rw [if_pos hx1, if_pos hy1] at h
        exact hnui x ((hlm _).mpr ⟨hx, hx1⟩) y ((hlm _).mpr ⟨hy, hy1⟩) h
      · rw [if_pos hx1, if_neg hy1] at h
        have := hnuk x
        have := hk y.2 (Or.inr ⟨y.1, hy⟩)
        omega
      · rw [if_neg hx1, if_pos hy1] at h
        have := hnuk y
        have := hk x.2 (Or.inr ⟨x.1, hx⟩)
        omega
      · rw [if_neg hx1, if_neg hy1] at h
        exact hinj2 x hx y hy h
    · obtain ⟨a, ha, rfl⟩ := List.mem_map.mp hx
      obtain ⟨b, hb, rfl⟩ := List.mem_map.mp hy
      obtain ⟨hb1, hb2⟩ := (hlm _).mp hb
      by_cases ha1 : high < len V a
      · rw [if_pos ha1] at hxy
        have := hnuk a
        have := hk b.2 (Or.inr ⟨b.1, hb1⟩)
        omega
      · rw [if_neg ha1] at hxy
        exact ha1 (hinj2 a ha b hb1 hxy ▸ hb2)
  · have key : ∀ e ∈ F, high < len V e → nu V high k F e < k + (long V high F).length ∧ C1 F' (nu V high k F e) ∧ C2 F' (nu V high k F e) := fun e he hl =>
      ⟨hnul e ((hlm _).mpr ⟨he, hl⟩), ⟨e.2, (hm _ _).mpr (Or.inr (Or.inr ⟨e.1, he, hl, rfl⟩))⟩, ⟨e.1, (hm _ _).mpr (Or.inr (Or.inl ⟨e.2, he, hl, rfl⟩))⟩⟩
    rintro v (⟨w, hw⟩ | ⟨w, hw⟩) hv
    · rcases (hm _ _).mp hw with ⟨h, -⟩ | ⟨b, h, -⟩ | ⟨a, h, hl, rfl⟩
      · have := hk v (Or.inl ⟨w, h⟩); omega
      · have := hk v (Or.inl ⟨b, h⟩); omega
      · exact key _ h hl
    · rcases (hm _ _).mp hw with ⟨h, -⟩ | ⟨b, h, hl, rfl⟩ | ⟨a, h, -⟩
      · have := hk v (Or.inr ⟨w, h⟩); omega
      · exact key _ h hl
      · have := hk v (Or.inr ⟨a, h⟩); omega

theorem pos_append (V W : List (Pt 2)) (v : ℕ) (hv : v < V.length) : pos (V ++ W) v = pos V v := by
  unfold pos
  rw [List.getD_eq_getElem?_getD, List.getElem?_append_left hv, ← List.getD_eq_getElem?_getD]

theorem splitLine_spec (L : Line) (hL : Ok L) (high : ℝ) :
    Ok (splitLine L high) ∧ Kept L.V L.F L.feature (splitLine L high).V (splitLine L high).F (splitLine L high).feature := by
  have hn : L.F.Nodup := List.Nodup.of_map _ hL.nd.a
  have hr := splitGo_eq L.V high L.V.length L.F hn
  have hk : ∀ v, Ref L.F v → v < L.V.length := fun v hv => hL.ref_lt hv
  obtain ⟨hs, hnd, hnew⟩ := split_same L.V high L.V.length L.F hL.nd hk (splitLine L high).F (by unfold splitLine; dsimp only; rw [hr])
  have hVl : (splitLine L high).V = L.V ++ (long L.V high L.F).map (fun e => midpoint (pos L.V e.1) (pos L.V e.2)) := by unfold splitLine; dsimp only; rw [hr]
  have hf : (splitLine L high).feature = L.feature := rfl
  have hlt : ∀ v, Ref (splitLine L high).F v → v < (splitLine L high).V.length := by
    intro v hv
    rw [hVl, List.length_append, List.length_map]
    by_cases h : v < L.V.length
    · omega
    · exact (hnew v hv (by omega)).1
  have hfl : ∀ v : ℕ, ((v : ℕ) : Int) ∈ L.feature → v < L.V.length ∧ Ref L.F v := by
    intro v hv
    obtain ⟨w, e, hw⟩ := hL.feat _ hv
    obtain rfl : v = w := by exact_mod_cast e
    exact ⟨hk v hw, hw⟩
  have hrefs : ∀ v, v < L.V.length → (Ref (splitLine L high).F v ↔ Ref L.F v) := fun v hv => or_congr (hs.c1 v hv) (hs.c2 v hv)
  constructor
  · refine ⟨?_, hnd, fun e he => ⟨hlt _ (Or.inl ⟨e.2, he⟩), hlt _ (Or.inr ⟨e.1, he⟩)⟩, ?_, ?_⟩
    · intro h
      have := hL.ne
      obtain ⟨e, F, hF⟩ := List.exists_cons_of_ne_nil this
      have hr1 : Ref L.F e.1 := Or.inl ⟨e.2, by rw [hF]; simp⟩
      have := (hrefs _ (hk _ hr1)).mpr hr1
      rw [h] at this
      rcases this with ⟨w, hw⟩ | ⟨w, hw⟩ <;> simp at hw
    · intro f hff
      obtain ⟨v, rfl, hv⟩ := hL.feat f hff
      exact ⟨v, rfl, (hrefs v (hk v hv)).mpr hv⟩
    · intro v hv hvf
      by_cases h : v < L.V.length
      · have := hL.bdry v ((hrefs v h).mp hv) hvf
        exact ⟨(hs.c1 v h).mpr this.1, (hs.c2 v h).mpr this.2⟩
      · exact (hnew v hv (by omega)).2
  · refine kept_of L _ id hL ?_ ⟨fun v hv => hs.c1 v (hfl v hv).1, fun v hv => hs.c2 v (hfl v hv).1, fun u v hu hv => hs.reach u v (hfl u hu).1 (hfl v hv).1⟩ ?_
    · rw [hf]
      have : ∀ x ∈ L.feature, ((id x.toNat : ℕ) : Int) = x := by
        intro x hx
        obtain ⟨v, rfl, -⟩ := hL.feat x hx
        simp
      rw [List.map_congr_left this, List.map_id']
    · intro v hv
      obtain ⟨h1, h2⟩ := hfl v hv
      refine ⟨hlt v ((hrefs v h1).mpr h2), ?_⟩
      rw [hVl]
      exact pos_append _ _ _ h1

/-! ### Relaxation -/

theorem relaxVertex_length (L : Line) (V : List (Pt 2)) (i : ℕ) : (relaxVertex L V i).length = V.length := by
  unfold relaxVertex
  split
  · rfl
  · split
    · exact List.length_set
    · rfl

theorem relaxVertex_feature (L : Line) (V : List (Pt 2)) (i v : ℕ) (hv : isFeature L v) : pos (relaxVertex L V i) v = pos V v := by
  unfold relaxVertex
  split
  · rfl
  · rename_i h
    split
    · have : i ≠ v := fun e => h (e ▸ hv)
      unfold pos
      rw [List.getD_eq_getElem?_getD, List.getElem?_set_ne this, ← List.getD_eq_getElem?_getD]
    · rfl

theorem relaxFold (L : Line) (l : List ℕ) (V : List (Pt 2)) : (l.foldl (relaxVertex L) V).length = V.length ∧ ∀ v, isFeature L v → pos (l.foldl (relaxVertex L) V) v = pos V v := by
  induction l generalizing V with
  | nil => exact ⟨rfl, fun _ _ => rfl⟩
  | cons i l ih =>
    obtain ⟨h1, h2⟩ := ih (relaxVertex L V i)
    exact ⟨h1.trans (relaxVertex_length L V i), fun v hv => (h2 v hv).trans (relaxVertex_feature L V i v hv)⟩

theorem pnorm_zero (x : Pt 2) (h : pnorm x ≤ 0) : x = 0 := by
  unfold pnorm psq at h
  have h0 : 0 ≤ ∑ i, x i ^ 2 := Finset.sum_nonneg (fun i _ => sq_nonneg _)
  have h1 : ∑ i, x i ^ 2 = 0 := (Real.sqrt_eq_zero h0).mp (le_antisymm h (Real.sqrt_nonneg _))
  funext i
  exact pow_eq_zero_iff two_ne_zero |>.mp ((Finset.sum_eq_zero_iff_of_nonneg (fun i _ => sq_nonneg _)).mp h1 i (Finset.mem_univ i))

theorem footPoint_on (proj : List (Pt 2) → List (ℕ × ℕ) → Pt 2 → Foot) (hp : Closest proj) (V : List (Pt 2)) (F : List (ℕ × ℕ)) (hF : F ≠ []) (p : Pt 2) : OnCurve V F (footPoint V F (proj V F p)) := by
  obtain ⟨h1, h2, h3, h4, -⟩ := hp V F p hF
  refine ⟨F[(proj V F p).I], List.getElem_mem h1, (proj V F p).b1, h3, by linarith, ?_⟩
  funext j
  unfold footPoint
  rw [List.getD_eq_getElem?_getD, List.getElem?_eq_getElem h1]
  simp only [Option.getD_some]
  have : (proj V F p).b0 = 1 - (proj V F p).b1 := by linarith
  rw [this]; ring

theorem footPoint_self (proj : List (Pt 2) → List (ℕ × ℕ) → Pt 2 → Foot) (hp : Closest proj) (V : List (Pt 2)) (F : List (ℕ × ℕ)) (hF : F ≠ []) (p : Pt 2) (h : OnCurve V F p) : footPoint V F (proj V F p) = p := by
  obtain ⟨-, -, -, -, h5⟩ := hp V F p hF
  have h6 := h5 p h
  have h7 : pnorm (p - p) = 0 := by unfold pnorm psq; simp
  rw [h7] at h6
  exact sub_eq_zero.mp (pnorm_zero _ h6)

theorem pos_map (V : List (Pt 2)) (g : Pt 2 → Pt 2) (v : ℕ) (hv : v < V.length) : pos (V.map g) v = g (pos V v) := by
  unfold pos
  rw [List.getD_eq_getElem?_getD, List.getD_eq_getElem?_getD, List.getElem?_map, List.getElem?_eq_getElem hv]
  rfl

theorem relaxLine_spec (proj : List (Pt 2) → List (ℕ × ℕ) → Pt 2 → Foot) (hp : Closest proj) (L : Line) (hL : Ok L) (V0 : List (Pt 2)) (F0 : List (ℕ × ℕ)) (hF0 : F0 ≠ [])
    (hon : ∀ v : ℕ, ((v : ℕ) : Int) ∈ L.feature → OnCurve V0 F0 (pos L.V v)) :
    Ok (relaxLine proj L V0 F0) ∧ Kept L.V L.F L.feature (relaxLine proj L V0 F0).V (relaxLine proj L V0 F0).F (relaxLine proj L V0 F0).feature ∧ ∀ p ∈ (relaxLine proj L V0 F0).V, OnCurve V0 F0 p := by
  obtain ⟨r1, r2⟩ := relaxFold L (List.range L.V.length) L.V
  have hlen : (relaxLine proj L V0 F0).V.length = L.V.length := by unfold relaxLine; simp [r1]
  refine ⟨⟨hL.ne, hL.nd, fun e he => by rw [hlen]; exact hL.below e he, hL.feat, hL.bdry⟩, ?_, ?_⟩
  · refine kept_of L _ id hL ?_ ⟨fun _ _ => Iff.rfl, fun _ _ => Iff.rfl, fun _ _ _ _ => Iff.rfl⟩ ?_
    · have : ∀ x ∈ L.feature, ((id x.toNat : ℕ) : Int) = x := by
        intro x hx
        obtain ⟨v, rfl, -⟩ := hL.feat x hx
        simp
      rw [List.map_congr_left this, List.map_id']
      rfl
    · intro v hv
      obtain ⟨w, e, hw⟩ := hL.feat _ hv
      obtain rfl : v = w := by exact_mod_cast e
      have hlt := hL.ref_lt hw
      refine ⟨by rw [hlen]; exact hlt, ?_⟩
      unfold relaxLine
      dsimp only [id]
      rw [pos_map _ _ _ (by rw [r1]; exact hlt), r2 v ((hL.isFeature hlt).mpr hv)]
      exact footPoint_self proj hp V0 F0 hF0 _ (hon v hv)
  · intro p hpm
    unfold relaxLine at hpm
    obtain ⟨x, -, rfl⟩ := List.mem_map.mp hpm
    exact footPoint_on proj hp V0 F0 hF0 x

end Gpy.LineRemesh
