import Verif.Spec.LineRemesh
import Verif.Props.RemoveUnreferenced
import Mathlib.Tactic.Linarith
import Mathlib.Tactic.Ring
import Mathlib.Tactic.FinCases
import Mathlib.Algebra.BigOperators.Fin

/-!
# Lemmas for the remesher of curves
-/

set_option autoImplicit false
namespace Gpy.LineRemesh
open Np Classical

/-- `v` is in the first (second) column -/
def C1 (F : List (ℕ × ℕ)) (v : ℕ) : Prop := ∃ w, (v, w) ∈ F
def C2 (F : List (ℕ × ℕ)) (v : ℕ) : Prop := ∃ u, (u, v) ∈ F

theorem c1_map (F : List (ℕ × ℕ)) (v : ℕ) : v ∈ F.map (·.1) ↔ C1 F v := by
  unfold C1; simp
theorem c2_map (F : List (ℕ × ℕ)) (v : ℕ) : v ∈ F.map (·.2) ↔ C2 F v := by
  unfold C2; simp

/-- no branching, as used in the proofs -/
structure Nd (F : List (ℕ × ℕ)) : Prop where
  a : (F.map (·.1)).Nodup
  b : (F.map (·.2)).Nodup

theorem IsCurve.nd {n : ℕ} {F : List (ℕ × ℕ)} (h : IsCurve n F) : Nd F := by
  constructor
  · rw [List.nodup_iff_getElem?_ne_getElem?]
    intro i j hij hj he
    rw [List.length_map] at hj
    rw [List.getElem?_map, List.getElem?_map, List.getElem?_eq_getElem (hij.trans hj), List.getElem?_eq_getElem hj] at he
    simp only [Option.map_some, Option.some.injEq] at he
    have := h.out i j F[i].1 F[i].2 F[j].2 (List.getElem?_eq_getElem (hij.trans hj)) (by rw [he]; exact List.getElem?_eq_getElem hj)
    omega
  · rw [List.nodup_iff_getElem?_ne_getElem?]
    intro i j hij hj he
    rw [List.length_map] at hj
    rw [List.getElem?_map, List.getElem?_map, List.getElem?_eq_getElem (hij.trans hj), List.getElem?_eq_getElem hj] at he
    simp only [Option.map_some, Option.some.injEq] at he
    have := h.into i j F[i].2 F[i].1 F[j].1 (List.getElem?_eq_getElem (hij.trans hj)) (by rw [he]; exact List.getElem?_eq_getElem hj)
    omega

theorem Nd.curve {n : ℕ} {F : List (ℕ × ℕ)} (h : Nd F) (hb : ∀ e ∈ F, e.1 < n ∧ e.2 < n) : IsCurve n F := by
  refine ⟨fun i j u v w hi hj => ?_, fun i j u v w hi hj => ?_, hb⟩
  · have h1 : (F.map (·.1))[i]? = some u := by rw [List.getElem?_map, hi]; rfl
    have h2 : (F.map (·.1))[j]? = some u := by rw [List.getElem?_map, hj]; rfl
    obtain ⟨l1, e1⟩ := List.getElem?_eq_some_iff.mp h1
    obtain ⟨l2, e2⟩ := List.getElem?_eq_some_iff.mp h2
    exact (h.a.getElem_inj_iff).mp (e1.trans e2.symm)
  · have h1 : (F.map (·.2))[i]? = some u := by rw [List.getElem?_map, hi]; rfl
    have h2 : (F.map (·.2))[j]? = some u := by rw [List.getElem?_map, hj]; rfl
    obtain ⟨l1, e1⟩ := List.getElem?_eq_some_iff.mp h1
    obtain ⟨l2, e2⟩ := List.getElem?_eq_some_iff.mp h2
    exact (h.b.getElem_inj_iff).mp (e1.trans e2.symm)

/-! ### What a change of edges keeps -/

/-- `F'` has the same ends and connections as `F`, when vertices with `P` are renamed by `ρ` -/
structure Same (P : ℕ → Prop) (ρ : ℕ → ℕ) (F F' : List (ℕ × ℕ)) : Prop where
  c1 : ∀ v, P v → (C1 F' (ρ v) ↔ C1 F v)
  c2 : ∀ v, P v → (C2 F' (ρ v) ↔ C2 F v)
  reach : ∀ u v, P u → P v → (Reaches F' (ρ u) (ρ v) ↔ Reaches F u v)

theorem Same.comp {P Q : ℕ → Prop} {ρ σ : ℕ → ℕ} {F F' F'' : List (ℕ × ℕ)} (h : Same P ρ F F') (h' : Same Q σ F' F'') (hPQ : ∀ v, P v → Q (ρ v)) : Same P (fun v => σ (ρ v)) F F'' :=
  ⟨fun v hv => (h'.c1 _ (hPQ v hv)).trans (h.c1 v hv), fun v hv => (h'.c2 _ (hPQ v hv)).trans (h.c2 v hv),
    fun u v hu hv => (h'.reach _ _ (hPQ u hu) (hPQ v hv)).trans (h.reach u v hu hv)⟩

/-! ### Renaming -/

def Ref (F : List (ℕ × ℕ)) (v : ℕ) : Prop := C1 F v ∨ C2 F v

theorem rename_same (F : List (ℕ × ℕ)) (ρ : ℕ → ℕ) (hinj : ∀ u v, Ref F u → Ref F v → ρ u = ρ v → u = v) (hnd : Nd F) :
    Same (Ref F) ρ F (F.map (Prod.map ρ ρ)) ∧ Nd (F.map (Prod.map ρ ρ)) := by
  have hm : ∀ x y, (x, y) ∈ F.map (Prod.map ρ ρ) ↔ ∃ u v, (u, v) ∈ F ∧ ρ u = x ∧ ρ v = y := by
    intro x y
    simp [List.mem_map]
  refine ⟨⟨fun v hv => ⟨?_, ?_⟩, fun v hv => ⟨?_, ?_⟩, fun u v hu hv => ⟨?_, ?_⟩⟩, ⟨?_, ?_⟩⟩
  · rintro ⟨w, hw⟩
    obtain ⟨a, b, hab, h1, -⟩ := (hm _ _).mp hw
    rw [← hinj a v (Or.inl ⟨b, hab⟩) hv h1]
    exact ⟨b, hab⟩
  · rintro ⟨w, hw⟩
    exact ⟨ρ w, (hm _ _).mpr ⟨v, w, hw, rfl, rfl⟩⟩
  · rintro ⟨w, hw⟩
    obtain ⟨a, b, hab, -, h1⟩ := (hm _ _).mp hw
    rw [← hinj b v (Or.inr ⟨a, hab⟩) hv h1]
    exact ⟨a, hab⟩
  · rintro ⟨w, hw⟩
    exact ⟨ρ w, (hm _ _).mpr ⟨w, v, hw, rfl, rfl⟩⟩
  · intro h
    have key : ∀ z, Reaches (F.map (Prod.map ρ ρ)) (ρ u) z → ∃ w, Ref F w ∧ ρ w = z ∧ Reaches F u w := by
      intro z hz
      induction hz with
      | refl => exact ⟨u, hu, rfl, Relation.ReflTransGen.refl⟩
      | tail _ hs ih =>
        obtain ⟨w, hw, e, hr⟩ := ih
        obtain ⟨a, b, hab, h1, h2⟩ := (hm _ _).mp hs
        have : a = w := hinj a w (Or.inl ⟨b, hab⟩) hw (h1.trans e.symm)
        subst this
        exact ⟨b, Or.inr ⟨a, hab⟩, h2, hr.tail hab⟩
    obtain ⟨w, hw, e, hr⟩ := key _ h
    rwa [← hinj w v hw hv e]
  · intro h
    induction h with
    | refl => exact Relation.ReflTransGen.refl
    | tail _ hs ih =>
      rename_i b c _
      exact (ih (Or.inl ⟨c, hs⟩)).tail ((hm _ _).mpr ⟨b, c, hs, rfl, rfl⟩)
  · rw [List.map_map]
    have : ((fun x : ℕ × ℕ => x.1) ∘ Prod.map ρ ρ) = ρ ∘ (fun x : ℕ × ℕ => x.1) := rfl
    rw [this, ← List.map_map]
    refine (List.nodup_map_iff_inj_on hnd.a).mpr (fun x hx y hy e => hinj x y (Or.inl ((c1_map F x).mp hx)) (Or.inl ((c1_map F y).mp hy)) e)
  · rw [List.map_map]
    have : ((fun x : ℕ × ℕ => x.2) ∘ Prod.map ρ ρ) = ρ ∘ (fun x : ℕ × ℕ => x.2) := rfl
    rw [this, ← List.map_map]
    refine (List.nodup_map_iff_inj_on hnd.b).mpr (fun x hx y hy e => hinj x y (Or.inr ((c2_map F x).mp hx)) (Or.inr ((c2_map F y).mp hy)) e)

/-! ### Collapse -/

/-- the edges after a collapse of edge number `c`, before `remove_unreferenced` -/
theorem collapse_same (F : List (ℕ × ℕ)) (hnd : Nd F) (c : ℕ) (a b : ℕ) (hc : F[c]? = some (a, b)) (rm kp : ℕ) (hrk : (rm = b ∧ kp = a) ∨ (rm = a ∧ kp = b)) (h1 : C1 F rm) (h2 : C2 F rm) :
    Same (fun v => v ≠ rm) id F ((F.map (relabel rm kp)).eraseIdx c) ∧ Nd ((F.map (relabel rm kp)).eraseIdx c) ∧ ¬ Ref ((F.map (relabel rm kp)).eraseIdx c) rm := by
  obtain ⟨hlt, hget⟩ := List.getElem?_eq_some_iff.mp hc
  obtain ⟨l1, l2, hF, hG⟩ : ∃ l1 l2, F = l1 ++ (a, b) :: l2 ∧ (F.map (relabel rm kp)).eraseIdx c = (l1 ++ l2).map (relabel rm kp) := by
    refine ⟨F.take c, F.drop (c + 1), ?_, ?_⟩
    · rw [← hget, List.getElem_cons_drop, List.take_append_drop]
    · rw [List.eraseIdx_eq_take_drop_succ, List.map_append, List.map_take, List.map_drop]
  rw [hG]
  have hp : F.Perm ((a, b) :: (l1 ++ l2)) := by rw [hF]; exact List.perm_middle
  have hmF : ∀ x y, (x, y) ∈ F ↔ (x = a ∧ y = b) ∨ (x, y) ∈ l1 ++ l2 := by
    intro x y
    rw [hp.mem_iff, List.mem_cons, Prod.mk.injEq]
  have nda := (hp.map (·.1)).nodup_iff.mp hnd.a
  have ndb := (hp.map (·.2)).nodup_iff.mp hnd.b
  rw [List.map_cons, List.nodup_cons, c1_map] at nda
  rw [List.map_cons, List.nodup_cons, c2_map] at ndb
  generalize l1 ++ l2 = G at *
  obtain ⟨na, nda⟩ := nda
  obtain ⟨nb, ndb⟩ := ndb
  simp only at na nb
  have hm : ∀ x y, (x, y) ∈ G.map (relabel rm kp) ↔ ∃ u v, (u, v) ∈ G ∧ (if u = rm then kp else u) = x ∧ (if v = rm then kp else v) = y := by
    intro x y
    simp [List.mem_map, relabel]
  have e1 : (G.map (relabel rm kp)).map (·.1) = (G.map (·.1)).map (fun u => if u = rm then kp else u) := by simp [relabel]
  have e2 : (G.map (relabel rm kp)).map (·.2) = (G.map (·.2)).map (fun u => if u = rm then kp else u) := by simp [relabel]
  rcases hrk with ⟨rfl, rfl⟩ | ⟨rfl, rfl⟩
  · -- the second vertex goes
    have hv2 : ∀ u v, (u, v) ∈ G → v ≠ rm := fun u v h e => nb ⟨u, e ▸ h⟩
    have hu1 : ∀ u v, (u, v) ∈ G → u ≠ kp := fun u v h e => na ⟨v, e ▸ h⟩
    refine ⟨⟨fun v hv => ⟨?_, ?_⟩, fun v hv => ⟨?_, ?_⟩, fun u v hu hv => ⟨?_, ?_⟩⟩, ⟨?_, ?_⟩, ?_⟩
    · rintro ⟨w, hw⟩
      obtain ⟨u, z, h, h3, -⟩ := (hm _ _).mp hw
      by_cases hur : u = rm
      · rw [if_pos hur] at h3
        exact ⟨rm, (hmF _ _).mpr (Or.inl ⟨h3.symm, rfl⟩)⟩
      · rw [if_neg hur] at h3
        simp only [id] at h3
        exact ⟨z, (hmF _ _).mpr (Or.inr (h3 ▸ h))⟩
    · rintro ⟨w, hw⟩
      rcases (hmF _ _).mp hw with ⟨rfl, -⟩ | hw
      · obtain ⟨z, hz⟩ := h1
        rcases (hmF _ _).mp hz with ⟨h, -⟩ | hz
        · exact absurd h.symm hv
        · exact ⟨_, (hm _ _).mpr ⟨rm, z, hz, if_pos rfl, rfl⟩⟩
      · exact ⟨_, (hm _ _).mpr ⟨v, w, hw, if_neg hv, rfl⟩⟩
    · rintro ⟨w, hw⟩
      obtain ⟨u, z, h, -, h3⟩ := (hm _ _).mp hw
      rw [if_neg (hv2 u z h)] at h3
      simp only [id] at h3
      exact ⟨u, (hmF _ _).mpr (Or.inr (h3 ▸ h))⟩
    · rintro ⟨w, hw⟩
      rcases (hmF _ _).mp hw with ⟨-, h⟩ | hw
      · exact absurd h hv
      · exact ⟨_, (hm _ _).mpr ⟨w, v, hw, rfl, if_neg hv⟩⟩
    · intro h
      simp only [id] at h
      induction h with
      | refl => exact Relation.ReflTransGen.refl
      | tail _ hs ih =>
        rename_i x y _
        obtain ⟨p, q, hpq, h3, h4⟩ := (hm _ _).mp hs
        rw [if_neg (hv2 p q hpq)] at h4
        subst h4
        by_cases hpr : p = rm
        · rw [if_pos hpr] at h3
          subst h3
          by_cases hkr : kp = rm
          · exact absurd (hpr.trans hkr.symm) (hu1 p q hpq)
          · exact ((ih hkr).tail ((hmF _ _).mpr (Or.inl ⟨rfl, rfl⟩))).tail ((hmF _ _).mpr (Or.inr (hpr ▸ hpq)))
        · rw [if_neg hpr] at h3
          subst h3
          exact (ih hpr).tail ((hmF _ _).mpr (Or.inr hpq))
    · intro h
      have key : ∀ z, Reaches F u z → Reaches (G.map (relabel rm kp)) u (if z = rm then kp else z) := by
        intro z hz
        induction hz with
        | refl => rw [if_neg hu]; exact Relation.ReflTransGen.refl
        | tail _ hs ih =>
          rcases (hmF _ _).mp hs with ⟨rfl, rfl⟩ | hs
          · rw [if_pos rfl]
            split at ih
            · exact ih
            · exact ih
          · exact ih.tail ((hm _ _).mpr ⟨_, _, hs, rfl, rfl⟩)
      have := key v h
      rwa [if_neg hv] at this
    · rw [e1]
      refine (List.nodup_map_iff_inj_on nda).mpr (fun x hx y hy e => ?_)
      obtain ⟨x', hx'⟩ := (c1_map G x).mp hx
      obtain ⟨y', hy'⟩ := (c1_map G y).mp hy
      by_cases hx1 : x = rm <;> by_cases hy1 : y = rm
      · rw [hx1, hy1]
      · rw [if_pos hx1, if_neg hy1] at e
        exact absurd e.symm (hu1 y y' hy')
      · rw [if_neg hx1, if_pos hy1] at e
        exact absurd e (hu1 x x' hx')
      · rwa [if_neg hx1, if_neg hy1] at e
    · rw [e2]
      refine (List.nodup_map_iff_inj_on ndb).mpr (fun x hx y hy e => ?_)
      obtain ⟨x', hx'⟩ := (c2_map G x).mp hx
      obtain ⟨y', hy'⟩ := (c2_map G y).mp hy
      rwa [if_neg (hv2 _ _ hx'), if_neg (hv2 _ _ hy')] at e
    · rintro (⟨w, hw⟩ | ⟨w, hw⟩)
      · obtain ⟨u, z, h, h3, -⟩ := (hm _ _).mp hw
        by_cases hur : u = rm
        · rw [if_pos hur] at h3
          exact hu1 u z h (hur.trans h3.symm)
        · rw [if_neg hur] at h3
          exact hur h3
      · obtain ⟨u, z, h, -, h3⟩ := (hm _ _).mp hw
        rw [if_neg (hv2 u z h)] at h3
        exact hv2 u z h h3
  · -- the first vertex goes
    have hv2 : ∀ u v, (u, v) ∈ G → v ≠ kp := fun u v h e => nb ⟨u, e ▸ h⟩
    have hu1 : ∀ u v, (u, v) ∈ G → u ≠ rm := fun u v h e => na ⟨v, e ▸ h⟩
    refine ⟨⟨fun v hv => ⟨?_, ?_⟩, fun v hv => ⟨?_, ?_⟩, fun u v hu hv => ⟨?_, ?_⟩⟩, ⟨?_, ?_⟩, ?_⟩
    · rintro ⟨w, hw⟩
      obtain ⟨u, z, h, h3, -⟩ := (hm _ _).mp hw
      rw [if_neg (hu1 u z h)] at h3
      simp only [id] at h3
      exact ⟨z, (hmF _ _).mpr (Or.inr (h3 ▸ h))⟩
    · rintro ⟨w, hw⟩
      rcases (hmF _ _).mp hw with ⟨h, -⟩ | hw
      · exact absurd h hv
      · exact ⟨_, (hm _ _).mpr ⟨v, w, hw, if_neg hv, rfl⟩⟩
    · rintro ⟨w, hw⟩
      obtain ⟨u, z, h, -, h3⟩ := (hm _ _).mp hw
      by_cases hur : z = rm
      · rw [if_pos hur] at h3
        exact ⟨rm, (hmF _ _).mpr (Or.inl ⟨rfl, h3.symm⟩)⟩
      · rw [if_neg hur] at h3
        simp only [id] at h3
        exact ⟨u, (hmF _ _).mpr (Or.inr (h3 ▸ h))⟩
    · rintro ⟨w, hw⟩
      rcases (hmF _ _).mp hw with ⟨-, rfl⟩ | hw
      · obtain ⟨z, hz⟩ := h2
        rcases (hmF _ _).mp hz with ⟨-, h⟩ | hz
        · exact absurd h.symm hv
        · exact ⟨_, (hm _ _).mpr ⟨z, rm, hz, rfl, if_pos rfl⟩⟩
      · exact ⟨_, (hm _ _).mpr ⟨w, v, hw, rfl, if_neg hv⟩⟩
    · intro h
      simp only [id] at h
      have key : ∀ z, Reaches (G.map (relabel rm kp)) u z → Reaches F u z := by
        intro z hz
        induction hz with
        | refl => exact Relation.ReflTransGen.refl
        | tail _ hs ih =>
          obtain ⟨p, q, hpq, h3, h4⟩ := (hm _ _).mp hs
          rw [if_neg (hu1 p q hpq)] at h3
          subst h3
          by_cases hqr : q = rm
          · rw [if_pos hqr] at h4
            subst h4
            exact (ih.tail ((hmF _ _).mpr (Or.inr (hqr ▸ hpq)))).tail ((hmF _ _).mpr (Or.inl ⟨rfl, rfl⟩))
          · rw [if_neg hqr] at h4
            subst h4
            exact ih.tail ((hmF _ _).mpr (Or.inr hpq))
      exact key v h
    · intro h
      have key : ∀ z, Reaches F u z → Reaches (G.map (relabel rm kp)) u (if z = rm then kp else z) := by
        intro z hz
        induction hz with
        | refl => rw [if_neg hu]; exact Relation.ReflTransGen.refl
        | tail _ hs ih =>
          rcases (hmF _ _).mp hs with ⟨rfl, rfl⟩ | hs
          · rw [if_pos rfl] at ih
            split
            · exact ih
            · exact ih
          · exact ih.tail ((hm _ _).mpr ⟨_, _, hs, rfl, rfl⟩)
      have := key v h
      rwa [if_neg hv] at this
    · rw [e1]
      refine (List.nodup_map_iff_inj_on nda).mpr (fun x hx y hy e => ?_)
      obtain ⟨x', hx'⟩ := (c1_map G x).mp hx
      obtain ⟨y', hy'⟩ := (c1_map G y).mp hy
      rwa [if_neg (hu1 _ _ hx'), if_neg (hu1 _ _ hy')] at e
    · rw [e2]
      refine (List.nodup_map_iff_inj_on ndb).mpr (fun x hx y hy e => ?_)
      obtain ⟨x', hx'⟩ := (c2_map G x).mp hx
      obtain ⟨y', hy'⟩ := (c2_map G y).mp hy
      by_cases hx1 : x = rm <;> by_cases hy1 : y = rm
      · rw [hx1, hy1]
      · rw [if_pos hx1, if_neg hy1] at e
        exact absurd e.symm (hv2 _ y hy')
      · rw [if_neg hx1, if_pos hy1] at e
        exact absurd e (hv2 _ x hx')
      · rwa [if_neg hx1, if_neg hy1] at e
    · rintro (⟨w, hw⟩ | ⟨w, hw⟩)
      · obtain ⟨u, z, h, h3, -⟩ := (hm _ _).mp hw
        rw [if_neg (hu1 u z h)] at h3
        exact hu1 u z h h3
      · obtain ⟨u, z, h, -, h3⟩ := (hm _ _).mp hw
        by_cases hur : z = rm
        · rw [if_pos hur] at h3
          exact hv2 u z h (hur.trans h3.symm)
        · rw [if_neg hur] at h3
          exact hur h3

end Gpy.LineRemesh
