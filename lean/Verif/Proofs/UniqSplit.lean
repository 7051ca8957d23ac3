import Verif.Model.Edges

/-! The common part of `edges.py` and `faces.py`: rows that occur once (up to sorting), then the others. -/

set_option autoImplicit false
namespace Gpy
open Np

section
variable {α : Type} [LinearOrder α] (flat : List α) (key : α → α)

/-- first row with the given sorted row -/
def gPick (x : α) : α := (flat[(flat.map key).idxOf x]?).getD x

variable {flat key}

theorem gPick_spec {x : α} (hx : x ∈ flat.map key) :
    flat[(flat.map key).idxOf x]? = some (gPick flat key x) ∧ key (gPick flat key x) = x ∧ gPick flat key x ∈ flat := by
  have hlt := List.idxOf_lt_length_iff.mpr hx
  have hlt' : (flat.map key).idxOf x < flat.length := by simpa using hlt
  have h1 : flat[(flat.map key).idxOf x]? = some (gPick flat key x) := by
    unfold gPick
    rw [List.getElem?_eq_getElem hlt']; rfl
  refine ⟨h1, ?_, List.mem_of_getElem? h1⟩
  have h2 : (flat.map key)[(flat.map key).idxOf x] = x := List.getElem_idxOf hlt
  have h3 : (flat.map key)[(flat.map key).idxOf x]? = some (key (gPick flat key x)) := by
    rw [List.getElem?_map, h1]; rfl
  rw [List.getElem?_eq_getElem hlt, h2] at h3
  exact (Option.some.inj h3).symm

variable (flat key)

def gBdry : List α := ((npUnique (flat.map key)).filter (fun x => (flat.map key).count x == 1)).map (gPick flat key)
def gInt : List α := (npUnique (flat.map key)).filter (fun x => decide ((flat.map key).count x > 1))

theorem gTake (p : ℕ → Bool) :
    npTakeN flat (npMask (npUniqueIndex (flat.map key)) ((npUniqueCounts (flat.map key)).map p))
      = some (((npUnique (flat.map key)).filter (fun x => p ((flat.map key).count x))).map (gPick flat key)) := by
  unfold npUniqueIndex npUniqueCounts npTakeN
  rw [List.map_map, npMask_map_map, List.mapM_map]
  apply mapM_eq_some_map
  intro x hx
  exact (gPick_spec (mem_npUnique.mp (List.mem_of_mem_filter hx))).1

theorem gMask (p : ℕ → Bool) :
    npMask (npUnique (flat.map key)) ((npUniqueCounts (flat.map key)).map p)
      = (npUnique (flat.map key)).filter (fun x => p ((flat.map key).count x)) := by
  unfold npUniqueCounts
  rw [List.map_map, npMask_self_map]; rfl

theorem gLength : (gBdry flat key ++ gInt flat key).length = (npUnique (flat.map key)).length := by
  have h := List.length_eq_length_filter_add (l := npUnique (flat.map key)) (fun x => (flat.map key).count x == 1)
  rw [List.length_append, h]
  unfold gBdry gInt
  rw [List.length_map]
  congr 2
  apply List.filter_congr
  intro x hx
  have : 0 < (flat.map key).count x := List.count_pos_iff.mpr (mem_npUnique.mp hx)
  by_cases h : (flat.map key).count x = 1
  · simp [h]
  · have : (flat.map key).count x > 1 := by omega
    simp [h, this]

variable {flat key}

/-- two rows with the same key of count one are the same -/
theorem gCount_one {e f : α} (he : e ∈ flat) (hf : f ∈ flat) (hk : key e = key f) (h1 : (flat.map key).count (key e) = 1) : e = f := by
  rw [List.count, List.countP_map, List.countP_eq_length_filter, List.length_eq_one_iff] at h1
  obtain ⟨a, ha⟩ := h1
  have m1 : e ∈ flat.filter ((fun x => x == key e) ∘ key) := List.mem_filter.mpr ⟨he, by simp⟩
  have m2 : f ∈ flat.filter ((fun x => x == key e) ∘ key) := List.mem_filter.mpr ⟨hf, by simp [hk]⟩
  rw [ha, List.mem_singleton] at m1 m2
  rw [m1, m2]

theorem mem_gBdry {e : α} : e ∈ gBdry flat key ↔ e ∈ flat ∧ (flat.map key).count (key e) = 1 := by
  unfold gBdry
  rw [List.mem_map]
  constructor
  · rintro ⟨x, hx, rfl⟩
    rw [List.mem_filter] at hx
    have hp := gPick_spec (mem_npUnique.mp hx.1)
    exact ⟨hp.2.2, by rw [hp.2.1]; simpa using hx.2⟩
  · rintro ⟨h1, h2⟩
    have hm : key e ∈ flat.map key := List.mem_map_of_mem h1
    have hp := gPick_spec hm
    refine ⟨key e, List.mem_filter.mpr ⟨mem_npUnique.mpr hm, by simpa using h2⟩, ?_⟩
    exact (gCount_one h1 hp.2.2 hp.2.1.symm h2).symm

theorem mem_gInt (hk : ∀ x, key (key x) = key x) {e : α} : e ∈ gInt flat key ↔ key e = e ∧ 2 ≤ (flat.map key).count (key e) := by
  unfold gInt
  rw [List.mem_filter, mem_npUnique]
  constructor
  · rintro ⟨h1, h2⟩
    have hs : key e = e := by
      rw [List.mem_map] at h1
      obtain ⟨a, _, rfl⟩ := h1; exact hk a
    refine ⟨hs, ?_⟩
    rw [hs]; simp at h2; omega
  · rintro ⟨h1, h2⟩
    rw [h1] at h2
    exact ⟨List.count_pos_iff.mp (by omega), by simp; omega⟩

theorem gBdry_sorted : ((gBdry flat key).map key).Pairwise (· < ·) := by
  unfold gBdry
  rw [List.map_map]
  have : ((npUnique (flat.map key)).filter (fun x => (flat.map key).count x == 1)).map (key ∘ gPick flat key) =
      (npUnique (flat.map key)).filter (fun x => (flat.map key).count x == 1) := by
    conv_rhs => rw [← List.map_id ((npUnique (flat.map key)).filter (fun x => (flat.map key).count x == 1))]
    apply List.map_congr_left
    intro x hx
    exact (gPick_spec (mem_npUnique.mp (List.mem_of_mem_filter hx))).2.1
  rw [this]
  exact (npUnique_pairwise_lt _).filter _

theorem gInt_sorted : (gInt flat key).Pairwise (· < ·) := (npUnique_pairwise_lt _).filter _

theorem gBdry_nodup : (gBdry flat key).Nodup := List.Nodup.of_map _ (gBdry_sorted.imp (fun h => ne_of_lt h))

theorem gE_pairwise (hk : ∀ x, key (key x) = key x) : (gBdry flat key ++ gInt flat key).Pairwise (fun e f => key e ≠ key f) := by
  rw [List.pairwise_append]
  refine ⟨?_, ?_, ?_⟩
  · have := gBdry_sorted (flat := flat) (key := key)
    rw [List.pairwise_map] at this
    exact this.imp (fun h => ne_of_lt h)
  · have := gInt_sorted (flat := flat) (key := key)
    refine List.Pairwise.imp_of_mem ?_ this
    intro a b ha hb h
    rw [((mem_gInt hk).mp ha).1, ((mem_gInt hk).mp hb).1]
    exact ne_of_lt h
  · intro e he f hf h
    have h1 := (mem_gBdry.mp he).2
    have h2 := ((mem_gInt hk).mp hf).2
    rw [h] at h1
    omega

end
end Gpy
