import Verif.Model.Colormap
import Verif.Spec.Colormaps
import Verif.Props.SplineLemmas
import Mathlib.Data.Fintype.Basic
import Mathlib.Tactic.IntervalCases
import Mathlib.Tactic.NormNum

/-! C128: `colormap`. -/

set_option autoImplicit false
namespace Gpy

set_option maxRecDepth 100000

private theorem mem_of_lookup {β : Type} : ∀ {l : List (String × β)} {a : String} {b : β}, l.lookup a = some b → (a, b) ∈ l
  | [], _, _, h => by simp at h
  | (k, v) :: l, a, b, h => by
    rw [List.lookup_cons] at h
    split at h
    · rename_i e; simp only [beq_iff_eq] at e; simp only [Option.some.injEq] at h; subst e; subst h; exact List.mem_cons_self
    · exact List.mem_cons_of_mem _ (mem_of_lookup h)

private theorem mem_of_lookupN {β : Type} : ∀ {l : List (ℕ × β)} {a : ℕ} {b : β}, l.lookup a = some b → (a, b) ∈ l
  | [], _, _, h => by simp at h
  | (k, v) :: l, a, b, h => by
    rw [List.lookup_cons] at h
    split at h
    · rename_i e; simp only [beq_iff_eq] at e; simp only [Option.some.injEq] at h; subst e; subst h; exact List.mem_cons_self
    · exact List.mem_cons_of_mem _ (mem_of_lookupN h)

private theorem lookup_none {β : Type} : ∀ {l : List (String × β)} {a : String}, a ∉ l.map Prod.fst → l.lookup a = none
  | [], _, _ => rfl
  | (k, v) :: l, a, h => by
    simp only [List.map_cons, List.mem_cons, not_or] at h
    rw [List.lookup_cons]
    have : (a == k) = false := by simpa using h.1
    rw [this]
    exact lookup_none h.2

private theorem lookupN_none {β : Type} : ∀ {l : List (ℕ × β)} {a : ℕ}, a ∉ l.map Prod.fst → l.lookup a = none
  | [], _, _ => rfl
  | (k, v) :: l, a, h => by
    simp only [List.map_cons, List.mem_cons, not_or] at h
    rw [List.lookup_cons]
    have : (a == k) = false := by simpa using h.1
    rw [this]
    exact lookupN_none h.2

/-- the dictionary holds for every documented name, and only for those, the tables with 1, 2, … up to the documented number of colours -/
private theorem cb_keys : ∀ q ∈ documentedMaps, (cbrewer.lookup q.1).map (fun d => d.map Prod.fst) = some ((List.range q.2).map (· + 1)) := by decide +kernel
private theorem cb_names : ∀ s ∈ cbrewer.map Prod.fst, s ∈ documentedMaps.map Prod.fst := by decide +kernel
private theorem cb_rows : ∀ p ∈ cbrewer, ∀ q ∈ p.2, q.2.length = q.1 ∧ ∀ r ∈ q.2, r.1 ≤ 255 ∧ r.2.1 ≤ 255 ∧ r.2.2 ≤ 255 := by decide +kernel
private theorem cb_max : ∀ q ∈ documentedMaps, ((cbrewer.lookup q.1).map (fun d => cbScan d d.length 1)) = some (q.2 + 1) := by decide +kernel
private theorem cb_pos : ∀ q ∈ documentedMaps, 8 ≤ q.2 := by decide +kernel

private theorem lookup_isSome_of_mem {β : Type} : ∀ {l : List (ℕ × β)} {a : ℕ}, a ∈ l.map Prod.fst → ∃ b, l.lookup a = some b
  | [], _, h => by simp at h
  | (k, v) :: l, a, h => by
    rw [List.lookup_cons]
    by_cases e : a = k
    · exact ⟨v, by rw [show (a == k) = true by simpa using e]⟩
    · rw [show (a == k) = false by simpa using e]
      simp only [List.map_cons, List.mem_cons] at h
      exact lookup_isSome_of_mem (h.resolve_left e)

/-- **C128** (without interpolation).  For a documented name with `K` colours the call with `n` succeeds exactly if `0 ≤ n ≤ K`; it returns `n` colours,
and `K` colours for `n = 0`, with every channel between 0 and 255. -/
theorem C128_plain {name : String} {K : ℕ} (hname : (name, K) ∈ documentedMaps) (n : ℤ) :
    (0 ≤ n ∧ n ≤ K → ∃ t, colormapRaw name n = some t ∧ t.length = (if n = 0 then K else n.toNat) ∧ ∀ r ∈ t, ∀ c, Rgb.ch r c ≤ 255) ∧
    (¬ (0 ≤ n ∧ n ≤ K) → colormapRaw name n = none) ∧ colormapRaw name 0 = colormapRaw name K := by
  have hk := cb_keys _ hname
  have hmx := cb_max _ hname
  have hp := cb_pos _ hname
  dsimp only at hk hmx hp
  obtain ⟨d, hd⟩ : ∃ d, cbrewer.lookup name = some d := by
    cases h : cbrewer.lookup name with
    | none => rw [h] at hk; simp at hk
    | some d => exact ⟨d, rfl⟩
  rw [hd] at hk hmx
  simp only [Option.map_some, Option.some.injEq] at hk hmx
  have hget : ∀ a, 1 ≤ a → a ≤ K → ∃ t, d.lookup a = some t ∧ t.length = a ∧ ∀ r ∈ t, ∀ c, Rgb.ch r c ≤ 255 := fun a h1 h2 => by
    obtain ⟨t, ht⟩ := lookup_isSome_of_mem (l := d) (a := a) (by rw [hk, List.mem_map]; exact ⟨a - 1, List.mem_range.mpr (by omega), by omega⟩)
    obtain ⟨e1, e2⟩ := cb_rows _ (mem_of_lookup hd) _ (mem_of_lookupN ht)
    refine ⟨t, ht, e1, fun r hr c => ?_⟩
    have := e2 r hr
    fin_cases c <;> simp [Rgb.ch] <;> omega
  have hz : colormapRaw name 0 = d.lookup K := by simp [colormapRaw, hd, hmx]
  have hpos : ∀ m : ℤ, 0 < m → colormapRaw name m = d.lookup m.toNat := fun m hm => by
    simp [colormapRaw, hd, show m ≠ 0 by omega, show 0 ≤ m by omega]
  refine ⟨fun ⟨h0, h1⟩ => ?_, fun h => ?_, ?_⟩
  · by_cases c : n = 0
    · subst c; rw [hz, if_pos rfl]; exact hget K (by omega) le_rfl
    · rw [hpos n (by omega), if_neg c]; exact hget n.toNat (by omega) (by omega)
  · rcases lt_or_ge n 0 with c | c
    · simp [colormapRaw, hd, show n ≠ 0 by omega, show ¬ (0 ≤ n) by omega]
    · rw [hpos n (by omega)]
      apply lookupN_none
      rw [hk, List.mem_map]
      rintro ⟨a, ha, hb⟩
      rw [List.mem_range] at ha
      omega
  · rw [hz, hpos K (by omega), Int.toNat_natCast]

/-- **C128**: any other name is refused. -/
theorem C128_unknown {name : String} (hname : name ∉ documentedMaps.map Prod.fst) (spline : ℕ → (ℕ → ℝ) → ℝ → ℝ) (n : ℤ) (b : Bool) :
    colormap spline name n b = none := by
  have : cbrewer.lookup name = none := lookup_none (fun h => hname (cb_names _ h))
  have h2 : ∀ m, colormapRaw name m = none := fun m => by simp [colormapRaw, this]
  unfold colormap; simp [h2]

/-- **C128** (without interpolation): for the qualitative maps the `n` colours are the first `n` of the whole map. -/
theorem C128_prefix_partial {name : String} {K : ℕ} (hname : (name, K) ∈ qualitativeMaps) (n : ℕ) (h0 : 1 ≤ n) (h1 : n ≤ K) :
    colormapRaw name n = (colormapRaw name 0).map (fun t => t.take n) := by
  have key : ∀ q ∈ qualitativeMaps, ∀ n : Fin 12, n.1 + 1 ≤ q.2 → colormapRaw q.1 ((n.1 + 1 : ℕ) : ℤ) = (colormapRaw q.1 0).map (fun t => t.take (n.1 + 1)) := by
    decide +kernel
  have hK : ∀ q ∈ qualitativeMaps, q.2 ≤ 12 := by decide +kernel
  have := key _ hname ⟨n - 1, by have := hK _ hname; dsimp only at this; omega⟩ (by dsimp only; omega)
  simpa [Nat.sub_add_cancel h0] using this

/-- **C128 violated**: the documentation promises the first `n` colours of the map; for no sequential or diverging map are the first three colours of the map what
`n = 3` returns. -/
theorem C128_prefix_violated : ∀ name ∈ sequentialMaps ++ divergingMaps, colormapRaw name 3 ≠ (colormapRaw name 0).map (fun t => t.take 3) := by
  decide +kernel

/-- the cubic interpolation of `interp1d`: for at least four nodes it makes the not-a-knot spline -/
def CubicOk (spline : ℕ → (ℕ → ℝ) → ℝ → ℝ) : Prop := ∀ K y, 4 ≤ K → NotAKnot K y (spline K y)

/-- such an interpolation exists, and on `[0,1]` there is only one -/
theorem C128_spline_exists_unique : (∃ spline, CubicOk spline) ∧
    ∀ s s', CubicOk s → CubicOk s' → ∀ K y, 4 ≤ K → ∀ x, 0 ≤ x → x ≤ 1 → s K y x = s' K y x := by
  refine ⟨?_, fun s s' h h' K y hK => spline_unique hK (h K y hK) (h' K y hK)⟩
  classical
  refine ⟨fun K y => if h : 4 ≤ K then (spline_exists h y).choose else 0, fun K y hK => ?_⟩
  simp only [hK, dif_pos]
  exact (spline_exists hK y).choose_spec

/-- **C128** (with interpolation).  For a documented map with the `K` colours `raw`, every `n ≥ 1` gives `n` colours and every other `n` is refused; the first colour is
the first of the map, for `n ≥ 2` the last one is the last of the map, and with `n = m (K-1) + 1` every `m`-th colour is a colour of the map. -/
theorem C128_interpolated {spline : ℕ → (ℕ → ℝ) → ℝ → ℝ} (hs : CubicOk spline) {name : String} {K : ℕ} (hname : (name, K) ∈ documentedMaps) :
    ∃ raw : List Rgb, colormapRaw name 0 = some raw ∧ raw.length = K ∧
      (∀ n : ℤ, n < 1 → colormap spline name n true = none) ∧
      (∀ n : ℕ, 1 ≤ n → ∃ out, colormap spline name n true = some out ∧ out.length = n ∧
        (∀ c, out[0]?.map (· c) = raw[0]?.map (fun r => ((Rgb.ch r c : ℕ) : ℝ))) ∧
        (2 ≤ n → ∀ c, out[n - 1]?.map (· c) = raw[K - 1]?.map (fun r => ((Rgb.ch r c : ℕ) : ℝ))) ∧
        (∀ m, 1 ≤ m → n = m * (K - 1) + 1 → ∀ j, j < K → ∀ c, out[j * m]?.map (· c) = raw[j]?.map (fun r => ((Rgb.ch r c : ℕ) : ℝ)))) := by
  have hp := cb_pos _ hname
  dsimp only at hp
  obtain ⟨raw, hraw, hlen, -⟩ := (C128_plain hname 0).1 ⟨le_rfl, by omega⟩
  rw [if_pos rfl] at hlen
  have hKr : (8 : ℝ) ≤ K := by exact_mod_cast hp
  -- the value at a node
  have hnode : ∀ j, j < K → ∀ c, spline K (tableCol raw c) (splineNode K j) = ((Rgb.ch (raw.getD j (0, 0, 0)) c : ℕ) : ℝ) := fun j hj c => by
    obtain ⟨p, -, -, hy, -⟩ := hs K (tableCol raw c) (by omega)
    exact hy j hj
  have hrawj : ∀ j, j < K → ∀ c : Fin 3, (raw[j]?).map (fun r => ((Rgb.ch r c : ℕ) : ℝ)) = some ((Rgb.ch (raw.getD j (0, 0, 0)) c : ℕ) : ℝ) := fun j hj c => by
    have : j < raw.length := by omega
    simp [List.getD_eq_getElem?_getD, List.getElem?_eq_getElem this]
  refine ⟨raw, hraw, hlen, fun n hn => ?_, fun n hn => ?_⟩
  · simp [colormap, show ¬ (1 ≤ n) by omega]
  · have hn' : (1 : ℤ) ≤ n := by exact_mod_cast hn
    have hout : ∀ j, j < n → ∀ c : Fin 3, (((List.range n).map (fun j : ℕ => fun c => spline K (tableCol raw c) (linspace 0 1 n j)))[j]?).map (· c) =
        some (spline K (tableCol raw c) (linspace 0 1 n j)) := fun j hj c => by
      simp [hj]
    refine ⟨(List.range n).map (fun j : ℕ => fun c => spline K (tableCol raw c) (linspace 0 1 n j)), ?_, by simp, fun c => ?_, fun h2 c => ?_, fun m hm he j hj c => ?_⟩
    · simp [colormap, hn', hraw, hlen]
    · rw [hout 0 (by omega), hrawj 0 (by omega), ← hnode 0 (by omega)]
      simp [linspace, splineNode]
    · rw [hout (n - 1) (by omega), hrawj (K - 1) (by omega), ← hnode (K - 1) (by omega)]
      have e1 : linspace 0 1 n (n - 1) = 1 := by
        unfold linspace
        have : (2 : ℝ) ≤ n := by exact_mod_cast h2
        rw [Nat.cast_sub hn]; push_cast
        field_simp [show ((n : ℝ) - 1) ≠ 0 by linarith]
        ring
      have e2 : splineNode K (K - 1) = 1 := by
        unfold splineNode
        rw [Nat.cast_sub (show 1 ≤ K by omega)]; push_cast
        exact div_self (by linarith)
      rw [e1, e2]
    · have hjm : j * m < n := by
        have : j * m ≤ (K - 1) * m := Nat.mul_le_mul_right m (by omega)
        rw [he, Nat.mul_comm m]; omega
      rw [hout (j * m) hjm, hrawj j hj, ← hnode j hj]
      have e1 : linspace 0 1 n (j * m) = splineNode K j := by
        unfold linspace splineNode
        rw [he]
        have : (1 : ℝ) ≤ m := by exact_mod_cast hm
        push_cast [Nat.cast_sub (show 1 ≤ K by omega)]
        have h1 : (m : ℝ) ≠ 0 := by linarith
        have h2 : ((K : ℝ) - 1) ≠ 0 := by linarith
        rw [show (m : ℝ) * ((K : ℝ) - 1) + 1 - 1 = m * ((K : ℝ) - 1) by ring]
        field_simp
        ring
      rw [e1]

private theorem accent_raw : colormapRaw "Accent" 0 = some [(127, 201, 127), (190, 174, 212), (253, 192, 134), (255, 255, 153), (56, 108, 176), (240, 2, 127), (191, 91, 23), (102, 102, 102)] := by decide +kernel
private theorem dark2_raw : colormapRaw "Dark2" 0 = some [(27, 158, 119), (217, 95, 2), (117, 112, 179), (231, 41, 138), (102, 166, 30), (230, 171, 2), (166, 118, 29), (102, 102, 102)] := by decide +kernel

/-- **C128 violated**: interpolated colours leave the range 0 to 255: `colormap('Accent', 15)` has a red channel above 284 … -/
theorem C128_range_violated {spline : ℕ → (ℕ → ℝ) → ℝ → ℝ} (hs : CubicOk spline) :
    ∃ out, colormap spline "Accent" 15 true = some out ∧ ∃ r, out[5]? = some r ∧ 284 < r 0 := by
  refine ⟨_, by simp [colormap, accent_raw]; rfl, _, by simp; rfl, ?_⟩

  obtain ⟨m, ⟨h1, h2, h3⟩, hv⟩ := moments_of_spline (K := 8) (by norm_num) (hs 8 (tableCol [(127, 201, 127), (190, 174, 212), (253, 192, 134), (255, 255, 153), (56, 108, 176), (240, 2, 127), (191, 91, 23), (102, 102, 102)] 0) (by norm_num))
  have hx : linspace 0 1 15 5 = splineNode 8 2 + (1 / 2) / (((8 : ℕ) : ℝ) - 1) := by unfold linspace splineNode; norm_num
  have := hv 2 (by norm_num) (1 / 2) (by norm_num) (by norm_num)
  rw [← hx] at this
  rw [this]
  have a0 := h1 0 (by norm_num); have a1 := h1 1 (by norm_num); have a2 := h1 2 (by norm_num); have a3 := h1 3 (by norm_num)
  have a4 := h1 4 (by norm_num); have a5 := h1 5 (by norm_num)
  simp only [tableCol, Rgb.ch] at a0 a1 a2 a3 a4 a5
  norm_num at a0 a1 a2 a3 a4 a5 h2 h3
  simp only [momentPiece, tableCol, Rgb.ch]
  norm_num
  linarith

/-- … and `colormap('Dark2', 22)` has a negative blue channel. -/
theorem C128_negative_violated {spline : ℕ → (ℕ → ℝ) → ℝ → ℝ} (hs : CubicOk spline) :
    ∃ out, colormap spline "Dark2" 22 true = some out ∧ ∃ r, out[2]? = some r ∧ r 2 < (-25 : ℝ) := by
  refine ⟨_, by simp [colormap, dark2_raw]; rfl, _, by simp; rfl, ?_⟩

  obtain ⟨m, ⟨h1, h2, h3⟩, hv⟩ := moments_of_spline (K := 8) (by norm_num) (hs 8 (tableCol [(27, 158, 119), (217, 95, 2), (117, 112, 179), (231, 41, 138), (102, 166, 30), (230, 171, 2), (166, 118, 29), (102, 102, 102)] 2) (by norm_num))
  have hx : linspace 0 1 22 2 = splineNode 8 0 + (2 / 3) / (((8 : ℕ) : ℝ) - 1) := by unfold linspace splineNode; norm_num
  have := hv 0 (by norm_num) (2 / 3) (by norm_num) (by norm_num)
  rw [← hx] at this
  rw [this]
  have a0 := h1 0 (by norm_num); have a1 := h1 1 (by norm_num); have a2 := h1 2 (by norm_num); have a3 := h1 3 (by norm_num)
  have a4 := h1 4 (by norm_num); have a5 := h1 5 (by norm_num)
  simp only [tableCol, Rgb.ch] at a0 a1 a2 a3 a4 a5
  norm_num at a0 a1 a2 a3 a4 a5 h2 h3
  simp only [momentPiece, tableCol, Rgb.ch]
  norm_num
  linarith

/-! Concrete cases. -/

example : ("RdBu", 11) ∈ documentedMaps := by decide +kernel
example : "viridis" ∉ documentedMaps.map Prod.fst := by decide +kernel
example : ("Set1", 9) ∈ qualitativeMaps := by decide +kernel
example : colormapRaw "RdBu" 2 = some [(239, 138, 98), (247, 247, 247)] := by decide +kernel
example : colormapRaw "RdBu" 12 = none := by decide +kernel

/-- **C128** The columns are red, green and blue in this order, without interpolation and (at the first colour) with it. -/
theorem C128_channels {spline : ℕ → (ℕ → ℝ) → ℝ → ℝ} (hs : CubicOk spline) {name : String} {K : ℕ} (hname : (name, K) ∈ documentedMaps) :
    (∀ n t, colormapRaw name n = some t → colormap spline name n false = some (t.map (fun q => ![(q.1 : ℝ), (q.2.1 : ℝ), (q.2.2 : ℝ)]))) ∧
    (∀ (n : ℕ) (r g b : ℕ) (t : List Rgb), 1 ≤ n → colormapRaw name 0 = some ((r, g, b) :: t) → ∃ out, colormap spline name n true = some (![(r : ℝ), (g : ℝ), (b : ℝ)] :: out)) := by
  have hch : ∀ q : Rgb, (fun c => ((Rgb.ch q c : ℕ) : ℝ)) = ![(q.1 : ℝ), (q.2.1 : ℝ), (q.2.2 : ℝ)] := by
    intro q; funext c; fin_cases c <;> rfl
  constructor
  · intro n t h
    unfold colormap
    rw [if_neg (by simp), h, Option.map_some, Option.some.injEq]
    exact List.map_congr_left (fun q _ => hch q)
  · intro n r g b t hn h
    obtain ⟨raw, h1, -, -, h4⟩ := C128_interpolated hs hname
    obtain ⟨out, o1, o2, o3, -⟩ := h4 n hn
    rw [h1, Option.some.injEq] at h
    subst h
    cases out with
    | nil => simp at o2; omega
    | cons x out =>
      refine ⟨out, ?_⟩
      rw [o1, ← hch (r, g, b)]
      congr 2
      funext c
      simpa using o3 c

end Gpy
