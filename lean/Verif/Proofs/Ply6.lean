import Verif.Proofs.Ply5

/-!
# PLY: the mesh read from a document
-/

set_option autoImplicit false
namespace Gpy.Ply

variable {pt : Put} {cd : Codec} {canon : Ty → List Byte → List Byte} {Pad : List Byte → Prop}

/-- a request answered by scalar properties -/
theorem rows_scalar (d : Doc) (hok : d.Ok) (hd : d.Named) (r : Request) (hr : r ∈ allRequests) (ha : Act d r) (G : Group) (hG : Fits canon d r G)
    (hl : G.isList = false) (hio : ∀ e ∈ d, e.name = r.elem → InOrder e r.keys G.ty) (m k : ℕ) (hm : r.keys.length = m) (hk : G.ty.stride = k) :
    ∃ R : List (Fin m → Fin k → Byte), rowsOf m k G.count (pickDoc canon (docTab d) r.id d) = some R ∧ ∀ e ∈ d, e.name = r.elem → Scalars canon e r.keys R := by
  obtain ⟨e, he, hen, _⟩ := ha.1
  have hu : ∀ e' ∈ d, e'.name = r.elem → e' = e := fun e' he' hn => name_inj hd.elems he' he (by rw [hn, hen])
  have hsh : ∀ a ∈ e.rows.map (keyVals canon r.keys e.props), a.length = m ∧ ∀ v ∈ a, v.length = k := by
    intro a ha'
    obtain ⟨row, hrow, rfl⟩ := List.mem_map.mp ha'
    have := hG.shape e he hen row hrow
    rw [hl, hk, hm] at this
    simpa using this
  obtain ⟨R, h1, h2, h3⟩ := rowsOf_spec m k _ hsh
  rw [← pickDoc_rows d hd e he r hr ha hen, List.length_map, ← (hG.group.2 e he hen).1] at h1
  refine ⟨R, h1, fun e' he' hn' => ?_⟩
  rw [hu e' he' hn']
  rw [List.length_map] at h2
  exact scalars_of r.keys e G.ty (hio e he hen) (hd.props e he) (hok e he) hm.symm R h2 h3

/-- a request answered by a list property -/
theorem rows_list (d : Doc) (hok : d.Ok) (hd : d.Named) (r : Request) (hr : r ∈ allRequests) (ha : Act d r) (G : Group) (hG : Fits canon d r G)
    (hl : G.isList = true) (hh : G.hint = 3) (k : Name) (hks : r.keys = [k]) (hs : G.ty.stride = 4) (ht : ∀ e ∈ d, e.name = r.elem → TriangleList e k) :
    ∃ R : List (Fin 3 → W32), rowsOf 3 4 G.count (pickDoc canon (docTab d) r.id d) = some R ∧ ∀ e ∈ d, e.name = r.elem → Triples canon e k R := by
  obtain ⟨e, he, hen, _⟩ := ha.1
  have hu : ∀ e' ∈ d, e'.name = r.elem → e' = e := fun e' he' hn => name_inj hd.elems he' he (by rw [hn, hen])
  have hsh : ∀ a ∈ e.rows.map (keyVals canon r.keys e.props), a.length = 3 ∧ ∀ v ∈ a, v.length = 4 := by
    intro a ha'
    obtain ⟨row, hrow, rfl⟩ := List.mem_map.mp ha'
    have := hG.shape e he hen row hrow
    rw [hl, hs, hh, hks] at this
    rw [hks]
    simpa using this
  obtain ⟨R, h1, h2, h3⟩ := rowsOf_spec 3 4 _ hsh
  rw [← pickDoc_rows d hd e he r hr ha hen, List.length_map, ← (hG.group.2 e he hen).1] at h1
  refine ⟨R, h1, fun e' he' hn' => ?_⟩
  rw [hu e' he' hn']
  rw [List.length_map] at h2
  refine ⟨h2, fun i x row hx hrow => ?_⟩
  have hrm := List.mem_of_getElem? hrow
  obtain ⟨t, v0, v1, v2, hf, hv, _⟩ := keyVals_tri (canon := canon) k e (hd.props e he) (ht e he hen) row hrm (hok e he row hrm)
  have h4 := h3 i x (keyVals canon r.keys e.props row) hx (by rw [List.getElem?_map, hrow]; rfl)
  rw [hks, hv] at h4
  refine ⟨t, v0, v1, v2, hf, ?_, ?_, ?_⟩
  · have := h4 0; simpa [eq_comm] using this
  · have := h4 1; simpa [eq_comm] using this
  · have := h4 2; simpa [eq_comm] using this

/-- what is known of the group of a request in a readable document -/
structure Good (canon : Ty → List Byte → List Byte) (d : Doc) (tv : Ty) (r : Request) (G : Group) : Prop where
  fits : Fits canon d r G
  scal : r.hint = 0 → G.isList = false ∧ ∀ e ∈ d, e.name = r.elem → InOrder e r.keys G.ty
  v : r = rV → G.ty = tv
  n : r = rN → G.ty = .float32 ∨ (G.ty = .float64 ∧ tv = .float64)
  c : r ∈ [rC, rC', rFC, rFC'] → G.ty = .uint8
  f : r.hint = 3 → G.isList = true ∧ G.ty.stride = 4

theorem good_exists (L : Lawful pt cd canon Pad) (d : Doc) (tv : Ty) (hR : d.Readable tv) (r : Request) (hr : r ∈ allRequests) (hh : d.has r) :
    ∃ G, Good canon d tv r G := by
  have hd := hR.named
  obtain ⟨e, he, hen, hks⟩ := id hh
  have hu : ∀ e' ∈ d, e'.name = r.elem → e' = e := fun e' he' hn => name_inj hd.elems he' he (by rw [hn, hen])
  have scalar : ∀ t, r.hint = 0 → InOrder e r.keys t → (r = rV → t = tv) → (r = rN → t = .float32 ∨ (t = .float64 ∧ tv = .float64)) →
      (r ∈ [rC, rC', rFC, rFC'] → t = .uint8) → ∃ G, Good canon d tv r G := by
    intro t h0 hio hv hn hc
    refine ⟨_, fits_scalar L d hR.ok hd r h0 t e he hen hio, fun _ => ⟨rfl, fun e' he' hn' => by rw [hu e' he' hn']; exact hio⟩, hv, hn, hc, fun h3 => ?_⟩
    rw [h0] at h3; exact absurd h3 (by decide)
  have lists : ∀ k, r.hint = 3 → r.keys = [k] → r ∈ [rF, rF'] → ∃ G, Good canon d tv r G := by
    intro k h3 hk hm
    obtain ⟨G, hG, hty, hl⟩ := fits_list L d hR.ok hd r h3 k hk hh e he hen (hR.f r hm hh e he hen k (by rw [hk]; simp))
    refine ⟨G, hG, fun h0 => by rw [h3] at h0; exact absurd h0 (by decide), ?_, ?_, ?_, fun _ => ⟨hl, by rcases hty with h | h <;> rw [h] <;> rfl⟩⟩
    · rintro rfl; exact absurd h3 (by decide)
    · rintro rfl; exact absurd h3 (by decide)
    · intro hc
      simp only [List.mem_cons, List.not_mem_nil, or_false] at hc
      rcases hc with rfl | rfl | rfl | rfl <;> exact absurd h3 (by decide)
  have ne : ∀ a b : Request, a.id ≠ b.id → a ≠ b := fun a b h hab => h (by rw [hab])
  have nc : ∀ a : Request, a.id < 2 → a ∉ [rC, rC', rFC, rFC'] := by
    intro a ha hm
    simp only [List.mem_cons, List.not_mem_nil, or_false] at hm
    rcases hm with rfl | rfl | rfl | rfl <;> exact absurd ha (by decide)
  simp only [allRequests, List.mem_cons, List.not_mem_nil, or_false] at hr
  rcases hr with rfl | rfl | rfl | rfl | rfl | rfl | rfl | rfl
  · obtain ⟨e1, he1, hn1, hio⟩ := hR.v
    rw [hu e1 he1 hn1] at hio
    exact scalar tv rfl hio (fun _ => rfl) (fun h => absurd h (ne _ _ (by decide))) (fun h => absurd h (nc _ (by decide)))
  · rcases hR.n hh e he hen with h | ⟨h, htv⟩
    · exact scalar .float32 rfl h (fun h => absurd h (ne _ _ (by decide))) (fun _ => Or.inl rfl) (fun h => absurd h (nc _ (by decide)))
    · exact scalar .float64 rfl h (fun h => absurd h (ne _ _ (by decide))) (fun _ => Or.inr ⟨rfl, htv⟩) (fun h => absurd h (nc _ (by decide)))
  · exact scalar .uint8 rfl (hR.c rC (by simp) hh e he hen) (fun h => absurd h (ne _ _ (by decide))) (fun h => absurd h (ne _ _ (by decide))) (fun _ => rfl)
  · exact scalar .uint8 rfl (hR.c rC' (by simp) hh e he hen) (fun h => absurd h (ne _ _ (by decide))) (fun h => absurd h (ne _ _ (by decide))) (fun _ => rfl)
  · exact scalar .uint8 rfl (hR.c rFC (by simp) hh e he hen) (fun h => absurd h (ne _ _ (by decide))) (fun h => absurd h (ne _ _ (by decide))) (fun _ => rfl)
  · exact scalar .uint8 rfl (hR.c rFC' (by simp) hh e he hen) (fun h => absurd h (ne _ _ (by decide))) (fun h => absurd h (ne _ _ (by decide))) (fun _ => rfl)
  · exact lists (c! "vertex_indices") rfl rfl (by simp)
  · exact lists (c! "vertex_index") rfl rfl (by simp)

open Classical in
/-- groups by number -/
theorem groups_exist (L : Lawful pt cd canon Pad) (d : Doc) (tv : Ty) (hR : d.Readable tv) :
    ∃ grp : ℕ → Group, ∀ r ∈ allRequests, d.has r → Good canon d tv r (grp r.id) := by
  have h : ∀ r : Request, ∃ G, r ∈ allRequests → d.has r → Good canon d tv r G := by
    intro r
    by_cases hr : r ∈ allRequests ∧ d.has r
    · obtain ⟨G, hG⟩ := good_exists L d tv hR r hr.1 hr.2
      exact ⟨G, fun _ _ => hG⟩
    · exact ⟨⟨.invalid, false, 0, 0⟩, fun h1 h2 => absurd ⟨h1, h2⟩ hr⟩
  choose g0 hg0 using h
  refine ⟨fun i => (allRequests.find? (fun r => decide (r.id = i))).elim ⟨.invalid, false, 0, 0⟩ g0, ?_⟩
  intro r hr hh
  have : allRequests.find? (fun x => decide (x.id = r.id)) = some r :=
    find_unique _ _ r hr (by simp) (fun b hb hbr => id_inj b hb r hr (of_decide_eq_true hbr))
  simp only [this, Option.elim_some]
  exact hg0 r hr hh

theorem first_cons {d : Doc} {a : Request} {rs : List Request} {r : Request} (h : d.First (a :: rs) r) : (d.has a ∧ r = a) ∨ (¬ d.has a ∧ d.First rs r) := by
  obtain ⟨s, t, hst, hr, hs⟩ := h
  cases s with
  | nil =>
    simp only [List.nil_append, List.cons.injEq] at hst
    left
    rw [hst.1]
    exact ⟨hr, rfl⟩
  | cons x s =>
    simp only [List.cons_append, List.cons.injEq] at hst
    right
    exact ⟨by rw [hst.1]; exact hs x (by simp), s, t, hst.2, hr, fun y hy => hs y (by simp [hy])⟩

theorem first_nil {d : Doc} {r : Request} (h : d.First [] r) : False := by
  obtain ⟨s, t, hst, _⟩ := h
  simp at hst

/-- coordinates and normals -/
theorem fillD_spec (widen : W32 → D64) (d : Doc) (hok : d.Ok) (hd : d.Named) (r : Request) (hr : r ∈ allRequests) (ha : Act d r) (G : Group) (hG : Fits canon d r G)
    (hl : G.isList = false) (hio : ∀ e ∈ d, e.name = r.elem → InOrder e r.keys G.ty) (hk : r.keys.length = 3) (aD : Bool)
    (hty : G.ty = .float32 ∨ (G.ty = .float64 ∧ aD = true)) :
    ∃ R, fillD widen (decide (G.ty = .float32)) aD G.count (pickDoc canon (docTab d) r.id d) = some R ∧
      ∀ e ∈ d, e.name = r.elem → Coords canon widen e r.keys G.ty R := by
  rcases hty with h | ⟨h, hA⟩
  · obtain ⟨R, h1, h2⟩ := rows_scalar d hok hd r hr ha G hG hl hio 3 4 hk (by rw [h]; rfl)
    refine ⟨R.map (fun r j => widen (r j)), ?_, fun e he hn => ⟨fun h64 => ?_, fun _ => ⟨R, h2 e he hn, rfl⟩⟩⟩
    · simp only [fillD, h, decide_true, if_true, h1, Option.map_some]
    · rw [h] at h64; exact absurd h64 (by decide)
  · obtain ⟨R, h1, h2⟩ := rows_scalar d hok hd r hr ha G hG hl hio 3 8 hk (by rw [h]; rfl)
    refine ⟨R, ?_, fun e he hn => ⟨fun _ => h2 e he hn, fun h32 => ?_⟩⟩
    · have : decide (G.ty = .float32) = false := by rw [h]; decide
      simp only [fillD, this, hA, Bool.false_eq_true, if_false, if_true, h1]
    · rw [h] at h32; exact absurd h32 (by decide)

open Classical in
/-- reading the file of a readable document -/
theorem read_doc (io : TextIO) (canon : Ty → List Byte → List Byte) (fmt : Fmt) (L : Lawful (putOf io fmt) (codecOf io fmt) (canonOf canon fmt) (padOf fmt))
    (widen : W32 → D64) (cs : List (List HTok)) (d : Doc) (tv : Ty)
    (hR : d.Readable tv) : ∃ M, readPly io widen (d.file io fmt cs) = some M ∧ Says (canonOf canon fmt) widen d tv M := by
  set cn := canonOf canon fmt with hcn
  have hd := hR.named
  obtain ⟨grp, hgrp⟩ := groups_exist L d tv hR
  obtain ⟨groups, hgr, hreq⟩ := requests_spec d hd grp (fun r hr hh => (hgrp r hr hh).fits.group)
  have hgood : ∀ r ∈ allRequests, Act d r → Good cn d tv r (groups r.id) := fun r hr ha => by rw [hgr r hr ha]; exact hgrp r hr ha.1
  obtain ⟨caps, hcap, hle, hceq⟩ := capacities_spec L d hR.ok hd groups (fun r hr ha => (hgood r hr ha).fits) (fun h1 h2 => hR.cloud h1 h2)
  obtain ⟨p', _, hpd⟩ := parseData_spec L (docTab d) caps d hR.ok [] L.nil
  have hpd' := hpd [] (fun _ => []) (fun g => by simpa using hle g)
  simp only [List.nil_append, List.append_nil] at hpd'
  have hbuf : ∀ r ∈ allRequests, Act d r → bufOf caps ⟨p', fun g => pickDoc cn (docTab d) g d⟩ r.id = some (pickDoc cn (docTab d) r.id d) := by
    intro r hr ha
    unfold bufOf
    rw [if_pos (hceq r hr ha).symm]
  have hread : readPly io widen (d.file io fmt cs) = fillMesh widen ⟨docTab d, groups⟩ ⟨decide (d.has rV), decide (d.has rN), colourGroup d, faceGroup d⟩
      (bufOf caps ⟨p', fun g => pickDoc cn (docTab d) g d⟩) := by
    unfold readPly Doc.file
    simp only [parse_header, Option.bind_eq_bind, Option.bind_some, hreq]
    change (capacities _ _ ⟨docTab d, groups⟩ _).bind _ = _
    rw [hcap]
    simp only [Option.bind_some]
    change (parseData _ (docTab d) _ _ _).bind _ = _
    rw [hpd']
    rfl
  -- the coordinates
  have hasV : d.has rV := by
    obtain ⟨e, he, hn, hi⟩ := hR.v
    refine ⟨e, he, hn, fun k hk => ?_⟩
    rw [← hi.1] at hk
    obtain ⟨h1, _⟩ := List.mem_filter.mp hk
    obtain ⟨p, hp, hpk⟩ := List.mem_map.mp h1
    exact ⟨p, hp, hpk⟩
  have actOf : ∀ r : Request, r.id ≠ 4 → r.id ≠ 5 → d.has r → Act d r := fun r h4 h5 h => ⟨h, fun h => absurd h (by simp [h4, h5])⟩
  have aV := actOf rV (by decide) (by decide) hasV
  have mV : rV ∈ allRequests := by simp [allRequests]
  have gV := hgood rV mV aV
  have tyV : (groups rV.id).ty = tv := gV.v rfl
  obtain ⟨V, hV, hVs⟩ := fillD_spec widen d hR.ok hd rV mV aV _ gV.fits (gV.scal rfl).1 (gV.scal rfl).2 rfl (decide ((groups rV.id).ty = .float64)) (by
    rw [tyV]
    rcases hR.tvok with h | h
    · exact Or.inl h
    · exact Or.inr ⟨h, by simp [h]⟩)
  -- the normals
  have mN : rN ∈ allRequests := by simp [allRequests]
  obtain ⟨N, hN, hNs, hN0⟩ : ∃ N, (if decide (d.has rN) then (bufOf caps ⟨p', fun g => pickDoc cn (docTab d) g d⟩ rN.id).bind (fun b =>
        fillD widen (decide ((groups rN.id).ty = .float32)) (decide ((groups rV.id).ty = .float64)) (groups rN.id).count b) else some []) = some N ∧
      (d.has rN → ∀ e ∈ d, e.name = rN.elem → Coords cn widen e rN.keys (groups rN.id).ty N) ∧ (¬ d.has rN → N = []) := by
    by_cases h : d.has rN
    · have aN := actOf rN (by decide) (by decide) h
      have gN := hgood rN mN aN
      obtain ⟨N, hN, hNs⟩ := fillD_spec widen d hR.ok hd rN mN aN _ gN.fits (gN.scal rfl).1 (gN.scal rfl).2 rfl (decide ((groups rV.id).ty = .float64)) (by
        rcases gN.n rfl with h | ⟨h, h'⟩
        · exact Or.inl h
        · exact Or.inr ⟨h, by rw [tyV]; simp [h']⟩)
      exact ⟨N, by simp only [h, decide_true, if_true, hbuf rN mN aN, Option.bind_some]; exact hN, fun _ => hNs, fun h' => absurd h h'⟩
    · exact ⟨[], by simp [h], fun h' => absurd h' h, fun _ => rfl⟩
  -- the faces
  have triF : ∀ r ∈ allRequests, ∀ k, r.hint = 3 → r.keys = [k] → r.id ≠ 4 → r.id ≠ 5 → r ∈ [rF, rF'] → d.has r →
      ∃ F, (bufOf caps ⟨p', fun g => pickDoc cn (docTab d) g d⟩ r.id).bind (fun b => rowsOf 3 4 (groups r.id).count b) = some F ∧
        ∀ e ∈ d, e.name = r.elem → ∀ k ∈ r.keys, Triples cn e k F := by
    intro r hr k h3 hk h4 h5 hm h
    have aF := actOf r h4 h5 h
    have gF := hgood r hr aF
    obtain ⟨F, hF, hFs⟩ := rows_list d hR.ok hd r hr aF _ gF.fits (gF.f h3).1 (by rw [gF.fits.group.1]; exact h3) k hk (gF.f h3).2
      (fun e he hn => hR.f r hm h e he hn k (by rw [hk]; simp))
    refine ⟨F, by rw [hbuf r hr aF]; exact hF, fun e he hn k' hk' => ?_⟩
    rw [hk] at hk'
    rw [List.mem_singleton.mp hk']
    exact hFs e he hn
  obtain ⟨F, hF, hFs, hF0⟩ : ∃ F, (match faceGroup d with
        | some g => (bufOf caps ⟨p', fun g => pickDoc cn (docTab d) g d⟩ g).bind (fun b => rowsOf 3 4 (groups g).count b)
        | none => some []) = some F ∧
      (∀ r, d.First [rF', rF] r → ∀ e ∈ d, e.name = r.elem → ∀ k ∈ r.keys, Triples cn e k F) ∧ ((∀ r ∈ [rF', rF], ¬ d.has r) → F = []) := by
    unfold faceGroup
    by_cases h7 : d.has rF'
    · obtain ⟨F, h1, h2⟩ := triF rF' (by simp [allRequests]) (c! "vertex_index") rfl rfl (by decide) (by decide) (by simp) h7
      refine ⟨F, by rw [if_pos h7]; exact h1, fun r hf => ?_, fun hno => absurd h7 (hno rF' (by simp))⟩
      rcases first_cons hf with ⟨_, rfl⟩ | ⟨h, _⟩
      · exact h2
      · exact absurd h7 h
    · rw [if_neg h7]
      by_cases h6 : d.has rF
      · obtain ⟨F, h1, h2⟩ := triF rF (by simp [allRequests]) (c! "vertex_indices") rfl rfl (by decide) (by decide) (by simp) h6
        refine ⟨F, by rw [if_pos h6]; exact h1, fun r hf => ?_, fun hno => absurd h6 (hno rF (by simp))⟩
        rcases first_cons hf with ⟨h, _⟩ | ⟨_, hf⟩
        · exact absurd h h7
        · rcases first_cons hf with ⟨_, rfl⟩ | ⟨h, _⟩
          · exact h2
          · exact absurd h6 h
      · rw [if_neg h6]
        refine ⟨[], rfl, fun r hf => ?_, fun _ => rfl⟩
        rcases first_cons hf with ⟨h, _⟩ | ⟨_, hf⟩
        · exact absurd h h7
        · rcases first_cons hf with ⟨h, _⟩ | ⟨_, hf⟩
          · exact absurd h h6
          · exact absurd hf first_nil
  -- the colours
  have colC : ∀ r ∈ allRequests, r.hint = 0 → r.keys.length = 4 → r ∈ [rC, rC', rFC, rFC'] → Act d r →
      ∃ C, (bufOf caps ⟨p', fun g => pickDoc cn (docTab d) g d⟩ r.id).bind (fun b => fillC (groups r.id).count b) = some C ∧
        ∀ e ∈ d, e.name = r.elem → ∃ R : List (Fin 4 → Fin 1 → Byte), Scalars cn e r.keys R ∧ C = R.map (fun x j => x j 0) := by
    intro r hr h0 h4 hm ha
    have gC := hgood r hr ha
    obtain ⟨R, h1, h2⟩ := rows_scalar d hR.ok hd r hr ha _ gC.fits (gC.scal h0).1 (gC.scal h0).2 4 1 h4 (by rw [gC.c hm]; rfl)
    exact ⟨R.map (fun x j => x j 0), by rw [hbuf r hr ha]; simp [fillC, h1], fun e he hn => ⟨R, h2 e he hn, rfl⟩⟩
  obtain ⟨C, hC, hCs, hC0⟩ : ∃ C, (match colourGroup d with
        | some g => (bufOf caps ⟨p', fun g => pickDoc cn (docTab d) g d⟩ g).bind (fun b => fillC (groups g).count b)
        | none => some []) = some C ∧
      (∀ r, d.First [rC', rC, rFC', rFC] r → ∀ e ∈ d, e.name = r.elem → ∃ R : List (Fin 4 → Fin 1 → Byte), Scalars cn e r.keys R ∧ C = R.map (fun x j => x j 0)) ∧
      ((∀ r ∈ [rC', rC, rFC', rFC], ¬ d.has r) → C = []) := by
    unfold colourGroup
    by_cases h3 : d.has rC'
    · obtain ⟨C, h1, h2⟩ := colC rC' (by simp [allRequests]) rfl rfl (by simp) (actOf rC' (by decide) (by decide) h3)
      refine ⟨C, by rw [if_pos h3]; exact h1, fun r hf => ?_, fun hno => absurd h3 (hno rC' (by simp))⟩
      rcases first_cons hf with ⟨_, rfl⟩ | ⟨h, _⟩
      · exact h2
      · exact absurd h3 h
    rw [if_neg h3]
    by_cases h2 : d.has rC
    · obtain ⟨C, hc1, hc2⟩ := colC rC (by simp [allRequests]) rfl rfl (by simp) (actOf rC (by decide) (by decide) h2)
      refine ⟨C, by rw [if_pos h2]; exact hc1, fun r hf => ?_, fun hno => absurd h2 (hno rC (by simp))⟩
      rcases first_cons hf with ⟨h, _⟩ | ⟨_, hf⟩
      · exact absurd h h3
      rcases first_cons hf with ⟨_, rfl⟩ | ⟨h, _⟩
      · exact hc2
      · exact absurd h2 h
    rw [if_neg h2]
    by_cases h5 : d.has rFC'
    · obtain ⟨C, hc1, hc2⟩ := colC rFC' (by simp [allRequests]) rfl rfl (by simp) ⟨h5, fun _ => ⟨h2, h3⟩⟩
      refine ⟨C, by rw [if_pos h5]; exact hc1, fun r hf => ?_, fun hno => absurd h5 (hno rFC' (by simp))⟩
      rcases first_cons hf with ⟨h, _⟩ | ⟨_, hf⟩
      · exact absurd h h3
      rcases first_cons hf with ⟨h, _⟩ | ⟨_, hf⟩
      · exact absurd h h2
      rcases first_cons hf with ⟨_, rfl⟩ | ⟨h, _⟩
      · exact hc2
      · exact absurd h5 h
    rw [if_neg h5]
    by_cases h4 : d.has rFC
    · obtain ⟨C, hc1, hc2⟩ := colC rFC (by simp [allRequests]) rfl rfl (by simp) ⟨h4, fun _ => ⟨h2, h3⟩⟩
      refine ⟨C, by rw [if_pos h4]; exact hc1, fun r hf => ?_, fun hno => absurd h4 (hno rFC (by simp))⟩
      rcases first_cons hf with ⟨h, _⟩ | ⟨_, hf⟩
      · exact absurd h h3
      rcases first_cons hf with ⟨h, _⟩ | ⟨_, hf⟩
      · exact absurd h h2
      rcases first_cons hf with ⟨h, _⟩ | ⟨_, hf⟩
      · exact absurd h h5
      rcases first_cons hf with ⟨_, rfl⟩ | ⟨h, _⟩
      · exact hc2
      · exact absurd h4 h
    rw [if_neg h4]
    refine ⟨[], rfl, fun r hf => ?_, fun _ => rfl⟩
    rcases first_cons hf with ⟨h, _⟩ | ⟨_, hf⟩
    · exact absurd h h3
    rcases first_cons hf with ⟨h, _⟩ | ⟨_, hf⟩
    · exact absurd h h2
    rcases first_cons hf with ⟨h, _⟩ | ⟨_, hf⟩
    · exact absurd h h5
    rcases first_cons hf with ⟨h, _⟩ | ⟨_, hf⟩
    · exact absurd h h4
    · exact absurd hf first_nil
  refine ⟨⟨V, F, N, C⟩, ?_, ?_⟩
  · rw [hread]
    unfold fillMesh
    simp only [hasV, decide_true, if_true, hbuf rV mV aV, Option.bind_eq_bind, Option.bind_some, hV, hN]
    exact Option.bind_eq_some_iff.mpr ⟨F, hF, Option.bind_eq_some_iff.mpr ⟨C, hC, rfl⟩⟩
  · refine ⟨?_, ?_, hN0, hCs, hC0, hFs, hF0⟩
    · rw [tyV] at hVs; exact hVs
    · intro h e he hn
      refine ⟨(groups rN.id).ty, fun p hp hk => ?_, hNs h e he hn⟩
      have gN := hgood rN mN (actOf rN (by decide) (by decide) h)
      exact ((gN.fits.group.2 e he hn).2 p hp hk).1

end Gpy.Ply
